import Verif.Props.MultipoleG
import Verif.Props.MultipoleAngle
import Verif.Props.Spin3

/-! C73 in the plane, on the sphere and in space; the sum over triangles; a case; what the code gets wrong. -/

namespace TreeCorr
open Classical ComplexConjugate
noncomputable section

/-! ### The projections of the code -/

theorem expm_unit {z : ℂ} (hz : z ≠ 0) : Complex.normSq (expm .G z) = 1 := by
  have h0 : 0 < Complex.normSq z := Complex.normSq_pos.2 hz
  rw [expm, safeNorm, if_pos h0, map_div₀, Complex.normSq_conj, map_mul, Complex.normSq_ofReal, div_self (mul_pos h0 h0).ne']

/-- **C73**: in the plane the code's `e^{iφ}` and projection are as required, for all catalogues. -/
theorem flat_isProj (l1 l2 : List (Obj (EuclideanSpace ℝ (Fin 2)))) : IsProj (flatPhase dist) (flatFactor .G) l1 l2 where
  phase := flat_isPhase l1 l2
  unit := fun _ _ _ _ hd => expm_unit (cplx_ne (lt_of_le_of_ne dist_nonneg (Ne.symm hd)))
  same := by
    intro x x' y y' hx hy
    rw [eq_of_dist_eq_zero hx, eq_of_dist_eq_zero hy]

/-- The same on the sphere, if no row is at a pole and no two are opposite. -/
theorem sph_isProj {l1 l2 : List (Obj (EuclideanSpace ℝ (Fin 3)))} (h1 : ∀ o ∈ l1, ‖o.pos‖ = 1 ∧ ¬ (o.pos 0 = 0 ∧ o.pos 1 = 0))
    (h2 : ∀ o ∈ l2, ‖o.pos‖ = 1 ∧ ¬ (o.pos 0 = 0 ∧ o.pos 1 = 0)) (hop : ∀ o1 ∈ l1, ∀ o2 ∈ l2, o2.pos ≠ -o1.pos) :
    IsProj sphPhase (sphFactor .G) l1 l2 where
  phase := sph_isPhase h1 (fun o h => (h2 o h).1) hop
  unit := fun o1 m1 o2 m2 hd => expm_unit (sphDirection_ne (h2 o2 m2).1 (h1 o1 m1).1 (h2 o2 m2).2
    (fun e => hd (by rw [e, dist_self])) (fun e => hop o1 m1 o2 m2 (by rw [e, neg_neg])))
  same := by
    intro x x' y y' hx hy
    rw [eq_of_dist_eq_zero hx, eq_of_dist_eq_zero hy]

theorem toSphere_unit {p : EuclideanSpace ℝ (Fin 3)} (h : ¬ (p 0 = 0 ∧ p 1 = 0)) :
    ‖toSphere p‖ = 1 ∧ ¬ (toSphere p 0 = 0 ∧ toSphere p 1 = 0) := by
  have h0 : ‖p‖ ≠ 0 := by
    intro e
    rw [norm_eq_zero.1 e] at h
    exact h ⟨rfl, rfl⟩
  unfold toSphere
  rw [if_neg h0]
  refine ⟨by rw [norm_smul, norm_inv, norm_norm, inv_mul_cancel₀ h0], ?_⟩
  simpa [h0] using h

/-- The same in space, for rows off the polar axis, no two of them on one line through the observer. -/
theorem threeD_isProj {l1 l2 : List (Obj (EuclideanSpace ℝ (Fin 3)))} (h1 : ∀ o ∈ l1, ¬ (o.pos 0 = 0 ∧ o.pos 1 = 0))
    (h2 : ∀ o ∈ l2, ¬ (o.pos 0 = 0 ∧ o.pos 1 = 0))
    (hs : ∀ o1 ∈ l1, ∀ o2 ∈ l2, dist o1.pos o2.pos ≠ 0 → toSphere o2.pos ≠ toSphere o1.pos ∧ toSphere o2.pos ≠ -toSphere o1.pos) :
    IsProj threeDPhase (threeDFactor .G) l1 l2 where
  phase := by
    refine ⟨fun o1 m1 o2 m2 hd => ?_, fun x x' y y' hx hy => by rw [eq_of_dist_eq_zero hx, eq_of_dist_eq_zero hy]⟩
    obtain ⟨e1, e2⟩ := hs o1 m1 o2 m2 hd
    exact safe_unit (sphDirection_ne (toSphere_unit (h1 o1 m1)).1 (toSphere_unit (h2 o2 m2)).1 (toSphere_unit (h1 o1 m1)).2 e1 e2)
  unit := by
    intro o1 m1 o2 m2 hd
    obtain ⟨e1, e2⟩ := hs o1 m1 o2 m2 hd
    exact expm_unit (sphDirection_ne (toSphere_unit (h2 o2 m2)).1 (toSphere_unit (h1 o1 m1)).1 (toSphere_unit (h2 o2 m2)).2 e1.symm
      (fun e => e2 (by rw [e, neg_neg])))
  same := by
    intro x x' y y' hx hy
    rw [eq_of_dist_eq_zero hx, eq_of_dist_eq_zero hy]

/-- The sum of the shears of a cell of coincident rows, flat and on the sphere. -/
theorem sumsShear_simple {P : Type} [PseudoMetricSpace P] (sh : Obj P → ℂ) : SumsShear sh (simpleSum sh) := fun _ _ => rfl

theorem sumsShear_transport (sh : Obj (EuclideanSpace ℝ (Fin 3)) → ℂ) : SumsShear sh (transportSum .G sh) := by
  intro c hc
  unfold transportSum
  congr 1
  refine List.map_congr_left fun o ho => ?_
  rw [transportFactor, eq_of_dist_eq_zero (hc o ho), sub_self, if_pos (by norm_num), mul_one]

/-! ### The sum over triangles -/

/-- The direction half way between two directions: for a spin-2 quantity the product of the two phases, unless they are opposite. -/
theorem expm_mid {u v : ℂ} (hu : Complex.normSq u = 1) (hv : Complex.normSq v = 1) (h : u + v ≠ 0) : expm .G (u + v) = conj (u * v) := by
  have h0 : 0 < Complex.normSq (u + v) := Complex.normSq_pos.2 h
  rw [expm, safeNorm, if_pos h0, div_eq_iff (by exact_mod_cast h0.ne'), ← Complex.mul_conj]
  have eu : u * conj u = 1 := by rw [Complex.mul_conj, hu]; simp
  have ev : v * conj v = 1 := by rw [Complex.mul_conj, hv]; simp
  simp only [map_mul, map_add]
  linear_combination (-conj v * conj u - conj v * conj v) * eu + (-conj u * conj u - conj u * conj v) * ev

theorem processMultipoleG_eq {maxn : ℕ} {n : ℤ} (hn : n.natAbs ≤ maxn) (g : ℂ × ℂ × ℂ) {z : ℂ} (hz : Complex.normSq z = 1) (μ : Fin 4) :
    processMultipoleG maxn g z μ n = natural μ g.1 g.2.1 g.2.2 * z ^ n := by
  unfold processMultipoleG
  have e : ∀ gam : ℂ, spreadG maxn gam (fun m => gam * z ^ m.natAbs) (fun m => gam * conj z ^ m.natAbs) n = gam * z ^ n := by
    intro gam
    unfold spreadG
    rcases lt_trichotomy n 0 with h | h | h
    · rw [if_neg h.ne, if_neg h.not_gt, if_pos (by omega), unit_conj hz]
      beta_reduce
      rw [Int.natAbs_neg, inv_pow, ← zpow_natCast, ← zpow_neg]
      congr 2; omega
    · simp [h]
    · rw [if_neg h.ne', if_pos h, if_pos (by omega)]
      beta_reduce
      rw [← zpow_natCast]
      congr 2; omega
  fin_cases μ <;> exact e _

theorem triangleZ_eq {P : Type} (ph : P → P → ℂ) (p1 p2 p3 : P) (h2 : Complex.normSq (ph p1 p2) = 1) (h3 : Complex.normSq (ph p1 p3) = 1) :
    triangleZ ph p1 p2 p3 = ph p1 p3 / ph p1 p2 ∧ Complex.normSq (triangleZ ph p1 p2 p3) = 1 := by
  have e : triangleZ ph p1 p2 p3 = conj (ph p1 p2 * conj (ph p1 p3)) := rfl
  constructor
  · rw [e, map_mul, Complex.conj_conj, unit_conj h2, div_eq_mul_inv, mul_comm]
  · rw [e, Complex.normSq_conj, map_mul, Complex.normSq_conj, h2, h3, mul_one]

/-- **C73, the sum over triangles in the plane, partly.** The summand of C73 is what the triangle algorithm adds for this triangle,
unless the two other points lie in opposite directions from point 1 (`triangle_opposite_wrong`). -/
theorem triangle_summand_partial {maxn : ℕ} {n : ℤ} (hn : n.natAbs ≤ maxn) (sh : Obj (EuclideanSpace ℝ (Fin 2)) → ℂ) (μ : Fin 4)
    (o1 o2 o3 : Obj (EuclideanSpace ℝ (Fin 2))) (h2 : dist o1.pos o2.pos ≠ 0) (h3 : dist o1.pos o3.pos ≠ 0)
    (hop : flatPhase dist o1.pos o2.pos + flatPhase dist o1.pos o3.pos ≠ 0) :
    processMultipoleG maxn (flatProjectX .G o1.pos o2.pos o3.pos (dist o1.pos o3.pos) (dist o1.pos o2.pos) (sh o1, sh o2, sh o3))
        (triangleZ (flatPhase dist) o1.pos o2.pos o3.pos) μ n =
      natX (flatPhase dist) (flatFactor .G) sh μ (o1, o2, o3) *
        (flatPhase dist o1.pos o3.pos / flatPhase dist o1.pos o2.pos) ^ n := by
  have u := (flat_isPhase [o1] [o2, o3]).unit
  have u2 := u o1 (by simp) o2 (by simp) h2
  have u3 := u o1 (by simp) o3 (by simp) h3
  obtain ⟨ez, uz⟩ := triangleZ_eq (flatPhase dist) o1.pos o2.pos o3.pos u2 u3
  rw [processMultipoleG_eq hn _ uz, ez]
  congr 1
  have e : ∀ o : Obj (EuclideanSpace ℝ (Fin 2)), dist o1.pos o.pos ≠ 0 →
      expm .G ((cplx o.pos - cplx o1.pos) / (dist o1.pos o.pos : ℂ)) = flatFactor .G o1.pos o.pos := by
    intro o ho
    have hd : 0 < (dist o1.pos o.pos)⁻¹ := inv_pos.2 (lt_of_le_of_ne dist_nonneg (Ne.symm ho))
    rw [div_eq_inv_mul, ← Complex.ofReal_inv, expm_real_mul _ hd]
    rfl
  unfold natX flatProjectX
  simp only
  rw [e o2 h2, e o3 h3]
  congr 2
  exact expm_mid u2 u3 hop

/-- **C73, negation for the triangle algorithm.** Points 2 and 3 at (-1,0) and (1,0), seen from point 1 in the middle, all shears 1: the
triangle algorithm takes the sum 0 of the two directions as the direction for shear 1 and adds 0 to all four components, while the
natural components have modulus 1, and the multipole algorithm adds them. -/
theorem triangle_opposite_wrong (maxn : ℕ) (μ : Fin 4) :
    processMultipoleG maxn (flatProjectX .G (pt 0 0) (pt (-1) 0) (pt 1 0) (dist (pt 0 0) (pt 1 0)) (dist (pt 0 0) (pt (-1) 0)) (1, 1, 1))
        (triangleZ (flatPhase dist) (pt 0 0) (pt (-1) 0) (pt 1 0)) μ 0 = 0 ∧
      natX (flatPhase dist) (flatFactor .G) (fun _ => 1) μ (ob 0 0 0, ob (-1) 0 1, ob 1 0 2) = -1 := by
  have d1 : dist (pt 0 0) (pt 1 0) = 1 := by rw [dist_pt_x]; norm_num
  have d2 : dist (pt 0 0) (pt (-1) 0) = 1 := by rw [dist_pt_x]; norm_num
  have c0 : cplx (pt 0 0) = 0 := by apply Complex.ext <;> simp [cplx, pt]
  have c1 : cplx (pt 1 0) = 1 := by apply Complex.ext <;> simp [cplx, pt]
  have c2 : cplx (pt (-1) 0) = -1 := by apply Complex.ext <;> simp [cplx, pt]
  constructor
  · unfold processMultipoleG flatProjectX
    rw [d1, d2, c0, c1, c2]
    fin_cases μ <;> simp [spreadG, expm]
  · unfold natX flatPhase flatFactor
    simp only [ob_pos]
    rw [d1, d2, c0, c1, c2]
    fin_cases μ <;> simp [natural, expm, safeNorm]

/-- **C73, the sum over triangles on the sphere, partly.** -/
theorem triangle_summand_sphere_partial {maxn : ℕ} {n : ℤ} (hn : n.natAbs ≤ maxn) (sh : Obj (EuclideanSpace ℝ (Fin 3)) → ℂ) (μ : Fin 4)
    (o1 o2 o3 : Obj (EuclideanSpace ℝ (Fin 3))) (h2 : sphDirection o2.pos o1.pos ≠ 0) (h3 : sphDirection o3.pos o1.pos ≠ 0)
    (hop : sphPhase o1.pos o2.pos + sphPhase o1.pos o3.pos ≠ 0) (g : Fin 3 → ℂ)
    (hg : g = sphereProjectX .G o1.pos o2.pos o3.pos ![sh o1, sh o2, sh o3]) :
    processMultipoleG maxn (g 0, g 1, g 2) (triangleZ sphPhase o1.pos o2.pos o3.pos) μ n =
      natX sphPhase (sphFactor .G) sh μ (o1, o2, o3) * (sphPhase o1.pos o3.pos / sphPhase o1.pos o2.pos) ^ n := by
  have u2 : Complex.normSq (sphPhase o1.pos o2.pos) = 1 := safe_unit h2
  have u3 : Complex.normSq (sphPhase o1.pos o3.pos) = 1 := safe_unit h3
  obtain ⟨ez, uz⟩ := triangleZ_eq sphPhase o1.pos o2.pos o3.pos u2 u3
  subst hg
  rw [processMultipoleG_eq hn _ uz, ez]
  congr 1
  have e0 : sphereProjectX .G o1.pos o2.pos o3.pos ![sh o1, sh o2, sh o3] 0 = sh o1 * expm .G (sphPhase o1.pos o2.pos + sphPhase o1.pos o3.pos) := by
    simp [sphereProjectX, sphProjectX, mulVar, Function.update, sphPhase]
  have e1 : sphereProjectX .G o1.pos o2.pos o3.pos ![sh o1, sh o2, sh o3] 1 = sh o2 * sphFactor .G o1.pos o2.pos := by
    simp [sphereProjectX, sphProjectX, mulVar, Function.update, sphFactor]
  have e2 : sphereProjectX .G o1.pos o2.pos o3.pos ![sh o1, sh o2, sh o3] 2 = sh o3 * sphFactor .G o1.pos o3.pos := by
    simp [sphereProjectX, sphProjectX, mulVar, Function.update, sphFactor]
  rw [e0, e1, e2, expm_mid u2 u3 hop]
  rfl

/-! ### A case -/

/-- C73 applied to one row each at the origin, (2,0) and (0,4), all with shear 1 along the x axis: entry `[1,0]`, `n = 1`, of
`gam_0` is the product of the projected shears `-i`, `1`, `-1` with the phase `i`. -/
example : ∃ out, multipoleCross123G exMp 1 (flatPhase dist) (flatFactor .G) (simpleSum fun _ => 1) .fixed
      (buildField (sortAlg _ 0) (euclidGeom 2) exFp [ob 0 0 0]).cells (buildField (sortAlg _ 0) (euclidGeom 2) exFp [ob 2 0 1]).cells
      (buildField (sortAlg _ 0) (euclidGeom 2) exFp [ob 0 4 2]).cells = some out ∧
      mpTotal (fun v => v.gam 0 1) out 1 0 = -1 ∧ mpTotal (fun v => v.gam 1 1) out 1 0 = 1 := by
  have d1 : dist (pt 0 0) (pt 2 0) = 2 := by rw [dist_pt_x]; norm_num
  have d2 : dist (pt 0 0) (pt 0 4) = 4 := by
    rw [dist_pt, show ((0 : ℝ) - 0) ^ 2 + (0 - 4) ^ 2 = 4 ^ 2 by norm_num, Real.sqrt_sq (by norm_num)]
  have a2 := exMp_bin0 (d := 2) (by norm_num) le_rfl
  have a4 := exMp_bin1 (d := 4) (by norm_num) (by norm_num)
  have f1 : flatPhase dist (pt 0 0) (pt 2 0) = 1 := by rw [flatPhase_x]; norm_num
  have f2 : flatPhase dist (pt 0 0) (pt 0 4) = Complex.I := flatPhase_up 0 (by norm_num)
  have c0 : cplx (pt 0 0) = 0 := by apply Complex.ext <;> simp [cplx, pt]
  have c1 : cplx (pt 2 0) = 2 := by apply Complex.ext <;> simp [cplx, pt]
  have c2 : cplx (pt 0 4) = 4 * Complex.I := by apply Complex.ext <;> simp [cplx, pt]
  have g1 : flatFactor .G (pt 0 0) (pt 2 0) = 1 := by
    rw [flatFactor, c0, c1, sub_zero, expm, safeNorm, if_pos (by norm_num)]
    norm_num
    rw [map_ofNat]; norm_num
  have g2 : flatFactor .G (pt 0 0) (pt 0 4) = -1 := by
    have e : Complex.normSq (4 * Complex.I) = 16 := by norm_num
    rw [flatFactor, c0, c2, sub_zero, expm, safeNorm, if_pos (by rw [e]; norm_num), e,
      show (4 * Complex.I) * (4 * Complex.I) = -16 by linear_combination 16 * Complex.I_mul_I]
    norm_num
    rw [map_ofNat]; norm_num
  have k0 : exMp.hasBin 0 := by norm_num [Params.hasBin, exMp]
  have k1 : exMp.hasBin 1 := by norm_num [Params.hasBin, exMp]
  obtain ⟨out, e, h⟩ := multipoleG_cross123_exact_partial exMp_ok (by norm_num [exMp]) rfl 1 (sumsShear_simple fun _ => 1)
    (sortAlg _ 0) (sortAlg _ 0) (sortAlg _ 0) (euclidGeom 2) (euclidGeom_dominates 2) exFp exFp exFp rfl rfl rfl [ob 0 0 0] [ob 2 0 1]
    [ob 0 4 2] (flat_isProj _ _)
  refine ⟨out, e, ?_, ?_⟩
  · rw [h 1 le_rfl 1 0 k1 k0]
    simp [crossTriples, Multiset.filter_singleton, InSides, side2, side3, d1, d2, a2, a4, phaseSum, f1, f2, natX, natural, g1, g2]
  · rw [h 1 le_rfl 1 0 k1 k0]
    simp [crossTriples, Multiset.filter_singleton, InSides, side2, side3, d1, d2, a2, a4, phaseSum, f1, f2, natX, natural, g1, g2]

/-! ### What the code gets wrong -/

/-- **C73, negation for rows at the same place.** Row 1 at 0, two more rows at 2, all of shear 1.  There are two triangles in `[0,0]`,
the two others in either order, with natural component 1 each; but the two rows share a leaf of the tree, whose whole squared shear is
taken off as if it were that of one row, and `gam0` comes out 0. -/
theorem multipoleG_coincident_wrong : ∃ out, multipoleCross12G exMp 0 (flatPhase dist) (flatFactor .G) (simpleSum fun _ => 1) true
      (buildField (sortAlg _ 0) (euclidGeom 2) exFp [ob 0 0 0]).cells
      (buildField (sortAlg _ 0) (euclidGeom 2) exFp [ob 2 0 1, ob 2 0 2]).cells = some out ∧
    mpTotal (fun v => v.gam 0 0) out 0 0 = 0 ∧
    phaseSum (flatPhase dist) 0 (natX (flatPhase dist) (flatFactor .G) (fun _ => 1) 0)
      ((cross12Triples [ob 0 0 0] [ob 2 0 1, ob 2 0 2]).filter (InSides exMp 0 0)) = 2 := by
  have d1 : dist (pt 0 0) (pt 2 0) = 2 := by rw [dist_pt_x]; norm_num
  have hk := exMp_bin0 (d := 2) (by norm_num) le_rfl
  have f1 : flatPhase dist (pt 0 0) (pt 2 0) = 1 := by rw [flatPhase_x]; norm_num
  have c0 : cplx (pt 0 0) = 0 := by apply Complex.ext <;> simp [cplx, pt]
  have c1 : cplx (pt 2 0) = 2 := by apply Complex.ext <;> simp [cplx, pt]
  have g1 : flatFactor .G (pt 0 0) (pt 2 0) = 1 := by
    rw [flatFactor, c0, c1, sub_zero, expm, safeNorm, if_pos (by norm_num)]
    norm_num
    rw [map_ofNat]; norm_num
  rw [cells_one, cells_pair]
  have b1 := one_bounded (ob 0 0 0) 1 1 0
  have b2 : (Cell.leaf (⟨pt 2 0, 2, 2, 0⟩ : CellData _) [ob 2 0 1, ob 2 0 2]).Bounded 0 := by
    intro o ho
    simp only [List.mem_cons, List.not_mem_nil, or_false] at ho
    rcases ho with rfl | rfl <;> simp
  have h := leaf_run exMp_ok (.inr rfl) (calculateGnG (flatPhase dist) (flatFactor .G) (simpleSum fun _ => 1) 0 true)
    (calculateZetaG 0 exMp.nbins (simpleSum fun _ => 1)) GScratch.clear b1 b2
    (List.mem_singleton_self _) (List.mem_cons_self ..) (k := 0) (by rw [ob_pos, ob_pos, d1]; exact hk)
  have k0 : (0 : ℤ) < exMp.nbins := by norm_num [exMp]
  refine ⟨_, by
    simp only [multipoleCross12G, multipoleG, if_true]
    rw [show (ob 0 0 0).w = 1 from rfl, show (ob 0 0 0).wk = 0 from rfl, h], ?_, ?_⟩
  · rw [List.nil_append, total_calculateZetaG _ _ k0 k0, if_pos ⟨by norm_num, by norm_num [exMp]⟩]
    simp only [GVals.gam]
    rw [gVal_gam0 _ _ _ _ _ (by norm_num)]
    norm_num [calculateGnG, addAtC, addPowersG, GScratch.clear, Cell.sumWGSq, simpleSum, Cell.objs, Cell.pos, Cell.data, f1, g1]
  · have : (cross12Triples [ob 0 0 0] [ob 2 0 1, ob 2 0 2]).filter (InSides exMp 0 0) =
        {(ob 0 0 0, ob 2 0 1, ob 2 0 2), (ob 0 0 0, ob 2 0 2, ob 2 0 1)} := by
      rw [← from12_first_eq]
      simp [from12, Ord3.orders, autoPairs, orders2, Multiset.filter_add, Multiset.filter_cons, Multiset.filter_singleton, InSides, side2, side3, d1, hk]
    rw [this]
    simp [phaseSum, natX, natural, f1, g1]
    norm_num

end
end TreeCorr
