import Verif.Props.ToSasG
import Verif.Props.ToSasSides

/-!
C74, continued: cases, and the limits of the turn.
-/

namespace TreeCorr
open Classical ComplexConjugate
noncomputable section

theorem exp_right : Complex.exp (Complex.I * ((Real.pi / 2 : ℝ) : ℂ)) = Complex.I := by
  rw [mul_comm]; push_cast; exact Complex.exp_pi_div_two_mul_I

theorem expm_frac {z : ℂ} (hz : z ≠ 0) : expm .G z = conj (z * z) / (Complex.normSq z : ℂ) := by
  rw [expm, safeNorm, if_pos (Complex.normSq_pos.2 hz)]

/-- The phase of `gam0` for a right angle between two sides 1. -/
theorem gamPhase_11 : gamPhase 1 1 (Real.pi / 2) 0 = some 1 := by
  have hp := Real.pi_pos
  obtain ⟨-, c1, c2, c3⟩ := turn_corner (φ := Real.pi / 2) one_pos one_pos (by linarith) (by linarith)
  rw [gamPhase_eq one_pos one_pos (by linarith) (by linarith)]
  rw [exp_right] at *
  rw [expm_frac c1, expm_frac c2, expm_frac c3]
  congr 1
  simp only [natural]
  apply Complex.ext <;> norm_num [Complex.normSq_apply, Complex.div_re, Complex.div_im, pow_two]

/-- … and between the sides 1 and 2. -/
theorem gamPhase_12 : gamPhase 1 2 (Real.pi / 2) 0 = some ((77 + 36 * Complex.I) / 85) := by
  have hp := Real.pi_pos
  obtain ⟨-, c1, c2, c3⟩ := turn_corner (φ := Real.pi / 2) (d2 := 1) (d3 := 2) one_pos two_pos (by linarith) (by linarith)
  rw [gamPhase_eq one_pos two_pos (by linarith) (by linarith)]
  rw [exp_right] at *
  rw [expm_frac c1, expm_frac c2, expm_frac c3]
  congr 1
  simp only [natural]
  apply Complex.ext <;> norm_num [Complex.normSq_apply, Complex.div_re, Complex.div_im, pow_two]

/-- **C74, negation.** All triangles of a bin are turned by the phase of the mean sides, so that a triangle with other sides gets a value
that is not the one of its centroid projection: with a right angle and the mean sides 1 and 2, one with the sides 1 and 1 is turned by
`(77+36i)/85`, where its own phase is 1. -/
theorem turn_sides_wrong : gamPhase 1 2 (Real.pi / 2) 0 ≠ gamPhase 1 1 (Real.pi / 2) 0 := by
  rw [gamPhase_11, gamPhase_12]
  intro h
  have := congrArg Complex.im (Option.some.inj h)
  norm_num [Complex.div_im] at this

/-- C74 (`turn_exact`) applied: a right angle with sides 2 and any shears. -/
example (sh : Obj (EuclideanSpace ℝ (Fin 2)) → ℂ) (μ : Fin 4) :
    (gamPhase 2 2 (Real.pi / 2) μ).map
      (fun w => natX (flatPhase dist) (flatFactor .G) sh μ (ob 0 0 0, ob 0 2 2, ob 2 0 1) * w) =
    some (natural μ (flatProject3 .G (pt 0 0) (pt 0 2) (pt 2 0) (sh (ob 0 0 0), sh (ob 0 2 2), sh (ob 2 0 1))).1
      (flatProject3 .G (pt 0 0) (pt 0 2) (pt 2 0) (sh (ob 0 0 0), sh (ob 0 2 2), sh (ob 2 0 1))).2.1
      (flatProject3 .G (pt 0 0) (pt 0 2) (pt 2 0) (sh (ob 0 0 0), sh (ob 0 2 2), sh (ob 2 0 1))).2.2) := by
  have hp := Real.pi_pos
  have d1 : dist (pt 0 0) (pt 2 0) = 2 := by rw [dist_pt_x]; norm_num
  have d2 : dist (pt 0 0) (pt 0 2) = 2 := by
    rw [dist_pt, show ((0 : ℝ) - 0) ^ 2 + (0 - 2) ^ 2 = 2 ^ 2 by norm_num, Real.sqrt_sq (by norm_num)]
  have e1 : pt 0 0 ≠ pt 2 0 := dist_ne_zero.1 (by rw [d1]; norm_num)
  have e2 : pt 0 0 ≠ pt 0 2 := dist_ne_zero.1 (by rw [d2]; norm_num)
  have h := turn_exact sh μ (ob 0 0 0) (ob 0 2 2) (ob 2 0 1) e2.symm e1.symm
    (by rw [ob_pos, ob_pos, ob_pos, angle_right.1]; linarith) (by rw [ob_pos, ob_pos, ob_pos, angle_right.1]; linarith) _ rfl
  rw [ob_pos, ob_pos, ob_pos, d1, d2, angle_right.1] at h
  exact h

/-- C74 (`processSasG_plane_partial`, `toSasG_defined`) applied to the right angle of `exRight`: the weight is that of C70, the components
exist and are the sums over the two orders of the triangle. -/
example (sh : Obj (EuclideanSpace ℝ (Fin 2)) → ℂ) (μ : Fin 4) (self : SasGObj Unit) :
    ∃ S, processSasG (runAutoG exMp (flatPhase dist) (flatFactor .G) (simpleSum sh)
        (buildField (sortAlg _ 0) (euclidGeom 2) exFp [ob 0 0 0, ob 2 0 1, ob 0 2 2]).cells)
      exFin3 (fun _ _ _ => 0) (fun _ _ _ => 0) ⟨0, Real.pi, 2, 1⟩ none true true 3 self = some S ∧ S.varNum = 3 ∧
      S.base.weightr 0 0 0 = -(1 / 2) ∧
      ∃ f, gamPhase 1 1 (Real.pi / 4) μ = some f ∧
        S.gam μ 0 0 0 = some ((natX (flatPhase dist) (flatFactor .G) sh μ (ob 0 0 0, ob 2 0 1, ob 0 2 2) +
          natX (flatPhase dist) (flatFactor .G) sh μ (ob 0 0 0, ob 0 2 2, ob 2 0 1)) / 2 * f) := by
  have hp := Real.pi_pos
  obtain ⟨S, e, ev, ⟨S0, e0, eb⟩, h⟩ := processSasG_plane_partial (K := Unit) exMp_ok (by norm_num [exMp]) rfl (sortAlg _ 0) (euclidGeom 2)
    (euclidGeom_dominates 2) exFp rfl _ exRight.1 sh exFin3 (fun _ _ _ => 0) (fun _ _ _ => 0) ⟨0, Real.pi, 2, 1⟩ one_ne_zero none true 3 self
  have k0 : exMp.hasBin 0 := by norm_num [Params.hasBin, exMp]
  obtain ⟨S1, e1, w, -⟩ := processSas_weight_wrong exFin3 (fun _ _ _ => 0) (fun _ _ _ => 0) true self.base
  obtain rfl : S0 = S1 := Option.some.inj (e0.symm.trans e1)
  obtain ⟨S2, e2, hs⟩ := processSas_plane_sides_partial (K := Unit) exMp_ok (by norm_num [exMp]) rfl (sortAlg _ 0) (euclidGeom 2)
    (euclidGeom_dominates 2) exFp rfl _ exRight.1 exFin3 rfl (fun _ _ _ => 0) (fun _ _ _ => 0) ⟨0, Real.pi, 2, 1⟩ none true self.base
  obtain rfl : S0 = S2 := Option.some.inj (e0.symm.trans e2)
  obtain ⟨hs, -⟩ := hs 0 0 k0 k0 0
  rw [exRight.2] at hs
  have d1 : dist (pt 0 0) (pt 2 0) = 2 := by rw [dist_pt_x]; norm_num
  have d2 : dist (pt 0 0) (pt 0 2) = 2 := by
    rw [dist_pt, show ((0 : ℝ) - 0) ^ 2 + (0 - 2) ^ 2 = 2 ^ 2 by norm_num, Real.sqrt_sq (by norm_num)]
  obtain ⟨a, b, -⟩ := hs (by norm_num [brute3])
  have m2 : S0.meand2 0 0 0 = 1 := by rw [a]; simp [mean3, brute3, side2, d1, d2, exFin3]; norm_num
  have m3 : S0.meand3 0 0 0 = 1 := by rw [b]; simp [mean3, brute3, side3, d1, d2, exFin3]; norm_num
  have hph : PhiBins.phi ⟨0, Real.pi, 2, 1⟩ 0 = Real.pi / 4 := by rw [phi_half (by norm_num)]; push_cast; ring
  obtain ⟨f, hg⟩ : ∃ f, gamPhase 1 1 (Real.pi / 4) μ = some f := ⟨_, gamPhase_eq one_pos one_pos (by linarith) (by linarith) μ⟩
  subst eb
  refine ⟨S, e, ev, w, f, hg, ?_⟩
  have h := h 0 0 k0 k0 0 (by rw [w]; norm_num) μ
  rw [exRight.2, maxN_default (by norm_num), m2, m3, w, hph, hg] at h
  obtain ⟨x, hx, hx2⟩ := Option.map_eq_some_iff.1 h
  rw [hx]
  congr 1
  simp only [spreadSumC, Multiset.insert_eq_cons, Multiset.map_cons, Multiset.map_singleton, Multiset.sum_cons, Multiset.sum_singleton,
    ob_pos, angle_right] at hx2
  have t1 : Real.pi / 4 - Real.pi / 2 = (2 * ((-1 : ℤ) : ℝ) + 1) * (Real.pi / (2 * (2 : ℕ))) := by push_cast; ring
  have t2 : Real.pi / 4 - -(Real.pi / 2) = (2 * ((1 : ℤ) : ℝ) + 1) * (Real.pi / (2 * (2 : ℕ))) := by push_cast; ring
  rw [t1, t2, dirichlet_odd (by norm_num), dirichlet_odd (by norm_num)] at hx2
  have sz : PhiBins.size ⟨0, Real.pi, 2, 1⟩ / (2 * Real.pi) = 1 / 4 := by
    simp only [PhiBins.size]; push_cast; field_simp; norm_num
  rw [sz] at hx2
  push_cast at hx2
  linear_combination (-2 : ℂ) * hx2

/-- C74 (`toSasG_results_sum`) applied: two patches, one holds a triangle of angle 0 with the components 1, the other twice that. -/
example (x : ℂ) (i j : ℤ) (hx : (toSasG (K := Unit) ⟨oneMp 1 0, fun _ _ _ _ => 3, 0, [((), fun _ _ _ _ => 1), ((), fun _ _ _ _ => 2)]⟩
      ⟨0, Real.pi, 1, 1⟩).gam 0 i j 0 = some x) :
    x * (((toSas (oneMp 1 0) ⟨0, Real.pi, 1, 1⟩).weightr i j 0 : ℝ) : ℂ) =
      ((toSasG (K := Unit) ⟨oneMp 1 0, fun _ _ _ _ => 3, 0, [((), fun _ _ _ _ => 1), ((), fun _ _ _ _ => 2)]⟩
        ⟨0, Real.pi, 1, 1⟩).results.map fun r => (r.2 0 i j 0).getD 0).sum := by
  refine (toSasG_results_sum _ ⟨0, Real.pi, 1, 1⟩ i j 0 0 one_ne_zero (by intro m _; norm_num) ?_ hx).1
  show (toSas (oneMp 1 0) ⟨0, Real.pi, 1, 1⟩).weightr i j 0 ≠ 0
  have hp := Real.pi_ne_zero
  rw [toSas_one]
  have hs : PhiBins.phi ⟨0, Real.pi, 1, 1⟩ 0 - 0 = Real.pi / 2 := by norm_num [PhiBins.phi, PhiBins.size]; ring
  have hd : dirichlet 1 (Real.pi / 2) = 1 := by
    have hI : Finset.Icc (-((1 : ℕ) : ℤ)) ((1 : ℕ) : ℤ) = {-1, 0, 1} := by decide
    rw [dirichlet, hI]
    simp
  rw [hs, hd, PhiBins.size]
  simp [hp]

end
end TreeCorr
