import Verif.Model.ToSasG
import Verif.Props.MultipoleGCases
import Verif.Props.ToSas

/-!
C74: the conversion of the multipoles of shear to side-angle-side bins: the projections are turned from the "x" projection to that on the
centroid, and the components are those of the triangles, spread in the angle.
-/

namespace TreeCorr
open Classical ComplexConjugate
noncomputable section

/-! ### The turn of the projections -/

theorem natural_mul (μ : Fin 4) (a b c x y z : ℂ) : natural μ (a * x) (b * y) (c * z) = natural μ a b c * natural μ x y z := by
  fin_cases μ <;> simp only [natural, map_mul] <;> ring

theorem expm_mul {v : ℂ} (hv : Complex.normSq v = 1) (q : ℂ) : expm .G (q * v) = expm .G q * conj (v * v) := by
  rw [expm, expm, safeNorm, safeNorm, map_mul Complex.normSq, hv, mul_one]
  simp only [map_mul]
  ring

theorem turnSq_eq {a q : ℂ} (ha : a ≠ 0) (hq : q ≠ 0) :
    turnSq (a * conj q) = some (a ^ 2 / (Complex.normSq a : ℂ) * expm .G q) := by
  have hc : conj q ≠ 0 := by simpa using hq
  have h0 : (a * conj q) ^ 2 ≠ 0 := pow_ne_zero 2 (mul_ne_zero ha hc)
  have hn : ‖(a * conj q) ^ 2‖ = Complex.normSq a * Complex.normSq q := by
    rw [norm_pow, norm_mul, Complex.norm_conj, Complex.normSq_eq_norm_sq, Complex.normSq_eq_norm_sq, mul_pow]
  have p1 : (Complex.normSq a : ℂ) ≠ 0 := by exact_mod_cast (Complex.normSq_pos.2 ha).ne'
  have p2 : (Complex.normSq q : ℂ) ≠ 0 := by exact_mod_cast (Complex.normSq_pos.2 hq).ne'
  rw [turnSq, if_neg h0, hn, expm, safeNorm, if_pos (Complex.normSq_pos.2 hq)]
  push_cast
  rw [map_mul]
  congr 1
  field_simp

/-- The corners of a triangle seen from the centroid, point 3 on the x axis. -/
theorem turn_corner {d2 d3 φ : ℝ} (h2 : 0 < d2) (h3 : 0 < d3) (h0 : 0 < φ) (hπ : φ < Real.pi) :
    (1 : ℂ) + Complex.exp (Complex.I * φ) ≠ 0 ∧ ((d2 : ℂ) + d3 * Complex.exp (Complex.I * φ)) / 3 ≠ 0 ∧
    ((d2 : ℂ) + d3 * Complex.exp (Complex.I * φ)) / 3 - d3 * Complex.exp (Complex.I * φ) ≠ 0 ∧
    ((d2 : ℂ) + d3 * Complex.exp (Complex.I * φ)) / 3 - d2 ≠ 0 := by
  have hs := Real.sin_pos_of_pos_of_lt_pi h0 hπ
  have im : (Complex.exp (Complex.I * φ)).im = Real.sin φ := by rw [mul_comm, Complex.exp_ofReal_mul_I_im]
  have hd : 0 < d3 * Real.sin φ := mul_pos h3 hs
  generalize Complex.exp (Complex.I * φ) = e at im
  have i3 : ((d3 : ℂ) * e).im = d3 * Real.sin φ := by rw [Complex.im_ofReal_mul, im]
  have it : ∀ z : ℂ, (z / 3).im = z.im / 3 := fun z => by rw [show (3 : ℂ) = ((3 : ℝ) : ℂ) by norm_num, Complex.div_ofReal_im]
  refine ⟨fun h => ?_, fun h => ?_, fun h => ?_, fun h => ?_⟩ <;> have h := congrArg Complex.im h
  · rw [Complex.add_im, im, Complex.one_im, Complex.zero_im] at h; linarith
  · rw [it, Complex.add_im, i3, Complex.ofReal_im, Complex.zero_im] at h; linarith
  · rw [Complex.sub_im, it, Complex.add_im, i3, Complex.ofReal_im, Complex.zero_im] at h; linarith
  · rw [Complex.sub_im, it, Complex.add_im, i3, Complex.ofReal_im, Complex.zero_im] at h; linarith

theorem exp_unit (φ : ℝ) : Complex.normSq (Complex.exp (Complex.I * φ)) = 1 := by
  rw [Complex.normSq_eq_norm_sq, mul_comm, Complex.norm_exp_ofReal_mul_I, one_pow]

/-- The phases in terms of the factors of the two projections. -/
theorem gamPhase_eq {d2 d3 φ : ℝ} (h2 : 0 < d2) (h3 : 0 < d3) (h0 : 0 < φ) (hπ : φ < Real.pi) (μ : Fin 4) :
    gamPhase d2 d3 φ μ = some (natural μ
      (Complex.exp (Complex.I * φ) * expm .G (((d2 : ℂ) + d3 * Complex.exp (Complex.I * φ)) / 3))
      (Complex.exp (Complex.I * φ) ^ 2 * expm .G (((d2 : ℂ) + d3 * Complex.exp (Complex.I * φ)) / 3 - d3 * Complex.exp (Complex.I * φ)))
      (expm .G (((d2 : ℂ) + d3 * Complex.exp (Complex.I * φ)) / 3 - d2))) := by
  obtain ⟨c0, c1, c2, c3⟩ := turn_corner h2 h3 h0 hπ
  have he := exp_unit φ
  unfold gamPhase
  simp only
  generalize hz : Complex.exp (Complex.I * φ) = e at *
  have e0 := unit_ne he
  have hn : ‖e‖ = 1 := by
    have := he
    rw [Complex.normSq_eq_norm_sq] at this
    nlinarith [norm_nonneg e]
  have d30 : (d3 : ℂ) ≠ 0 := by exact_mod_cast h3.ne'
  have d20 : (d2 : ℂ) ≠ 0 := by exact_mod_cast h2.ne'
  have t0 : (d3 : ℂ) * e ≠ 0 := mul_ne_zero d30 e0
  have nt : ‖(d3 : ℂ) * e‖ = d3 := by rw [norm_mul, hn, mul_one, Complex.norm_real, Real.norm_of_nonneg h3.le]
  have ht : (d3 : ℂ) * e / (d3 : ℂ) = e := by field_simp
  rw [if_neg t0, nt, ht]
  have u0 : (1 + e) / 2 ≠ 0 := div_ne_zero c0 two_ne_zero
  have ec : e * conj e = 1 := by rw [Complex.mul_conj, he]; simp
  have gu : ((1 + e) / 2) ^ 2 / (Complex.normSq ((1 + e) / 2) : ℂ) = e := by
    have p : (Complex.normSq ((1 + e) / 2) : ℂ) ≠ 0 := by exact_mod_cast (Complex.normSq_pos.2 u0).ne'
    rw [div_eq_iff p, ← Complex.mul_conj]
    simp only [map_div₀, map_add, map_one, map_ofNat]
    linear_combination (-(1 + e) / 4) * ec
  have gt : ((d3 : ℂ) * e) ^ 2 / (Complex.normSq ((d3 : ℂ) * e) : ℂ) = e ^ 2 := by
    rw [map_mul, he, Complex.normSq_ofReal]
    push_cast
    field_simp
  have gs : (d2 : ℂ) ^ 2 / (Complex.normSq (d2 : ℂ) : ℂ) = 1 := by
    rw [Complex.normSq_ofReal]
    push_cast
    field_simp
  simp only [Option.bind_eq_bind, Option.bind_some]
  rw [turnSq_eq u0 c1, turnSq_eq t0 c2, turnSq_eq d20 c3, gu, gt, gs, one_mul]
  fin_cases μ <;> rfl

/-- **C74**: the phases of a bin turn the natural components of a triangle of its sides and angle from the "x" projection to the one towards
the centroid, for all shears.  Sides and angle are those of the code: `d2` from point 1 to 3, `d3` from 1 to 2, `φ` from point 3
counterclockwise to point 2. -/
theorem turn_exact (sh : Obj (EuclideanSpace ℝ (Fin 2)) → ℂ) (μ : Fin 4) (o1 o2 o3 : Obj (EuclideanSpace ℝ (Fin 2)))
    (h2 : o2.pos ≠ o1.pos) (h3 : o3.pos ≠ o1.pos) (h0 : 0 < planeAngle o1.pos o3.pos o2.pos) (hπ : planeAngle o1.pos o3.pos o2.pos < Real.pi)
    (f : ℂ × ℂ × ℂ) (hf : f = flatProject3 .G o1.pos o2.pos o3.pos (sh o1, sh o2, sh o3)) :
    (gamPhase (dist o1.pos o3.pos) (dist o1.pos o2.pos) (planeAngle o1.pos o3.pos o2.pos) μ).map
      (fun w => natX (flatPhase dist) (flatFactor .G) sh μ (o1, o2, o3) * w) = some (natural μ f.1 f.2.1 f.2.2) := by
  have d2 : 0 < dist o1.pos o3.pos := dist_pos.2 h3.symm
  have d3 : 0 < dist o1.pos o2.pos := dist_pos.2 h2.symm
  rw [gamPhase_eq d2 d3 h0 hπ, Option.map_some, hf]
  congr 1
  have u := (flat_isPhase [o1] [o2, o3]).unit
  have u2 := u o1 (by simp) o2 (by simp) d3.ne'
  have u3 := u o1 (by simp) o3 (by simp) d2.ne'
  have hang := flat_phase_angle h3 h2
  have hp2 : cplx o2.pos - cplx o1.pos = dist o1.pos o2.pos * flatPhase dist o1.pos o2.pos := by
    unfold flatPhase; rw [mul_div_cancel₀ _ (by exact_mod_cast d3.ne')]
  have hp3 : cplx o3.pos - cplx o1.pos = dist o1.pos o3.pos * flatPhase dist o1.pos o3.pos := by
    unfold flatPhase; rw [mul_div_cancel₀ _ (by exact_mod_cast d2.ne')]
  rw [div_eq_iff (unit_ne u3), mul_comm _ Complex.I] at hang
  have he := exp_unit (planeAngle o1.pos o3.pos o2.pos)
  have hcen : cplx ((3 : ℝ)⁻¹ • (o1.pos + o2.pos + o3.pos)) = (cplx o1.pos + cplx o2.pos + cplx o3.pos) / 3 := by
    apply Complex.ext
    · rw [show (3 : ℂ) = ((3 : ℝ) : ℂ) by norm_num, Complex.div_ofReal_re]
      simp [cplx]; ring
    · rw [show (3 : ℂ) = ((3 : ℝ) : ℂ) by norm_num, Complex.div_ofReal_im]
      simp [cplx]; ring
  unfold natX flatProject3 flatFactor
  simp only
  rw [← natural_mul, hcen]
  rw [hp2, hp3, hang]
  rw [hang] at hp2
  generalize flatPhase dist o1.pos o3.pos = v at *
  generalize Complex.exp (Complex.I * (planeAngle o1.pos o3.pos o2.pos : ℝ)) = e at *
  generalize dist o1.pos o3.pos = a at *
  generalize dist o1.pos o2.pos = b at *
  have ec : e * conj e = 1 := by rw [Complex.mul_conj, he]; simp
  have q1 : (cplx o1.pos + cplx o2.pos + cplx o3.pos) / 3 - cplx o1.pos = ((a : ℂ) + b * e) / 3 * v := by
    linear_combination (1 / 3 : ℂ) * hp2 + (1 / 3 : ℂ) * hp3
  have q2 : (cplx o1.pos + cplx o2.pos + cplx o3.pos) / 3 - cplx o2.pos = (((a : ℂ) + b * e) / 3 - b * e) * v := by
    linear_combination (-2 / 3 : ℂ) * hp2 + (1 / 3 : ℂ) * hp3
  have q3 : (cplx o1.pos + cplx o2.pos + cplx o3.pos) / 3 - cplx o3.pos = (((a : ℂ) + b * e) / 3 - a) * v := by
    linear_combination (1 / 3 : ℂ) * hp2 + (-2 / 3 : ℂ) * hp3
  have x2 : expm .G ((b : ℂ) * (e * v)) = conj (e * e) * conj (v * v) := by
    rw [← mul_assoc, expm_mul u3]
    have := expm_real_mul .G d3 e
    rw [this, show e = 1 * e by ring, expm_mul he]
    simp [expm, safeNorm]
  have x3 : expm .G ((a : ℂ) * v) = conj (v * v) := by
    rw [expm_real_mul .G d2, show v = 1 * v by ring, expm_mul u3]
    simp [expm, safeNorm]
  rw [q1, q2, q3, x2, x3, expm_mul u3, expm_mul u3, expm_mul u3]
  congr 1
  · simp only [map_mul]
    linear_combination (sh o1 * conj v * conj v * expm .G (((a : ℂ) + b * e) / 3)) * ec
  · simp only [map_mul]
    linear_combination (sh o2 * conj v * conj v * expm .G (((a : ℂ) + b * e) / 3 - b * e)) * (e * conj e + 1) * ec
  · ring

/-! ### The components -/

theorem dirichlet_exp (N : ℕ) (x : ℝ) : (dirichlet N x : ℂ) = ∑ n ∈ Finset.Icc (-(N : ℤ)) N, Complex.exp (n * x * Complex.I) := by
  have h1 : ∀ n : ℤ, Complex.exp (n * x * Complex.I) = (Real.cos (n * x) : ℂ) + (Real.sin (n * x) : ℂ) * Complex.I := by
    intro n
    rw [show (n : ℂ) * x * Complex.I = ((n * x : ℝ) : ℂ) * Complex.I by push_cast; ring, Complex.exp_mul_I]
    push_cast; rfl
  have h2 : ∑ n ∈ Finset.Icc (-(N : ℤ)) N, (Real.sin (n * x) : ℂ) = 0 := by
    have : ∑ n ∈ Finset.Icc (-(N : ℤ)) N, (Real.sin (n * x) : ℂ) = ∑ n ∈ Finset.Icc (-(N : ℤ)) N, -(Real.sin (n * x) : ℂ) := by
      refine Finset.sum_nbij (fun n => -n) ?_ ?_ ?_ ?_
      · intro n hn; simp only [Finset.mem_Icc] at hn ⊢; omega
      · intro a _ b _ h; simpa using h
      · intro n hn; refine ⟨-n, ?_, by simp⟩; simp only [Finset.coe_Icc, Set.mem_Icc] at hn ⊢; omega
      · intro n _; push_cast; rw [neg_mul, Complex.sin_neg, neg_neg]
    rw [Finset.sum_neg_distrib] at this
    exact self_eq_neg.1 this
  rw [Finset.sum_congr rfl fun n _ => h1 n, Finset.sum_add_distrib, ← Finset.sum_mul, h2, zero_mul, add_zero, dirichlet]
  push_cast; rfl

theorem transformC_spread {P : Type} {ph : P → P → ℂ} {φ : P → P → P → ℝ} (f : Obj P × Obj P × Obj P → ℂ) (maxn : ℕ) (B : PhiBins)
    (w : ℤ → ℤ → ℤ → ℂ) (i j k : ℤ) (m : Multiset (Obj P × Obj P × Obj P))
    (ho : ∀ q ∈ m, ph q.1.pos q.2.2.pos / ph q.1.pos q.2.1.pos = Complex.exp (-(φ q.1.pos q.2.2.pos q.2.1.pos) * Complex.I))
    (h : ∀ n : ℤ, n.natAbs ≤ maxn → w i j (n + maxn) = phaseSum ph n f m) :
    transformC maxn B w i j k = (B.size / (2 * Real.pi) : ℝ) * spreadSumC f maxn φ m (B.phi k) := by
  have key : ∑ n ∈ Finset.Icc (-(maxn : ℤ)) maxn, w i j (n + maxn) * Complex.exp (Complex.I * n * B.phi k) =
      spreadSumC f maxn φ m (B.phi k) := by
    rw [Finset.sum_congr rfl fun n hn => by rw [h n (by have := Finset.mem_Icc.1 hn; omega)]]
    unfold spreadSumC phaseSum
    clear h
    induction m using Multiset.induction with
    | empty => simp
    | cons q m ih =>
      rw [Multiset.map_cons, Multiset.sum_cons, ← ih fun q hq => ho q (Multiset.mem_cons_of_mem hq), dirichlet_exp, Finset.mul_sum,
        ← Finset.sum_add_distrib]
      refine Finset.sum_congr rfl fun n _ => ?_
      rw [Multiset.map_cons, Multiset.sum_cons, add_mul, ho q (Multiset.mem_cons_self q m), ← Complex.exp_int_mul, mul_assoc, ← Complex.exp_add]
      congr 3
      push_cast; ring
  unfold transformC
  rw [key]
  push_cast
  ring

/-- **C74**: if the multipoles are those of a set of triangles, then each natural component in an angle bin, times `weight` of the bin, is
the sum of those of the triangles, each spread by the Dirichlet kernel around its angle, turned by the phase of the bin. -/
theorem toSasG_spread {K P : Type} {ph : P → P → ℂ} {φ : P → P → P → ℝ} (F : Fin 4 → Obj P × Obj P × Obj P → ℂ) (M : MpGObj K) (B : PhiBins)
    (i j : ℤ) (m : Multiset (Obj P × Obj P × Obj P))
    (ho : ∀ q ∈ m, ph q.1.pos q.2.2.pos / ph q.1.pos q.2.1.pos = Complex.exp (-(φ q.1.pos q.2.2.pos q.2.1.pos) * Complex.I))
    (h : ∀ (μ : Fin 4) (n : ℤ), n.natAbs ≤ M.base.maxn → M.gam μ i j (n + M.base.maxn) = phaseSum ph n (F μ) m) (k : ℤ) (hu : B.units ≠ 0)
    (hw : (toSasG M B).base.weightr i j k ≠ 0) (μ : Fin 4) :
    ((toSasG M B).gam μ i j k).map (fun x => x * ((toSasG M B).base.weightr i j k : ℂ)) =
      (gamPhase (M.base.meand2 i j 0) (M.base.meand3 i j 0) (B.phi k) μ).map fun f =>
        (B.size / (2 * Real.pi) : ℝ) * spreadSumC (F μ) M.base.maxn φ m (B.phi k) * f := by
  have e := transformC_spread (F μ) M.base.maxn B (M.gam μ) i j k m ho (h μ)
  have hw' : ((toSas M.base B).weightr i j k : ℂ) ≠ 0 := by exact_mod_cast hw
  have hp : (toSas M.base B).meanphi i j k * B.units = B.phi k := div_mul_cancel₀ _ hu
  show ((gamPhase (M.base.meand2 i j 0) (M.base.meand3 i j 0) ((toSas M.base B).meanphi i j k * B.units) μ).map _).map _ = _
  rw [hp, Option.map_map]
  congr 1
  funext f
  show (if (toSas M.base B).weightr i j k ≠ 0 then transformC M.base.maxn B (M.gam μ) i j k / ((toSas M.base B).weightr i j k : ℂ)
    else transformC M.base.maxn B (M.gam μ) i j k) * f * ((toSas M.base B).weightr i j k : ℂ) = _
  rw [if_pos (show (toSas M.base B).weightr i j k ≠ 0 from hw), e]
  field_simp

/-- **C74**: the phases exist in every bin that the constructor accepts (`0 ≤ min_phi < max_phi ≤ π`), so that no value is NaN. -/
theorem toSasG_defined {K : Type} (M : MpGObj K) (B : PhiBins) (h0 : 0 ≤ B.minphi) (h1 : B.minphi < B.maxphi) (h2 : B.maxphi ≤ Real.pi)
    (hu : B.units ≠ 0) (i j : ℤ) (d2 : 0 < M.base.meand2 i j 0) (d3 : 0 < M.base.meand3 i j 0) (k : ℤ) (k0 : 0 ≤ k) (k1 : k < B.n) (μ : Fin 4) :
    ((toSasG M B).gam μ i j k).isSome ∧ ∀ r ∈ (toSasG M B).results, (r.2 μ i j k).isSome := by
  have hn : (0 : ℝ) < B.n := by
    have : 0 < B.n := by omega
    exact_mod_cast this
  have hs : 0 < B.size := div_pos (by linarith) hn
  have kr : (0 : ℝ) ≤ k := by exact_mod_cast k0
  have kr1 : (k : ℝ) + 1 ≤ B.n := by exact_mod_cast k1
  have he : B.n * B.size = B.maxphi - B.minphi := by unfold PhiBins.size; field_simp
  have p0 : 0 < B.phi k := by
    unfold PhiBins.phi
    have := mul_nonneg kr hs.le
    norm_num
    linarith
  have p1 : B.phi k < Real.pi := by
    unfold PhiBins.phi
    have := mul_le_mul_of_nonneg_right kr1 hs.le
    norm_num
    linarith
  have hp : (toSas M.base B).meanphi i j k * B.units = B.phi k := div_mul_cancel₀ _ hu
  obtain ⟨f, hg⟩ : ∃ f, gamPhase ((toSas M.base B).meand2 i j k) ((toSas M.base B).meand3 i j k) ((toSas M.base B).meanphi i j k * B.units) μ =
      some f := by
    rw [hp]
    exact ⟨_, gamPhase_eq d2 d3 p0 p1 μ⟩
  constructor
  · show ((gamPhase _ _ _ μ).map _).isSome
    rw [hg]; rfl
  · intro r hr
    obtain ⟨r', -, rfl⟩ := List.mem_map.1 hr
    show ((gamPhase _ _ _ μ).map _).isSome
    rw [hg]; rfl

theorem transformC_sum {K : Type} (maxn : ℕ) (B : PhiBins) (L : List K) (g : K → ℤ → ℤ → ℤ → ℂ) (i j k : ℤ) (w : ℤ → ℤ → ℤ → ℂ)
    (h : ∀ n : ℤ, n.natAbs ≤ maxn → w i j (n + maxn) = (L.map fun r => g r i j (n + maxn)).sum) :
    transformC maxn B w i j k = (L.map fun r => transformC maxn B (g r) i j k).sum := by
  unfold transformC
  rw [Finset.sum_congr rfl fun n hn => by rw [h n (by rw [Finset.mem_Icc] at hn; omega)]]
  clear h
  induction L with
  | nil => simp
  | cons r L ih =>
    rw [List.map_cons, List.sum_cons, ← ih]
    simp only [List.map_cons, List.sum_cons, add_mul, Finset.sum_add_distrib, add_div]

/-- **C74**: if the results of the patches add up to the whole, so they do after the conversion; they are not divided by the weight. -/
theorem toSasG_results_sum {K : Type} (M : MpGObj K) (B : PhiBins) (i j k : ℤ) (μ : Fin 4) (hu : B.units ≠ 0)
    (h : ∀ n : ℤ, n.natAbs ≤ M.base.maxn → M.gam μ i j (n + M.base.maxn) = (M.results.map fun r => r.2 μ i j (n + M.base.maxn)).sum) (hw : (toSasG M B).base.weightr i j k ≠ 0) {x : ℂ}
    (hx : (toSasG M B).gam μ i j k = some x) :
    x * ((toSasG M B).base.weightr i j k : ℂ) = ((toSasG M B).results.map fun r => (r.2 μ i j k).getD 0).sum ∧
      ∀ r ∈ (toSasG M B).results, (r.2 μ i j k).isSome := by
  have hw' : ((toSas M.base B).weightr i j k : ℂ) ≠ 0 := by exact_mod_cast hw
  change ((gamPhase _ _ _ μ).map _) = _ at hx
  obtain ⟨f, hf, hx⟩ := Option.map_eq_some_iff.1 hx
  have e := transformC_sum M.base.maxn B M.results (fun r => r.2 μ) i j k (M.gam μ) h
  constructor
  · show x * ((toSas M.base B).weightr i j k : ℂ) = _
    rw [← hx]
    show (if (toSas M.base B).weightr i j k ≠ 0 then transformC M.base.maxn B (M.gam μ) i j k / ((toSas M.base B).weightr i j k : ℂ)
      else transformC M.base.maxn B (M.gam μ) i j k) * f * ((toSas M.base B).weightr i j k : ℂ) = _
    rw [if_pos (show (toSas M.base B).weightr i j k ≠ 0 from hw), div_mul_eq_mul_div, div_mul_cancel₀ _ hw', e, ← List.sum_map_mul_right]
    show _ = ((M.results.map _).map _).sum
    rw [List.map_map]
    congr 1
    refine List.map_congr_left fun r _ => ?_
    show _ = ((gamPhase _ _ _ μ).map _).getD 0
    rw [hf]; rfl
  · intro r hr
    obtain ⟨r', -, rfl⟩ := List.mem_map.1 hr
    show ((gamPhase _ _ _ μ).map _).isSome
    rw [hf]; rfl

/-! ### From the catalogue -/

/-- **C74, one catalogue in the plane, partly.** `process` of a `LogSAS` object of shear with the default algorithm and
`angle_slop = 0`, no two rows at the same place: the natural components in an angle bin, times its weight, are the sums over the triangles
with these sides of those in the "x" projection, each spread around its angle, turned by the phase of the bin; and that phase is the one that
turns a triangle with the mean sides and the angle of the bin exactly (`turn_exact`).  Missing: triangles of the bin with other sides or
angles are turned by the same phase. -/
theorem processSasG_plane_partial {K : Type} {p : Params} (hp : LogParams p) (hnb : 0 < p.nbins) (ha : p.a = 0)
    (A : StdAlg (EuclideanSpace ℝ (Fin 2))) (g : Geom (EuclideanSpace ℝ (Fin 2))) (hg : g.Dominates) (fp : FieldParams)
    (hf : fp.minsize = 0) (l : List (Obj (EuclideanSpace ℝ (Fin 2)))) (hl : Apart l) (sh : Obj (EuclideanSpace ℝ (Fin 2)) → ℂ)
    (F : FinParams3) (logd2 logd3 : ℤ → ℤ → ℤ → ℝ) (B : PhiBins) (hu : B.units ≠ 0) (given : Option ℕ) (init : Bool) (varNum : ℝ)
    (self : SasGObj K) :
    ∃ S, processSasG (runAutoG p (flatPhase dist) (flatFactor .G) (simpleSum sh) (buildField A g fp l).cells) F logd2 logd3 B given init true
        varNum self = some S ∧ S.varNum = varNum ∧
      (∃ S0 : SasObj K, processSas (runAuto p (flatPhase dist) (buildField A g fp l).cells) F logd2 logd3 B given init true self.base = some S0 ∧
        S.base = S0) ∧
      ∀ k2 k3, p.hasBin k2 → p.hasBin k3 → ∀ k, S.base.weightr k2 k3 k ≠ 0 → ∀ μ : Fin 4,
        (S.gam μ k2 k3 k).map (fun x => x * (S.base.weightr k2 k3 k : ℂ)) =
          (gamPhase (S.base.meand2 k2 k3 k) (S.base.meand3 k2 k3 k) (B.phi k) μ).map fun f =>
            (B.size / (2 * Real.pi) : ℝ) * spreadSumC (natX (flatPhase dist) (flatFactor .G) sh μ) (B.maxN given) planeAngle
              ((orderedTriples l).filter (InSides p k2 k3)) (B.phi k) * f := by
  set N := B.maxN given with hN
  obtain ⟨out, e, h⟩ := multipoleG_auto_exact_partial hp hnb ha N (sumsShear_simple sh) A g hg fp hf l hl (flat_isProj l l)
  have eb := (multipoleG_counts p N (flatPhase dist) (flatFactor .G) (simpleSum sh) .any true (buildField A g fp l).cells [] []).1
  rw [e] at eb
  set M : MpGObj K := { (MpGObj.new K N).add out with base := ((MpGObj.new K N).add out).base.finalize F logd2 logd3, varNum := varNum } with hM
  refine ⟨toSasG M B, ?_, rfl, ⟨toSas M.base B, ?_, rfl⟩, ?_⟩
  · have e1 : (if init = true then MpGObj.new K (MpGObj.new K N).base.maxn else MpGObj.new K N) = MpGObj.new K N := by split <;> rfl
    simp only [processSasG, ← hN, e1]
    have : runAutoG (K := K) p (flatPhase dist) (flatFactor .G) (simpleSum sh) (buildField A g fp l).cells (MpGObj.new K N) =
        some ((MpGObj.new K N).add out) := by
      show Option.map _ (multipoleAutoG p N (flatPhase dist) (flatFactor .G) (simpleSum sh) (buildField A g fp l).cells) = _
      rw [e]; rfl
    rw [this]
    rfl
  · rw [processSas_eq]
    show Option.map _ ((multipoleAuto p N (flatPhase dist) (buildField A g fp l).cells).map (MpObj.new K N).add) = _
    rw [← eb]
    rfl
  · intro k2 k3 b2 b3 k hw μ
    refine toSasG_spread (ph := flatPhase dist) (φ := planeAngle) (natX (flatPhase dist) (flatFactor .G) sh) M B k2 k3 _ ?_ ?_ k hu hw μ
    · rintro ⟨o1, o2, o3⟩ hq
      have := InSides.ne hp (Multiset.mem_filter.1 hq).2
      have n2 : o2.pos ≠ o1.pos := fun e => this.1 (dist_eq_zero.2 e.symm)
      have n3 : o3.pos ≠ o1.pos := fun e => this.2 (dist_eq_zero.2 e.symm)
      have a := flat_phase_angle n3 n2
      show flatPhase dist o1.pos o3.pos / flatPhase dist o1.pos o2.pos = _
      rw [neg_mul, Complex.exp_neg, ← a, inv_div]
    · intro μ n hn
      rw [← h n hn k2 k3 b2 b3 μ]
      show (0 : ℂ) + mpTotal _ out k2 k3 = _
      rw [zero_add]
      have : ∀ v : GVals, (match μ with
        | 0 => v.gam0
        | 1 => v.gam1
        | 2 => v.gam2
        | 3 => v.gam3) (n + (N : ℤ) - (N : ℤ)) = v.gam μ n := by
        intro v; rw [add_sub_cancel_right]; rfl
      exact congrArg (fun f => mpTotal f out k2 k3) (funext this)

end
end TreeCorr
