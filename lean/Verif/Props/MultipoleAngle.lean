import Verif.Proofs.SpinSphere
import Verif.Props.MultipoleCases
import Verif.Spec.TriangleAngle

/-!
C57, continued: the quotient of the code's two directions is `e^{iφ}` for the angle of the triangle at point 1, so the multipoles do
not depend on the axes.
-/

namespace TreeCorr
open Classical
noncomputable section

theorem exp_arg {z : ℂ} (hz : z ≠ 0) : z / (‖z‖ : ℂ) = Complex.exp (Complex.arg z * Complex.I) := by
  rw [div_eq_iff (by exact_mod_cast norm_ne_zero_iff.2 hz), mul_comm]
  exact (Complex.norm_mul_exp_arg_mul_I z).symm

/-- **C57**: in the plane. -/
theorem flat_phase_angle {p1 p2 p3 : EuclideanSpace ℝ (Fin 2)} (h2 : p2 ≠ p1) (h3 : p3 ≠ p1) :
    flatPhase dist p1 p3 / flatPhase dist p1 p2 = Complex.exp (planeAngle p1 p2 p3 * Complex.I) := by
  have hn : ∀ q : EuclideanSpace ℝ (Fin 2), dist p1 q = ‖cplx q - cplx p1‖ := by
    intro q
    rw [Complex.norm_eq_sqrt_sq_add_sq, EuclideanSpace.dist_eq, Fin.sum_univ_two]
    simp only [Real.dist_eq, sq_abs, cplx, Complex.sub_re, Complex.sub_im]
    congr 1; ring
  have hz : ∀ q : EuclideanSpace ℝ (Fin 2), q ≠ p1 → cplx q - cplx p1 ≠ 0 := by
    intro q hq h
    rw [← norm_eq_zero, ← hn] at h
    exact hq (dist_eq_zero.1 h).symm
  have e : ∀ q : EuclideanSpace ℝ (Fin 2), (⟨q 0 - p1 0, q 1 - p1 1⟩ : ℂ) = cplx q - cplx p1 := fun q => by
    apply Complex.ext <;> simp [cplx]
  unfold flatPhase planeAngle
  rw [e, e, hn, hn, ← exp_arg (div_ne_zero (hz _ h3) (hz _ h2)), norm_div]
  push_cast
  have a := hz _ h2
  have b : (‖cplx p2 - cplx p1‖ : ℂ) ≠ 0 := by exact_mod_cast norm_ne_zero_iff.2 a
  have c : (‖cplx p3 - cplx p1‖ : ℂ) ≠ 0 := by exact_mod_cast norm_ne_zero_iff.2 (hz _ h3)
  field_simp

theorem safe_eq {z : ℂ} (hz : z ≠ 0) : z / (Real.sqrt (safeNorm z) : ℂ) = z / (‖z‖ : ℂ) := by
  rw [safeNorm, if_pos (Complex.normSq_pos.2 hz), Complex.normSq_eq_norm_sq, Real.sqrt_sq (norm_nonneg _)]

theorem sphDirection_coords {p1 p2 : EuclideanSpace ℝ (Fin 3)} (h1 : ‖p1‖ = 1) (h2 : ‖p2‖ = 1) :
    sphDirection p2 p1 = ⟨p2 1 * p1 0 - p2 0 * p1 1, -(p2 2 - p1 2 * inner ℝ p1 p2)⟩ := by
  have hd : ‖p2 - p1‖ ^ 2 = (p2 0 - p1 0) ^ 2 + (p2 1 - p1 1) ^ 2 + (p2 2 - p1 2) ^ 2 := by
    rw [EuclideanSpace.norm_sq_eq, Fin.sum_univ_three]
    simp [Real.norm_eq_abs, sq_abs]
  unfold sphDirection
  rw [hd, inner3]
  apply Complex.ext
  · rfl
  · show -((p2 2 - p1 2) + 0.5 * p1 2 * ((p2 0 - p1 0) ^ 2 + (p2 1 - p1 1) ^ 2 + (p2 2 - p1 2) ^ 2)) =
      -(p2 2 - p1 2 * (p1 0 * p2 0 + p1 1 * p2 1 + p1 2 * p2 2))
    linear_combination (-(1 / 2) * p1 2) * (unit3 h1) + (-(1 / 2) * p1 2) * (unit3 h2)

/-- **C57**: on the sphere, off the poles. -/
theorem sph_phase_angle {p1 p2 p3 : EuclideanSpace ℝ (Fin 3)} (h1 : ‖p1‖ = 1) (h2 : ‖p2‖ = 1) (h3 : ‖p3‖ = 1)
    (hpole : ¬ (p1 0 = 0 ∧ p1 1 = 0)) (n2 : p2 ≠ p1) (o2 : p2 ≠ -p1) (n3 : p3 ≠ p1) (o3 : p3 ≠ -p1) :
    sphPhase p1 p3 / sphPhase p1 p2 = Complex.exp (skyAngle p1 p2 p3 * Complex.I) := by
  have a2 := sphDirection_ne h1 h2 hpole n2 o2
  have a3 := sphDirection_ne h1 h3 hpole n3 o3
  have hab : 0 < p1 0 ^ 2 + p1 1 ^ 2 := by
    rcases not_and_or.1 hpole with h | h
    · have := sq_pos_of_ne_zero h; nlinarith [sq_nonneg (p1 1)]
    · have := sq_pos_of_ne_zero h; nlinarith [sq_nonneg (p1 0)]
  have hk : sphDirection p3 p1 * (starRingEnd ℂ) (sphDirection p2 p1) =
      ((p1 0 ^ 2 + p1 1 ^ 2 : ℝ) : ℂ) * ⟨inner ℝ p2 p3 - inner ℝ p1 p2 * inner ℝ p1 p3, -det3 p1 p2 p3⟩ := by
    rw [sphDirection_coords h1 h2, sphDirection_coords h1 h3, inner3, inner3, inner3]
    have e1 := unit3 h1
    apply Complex.ext
    · simp only [Complex.mul_re, Complex.conj_re, Complex.conj_im, Complex.ofReal_re, Complex.ofReal_im]
      linear_combination ((p1 0 * p2 0 + p1 1 * p2 1 + p1 2 * p2 2) * (p1 0 * p3 0 + p1 1 * p3 1 + p1 2 * p3 2) - p2 2 * p3 2) * e1
    · simp only [Complex.mul_im, Complex.conj_re, Complex.conj_im, Complex.ofReal_re, Complex.ofReal_im, det3]
      linear_combination -(p2 2 * (p3 1 * p1 0 - p3 0 * p1 1) - p3 2 * (p2 1 * p1 0 - p2 0 * p1 1)) * e1
  have hq : sphDirection p3 p1 / sphDirection p2 p1 = ((Complex.normSq (sphDirection p2 p1))⁻¹ * (p1 0 ^ 2 + p1 1 ^ 2) : ℝ) *
      (⟨inner ℝ p2 p3 - inner ℝ p1 p2 * inner ℝ p1 p3, -det3 p1 p2 p3⟩ : ℂ) := by
    rw [div_eq_mul_inv, Complex.inv_def, ← mul_assoc, hk]
    push_cast; ring
  unfold skyAngle
  rw [← Complex.arg_real_mul _ (mul_pos (inv_pos.2 (Complex.normSq_pos.2 a2)) hab), ← hq, ← exp_arg (div_ne_zero a3 a2)]
  unfold sphPhase
  simp only []
  rw [safe_eq a2, safe_eq a3, norm_div]
  push_cast
  have b : (‖sphDirection p2 p1‖ : ℂ) ≠ 0 := by exact_mod_cast norm_ne_zero_iff.2 a2
  have c : (‖sphDirection p3 p1‖ : ℂ) ≠ 0 := by exact_mod_cast norm_ne_zero_iff.2 a3
  field_simp

theorem phase_eq_angle {P : Type} {ph : P → P → ℂ} {φ : P → P → P → ℝ} (n : ℤ) {m : Multiset (Obj P × Obj P × Obj P)}
    (h : ∀ q ∈ m, ph q.1.pos q.2.2.pos / ph q.1.pos q.2.1.pos = Complex.exp (φ q.1.pos q.2.1.pos q.2.2.pos * Complex.I)) :
    phaseW ph n m = angleW φ n m ∧ phaseZ ph n m = angleZ φ n m := by
  have e : ∀ q ∈ m, (ph q.1.pos q.2.2.pos / ph q.1.pos q.2.1.pos) ^ n =
      Complex.exp (n * φ q.1.pos q.2.1.pos q.2.2.pos * Complex.I) := by
    intro q hq
    rw [h q hq, ← Complex.exp_int_mul, mul_assoc]
  constructor
  · exact congrArg Multiset.sum (Multiset.map_congr rfl fun q hq => by rw [e q hq])
  · exact congrArg Multiset.sum (Multiset.map_congr rfl fun q hq => by rw [e q hq])

/-- **C57, one catalogue in the plane, partly.** With `angle_slop = 0` and no two rows at the same place, `weight` and `zeta` of index
`n` in entry `[k2,k3]` are the sums of `w1 w2 w3 e^{inφ}` and `w1 k1 w2 k2 w3 k3 e^{inφ}` over the ordered triangles with these
sides. -/
theorem multipole_plane_exact_partial {p : Params} (hp : LogParams p) (hnb : 0 < p.nbins) (ha : p.a = 0) (maxn : ℕ)
    (A : StdAlg (EuclideanSpace ℝ (Fin 2))) (g : Geom (EuclideanSpace ℝ (Fin 2))) (hg : g.Dominates) (fp : FieldParams)
    (hf : fp.minsize = 0) (l : List (Obj (EuclideanSpace ℝ (Fin 2)))) (hl : Apart l) :
    ∃ out, multipoleAuto p maxn (flatPhase dist) (buildField A g fp l).cells = some out ∧
      ∀ n : ℤ, n.natAbs ≤ maxn → ∀ k2 k3, p.hasBin k2 → p.hasBin k3 →
        mpTotal (fun v => v.weight n) out k2 k3 = angleW planeAngle n ((orderedTriples l).filter (InSides p k2 k3)) ∧
        mpTotal (fun v => v.zeta n) out k2 k3 = angleZ planeAngle n ((orderedTriples l).filter (InSides p k2 k3)) := by
  obtain ⟨out, e, -, h⟩ := multipole_auto_exact_partial hp hnb (.inr ha) maxn (flatPhase dist) A g hg fp hf l
  refine ⟨out, e, ?_⟩
  intro n hn k2 k3 b2 b3
  obtain ⟨h1, h2⟩ := (h hl).1 n hn (.inr ⟨ha, flat_isPhase l l⟩) k2 k3 b2 b3
  obtain ⟨e1, e2⟩ := phase_eq_angle (ph := flatPhase dist) (φ := planeAngle) n
    (m := (orderedTriples l).filter (InSides p k2 k3)) (by
      rintro ⟨o1, o2, o3⟩ hq
      have := InSides.ne hp (Multiset.mem_filter.1 hq).2
      exact flat_phase_angle (fun e => this.1 (dist_eq_zero.2 e.symm)) (fun e => this.2 (dist_eq_zero.2 e.symm)))
  exact ⟨h1.trans e1, h2.trans e2⟩

/-- A right angle in the plane, and one on the sphere, from east to north: clockwise on the sky. -/
example : planeAngle (pt 0 0) (pt 2 0) (pt 0 4) = Real.pi / 2 ∧ skyAngle (pt3 1 0 0) (pt3 0 1 0) (pt3 0 0 1) = -(Real.pi / 2) := by
  constructor
  · have : (⟨(pt 0 4) 0 - (pt 0 0) 0, (pt 0 4) 1 - (pt 0 0) 1⟩ : ℂ) / (⟨(pt 2 0) 0 - (pt 0 0) 0, (pt 2 0) 1 - (pt 0 0) 1⟩ : ℂ) =
        ((2 : ℝ) : ℂ) * Complex.I := by
      have e1 : (⟨(pt 2 0) 0 - (pt 0 0) 0, (pt 2 0) 1 - (pt 0 0) 1⟩ : ℂ) = 2 := by apply Complex.ext <;> simp [pt]
      rw [e1, div_eq_iff (by norm_num)]
      apply Complex.ext <;> simp [pt]
      norm_num
    rw [planeAngle, this, Complex.arg_real_mul _ (by norm_num), Complex.arg_I]
  · rw [skyAngle, inner3, inner3, inner3]
    have : (⟨(pt3 0 1 0) 0 * (pt3 0 0 1) 0 + (pt3 0 1 0) 1 * (pt3 0 0 1) 1 + (pt3 0 1 0) 2 * (pt3 0 0 1) 2 -
        ((pt3 1 0 0) 0 * (pt3 0 1 0) 0 + (pt3 1 0 0) 1 * (pt3 0 1 0) 1 + (pt3 1 0 0) 2 * (pt3 0 1 0) 2) *
        ((pt3 1 0 0) 0 * (pt3 0 0 1) 0 + (pt3 1 0 0) 1 * (pt3 0 0 1) 1 + (pt3 1 0 0) 2 * (pt3 0 0 1) 2),
        -det3 (pt3 1 0 0) (pt3 0 1 0) (pt3 0 0 1)⟩ : ℂ) = -Complex.I := by
      apply Complex.ext <;> simp [pt3, det3]
    rw [this, Complex.arg_neg_I]

end
end TreeCorr
