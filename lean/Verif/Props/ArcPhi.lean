import Verif.Model.ArcPhi
import Verif.Spec.TriangleAngle
import Verif.Props.Trivial

/-!
C61: with the `Arc` metric, the angle of `LogSAS` is the angle of the spherical triangle.
-/

namespace TreeCorr
noncomputable section

/-- Gram determinant: on the unit sphere the two components used in `skyAngle` have this norm. -/
theorem sky_normSq {p1 p2 p3 : EuclideanSpace ℝ (Fin 3)} (h1 : ‖p1‖ = 1) (h2 : ‖p2‖ = 1) (h3 : ‖p3‖ = 1) :
    (inner ℝ p2 p3 - inner ℝ p1 p2 * inner ℝ p1 p3) ^ 2 + (-det3 p1 p2 p3) ^ 2
      = (1 - (inner ℝ p1 p2 : ℝ) ^ 2) * (1 - (inner ℝ p1 p3 : ℝ) ^ 2) := by
  have e : ∀ p : EuclideanSpace ℝ (Fin 3), ‖p‖ = 1 → p 0 ^ 2 + p 1 ^ 2 + p 2 ^ 2 = 1 := by
    intro p hp
    have := EuclideanSpace.norm_sq_eq p
    rw [hp, Fin.sum_univ_three] at this
    simpa [sq_abs] using this.symm
  have i : ∀ p q : EuclideanSpace ℝ (Fin 3), (inner ℝ p q : ℝ) = p 0 * q 0 + p 1 * q 1 + p 2 * q 2 := by
    intro p q
    simp [PiLp.inner_apply, Fin.sum_univ_three]
    ring
  rw [i, i, i, det3]
  have g1 := e p1 h1
  have g2 := e p2 h2
  have g3 := e p3 h3
  generalize p1 0 = a0 at *; generalize p1 1 = a1 at *; generalize p1 2 = a2 at *
  generalize p2 0 = b0 at *; generalize p2 1 = b1 at *; generalize p2 2 = b2 at *
  generalize p3 0 = c0 at *; generalize p3 1 = c1 at *; generalize p3 2 = c2 at *
  have gram : (a0 * (b1 * c2 - b2 * c1) + a1 * (b2 * c0 - b0 * c2) + a2 * (b0 * c1 - b1 * c0)) ^ 2
      = (a0 ^ 2 + a1 ^ 2 + a2 ^ 2) * (b0 ^ 2 + b1 ^ 2 + b2 ^ 2) * (c0 ^ 2 + c1 ^ 2 + c2 ^ 2)
        + 2 * (a0 * b0 + a1 * b1 + a2 * b2) * (b0 * c0 + b1 * c1 + b2 * c2) * (a0 * c0 + a1 * c1 + a2 * c2)
        - (a0 ^ 2 + a1 ^ 2 + a2 ^ 2) * (b0 * c0 + b1 * c1 + b2 * c2) ^ 2 - (b0 ^ 2 + b1 ^ 2 + b2 ^ 2) * (a0 * c0 + a1 * c1 + a2 * c2) ^ 2
        - (c0 ^ 2 + c1 ^ 2 + c2 ^ 2) * (a0 * b0 + a1 * b1 + a2 * b2) ^ 2 := by
    ring
  rw [neg_sq, gram, g1, g2, g3]
  ring

theorem arcCosPhi_inner {p1 p2 p3 : EuclideanSpace ℝ (Fin 3)} (h1 : ‖p1‖ = 1) (h2 : ‖p2‖ = 1) (h3 : ‖p3‖ = 1) :
    arcCosPhi p1 p2 p3 = (inner ℝ p2 p3 - inner ℝ p1 p2 * inner ℝ p1 p3)
      / Real.sqrt ((1 - (inner ℝ p1 p2 : ℝ) ^ 2) * (1 - (inner ℝ p1 p3 : ℝ) ^ 2)) := by
  have d : ∀ p q : EuclideanSpace ℝ (Fin 3), ‖p‖ = 1 → ‖q‖ = 1 → ‖p - q‖ ^ 2 = 2 - 2 * inner ℝ p q := by
    intro p q hp hq
    rw [norm_sub_sq_real, hp, hq]
    ring
  unfold arcCosPhi
  simp only [d p2 p3 h2 h3, d p1 p3 h1 h3, d p1 p2 h1 h2]
  generalize (inner ℝ p1 p2 : ℝ) = a
  generalize (inner ℝ p1 p3 : ℝ) = b
  generalize (inner ℝ p2 p3 : ℝ) = c
  rw [show (2 - 2 * b) * (2 - 2 * a) * (1 - 0.25 * (2 - 2 * b)) * (1 - 0.25 * (2 - 2 * a)) = (1 - a ^ 2) * (1 - b ^ 2) by norm_num; ring,
    show 2 - 2 * b + (2 - 2 * a) - 0.5 * (2 - 2 * b) * (2 - 2 * a) - (2 - 2 * c) = 2 * (c - a * b) by norm_num; ring,
    mul_div_mul_left _ _ two_ne_zero]

/-- **C61, on the sphere.** For three points of the unit sphere, the second and the third neither the first one nor opposite to it, what the
`Arc` metric gives to the `LogSAS` bins is the cosine of the angle of the spherical triangle at the first point. -/
theorem arc_sas_cos {p1 p2 p3 : EuclideanSpace ℝ (Fin 3)} (h1 : ‖p1‖ = 1) (h2 : ‖p2‖ = 1) (h3 : ‖p3‖ = 1)
    (h12 : p2 ≠ p1) (h12' : p2 ≠ -p1) (h13 : p3 ≠ p1) (h13' : p3 ≠ -p1) : arcCosPhi p1 p2 p3 = Real.cos (skyAngle p1 p2 p3) := by
  have lt : ∀ p q : EuclideanSpace ℝ (Fin 3), ‖p‖ = 1 → ‖q‖ = 1 → q ≠ p → q ≠ -p → 0 < 1 - (inner ℝ p q : ℝ) ^ 2 := by
    intro p q hp hq hn hn'
    have a1 : (inner ℝ p q : ℝ) ≠ 1 := fun h => hn ((inner_eq_one_iff_of_norm_eq_one hp hq).1 h).symm
    have a2 : (inner ℝ p q : ℝ) ≠ -1 := fun h => hn' (by
      have : (inner ℝ p (-q) : ℝ) = 1 := by rw [inner_neg_right, h, neg_neg]
      rw [(inner_eq_one_iff_of_norm_eq_one hp (by rwa [norm_neg])).1 this, neg_neg])
    have a3 := abs_le.1 (abs_real_inner_le_norm p q)
    rw [hp, hq] at a3
    have a4 : (inner ℝ p q : ℝ) < 1 := lt_of_le_of_ne (by linarith) a1
    have a5 : -1 < (inner ℝ p q : ℝ) := lt_of_le_of_ne (by linarith) (Ne.symm a2)
    nlinarith
  have pos : 0 < (1 - (inner ℝ p1 p2 : ℝ) ^ 2) * (1 - (inner ℝ p1 p3 : ℝ) ^ 2) :=
    mul_pos (lt _ _ h1 h2 h12 h12') (lt _ _ h1 h3 h13 h13')
  have hn := sky_normSq h1 h2 h3
  set z : ℂ := ⟨inner ℝ p2 p3 - inner ℝ p1 p2 * inner ℝ p1 p3, -det3 p1 p2 p3⟩ with hz
  have hnorm : ‖z‖ = Real.sqrt ((1 - (inner ℝ p1 p2 : ℝ) ^ 2) * (1 - (inner ℝ p1 p3 : ℝ) ^ 2)) := by
    rw [← hn, Complex.norm_def, Complex.normSq_apply, sq, sq]
  have hz0 : z ≠ 0 := by
    intro h
    rw [h, norm_zero] at hnorm
    exact (Real.sqrt_pos.2 pos).ne hnorm
  rw [arcCosPhi_inner h1 h2 h3, skyAngle, ← hz, Complex.cos_arg hz0, hnorm]

/-- **C61, on the sphere.** If moreover the points 1, 3, 2 are counter-clockwise, which are the triangles `LogSAS` counts, the angle it puts
them at, `acos(cosphi)`, is the angle of the spherical triangle counter-clockwise from 3 to 2. -/
theorem arc_sas_angle {p1 p2 p3 : EuclideanSpace ℝ (Fin 3)} (h1 : ‖p1‖ = 1) (h2 : ‖p2‖ = 1) (h3 : ‖p3‖ = 1)
    (h12 : p2 ≠ p1) (h12' : p2 ≠ -p1) (h13 : p3 ≠ p1) (h13' : p3 ≠ -p1) (hc : spaceMetric3.ccw p1 p3 p2) :
    Real.arccos (arcCosPhi p1 p2 p3) = skyAngle p1 p3 p2 := by
  have e : arcCosPhi p1 p2 p3 = arcCosPhi p1 p3 p2 := by
    rw [arcCosPhi_inner h1 h2 h3, arcCosPhi_inner h1 h3 h2, real_inner_comm, mul_comm (inner ℝ p1 p2 : ℝ), mul_comm (1 - (inner ℝ p1 p2 : ℝ) ^ 2)]
  have hd : 0 < -det3 p1 p3 p2 := by
    simp only [spaceMetric3, PiLp.sub_apply] at hc
    unfold det3
    linarith
  rw [e, arc_sas_cos h1 h3 h2 h13 h13' h12 h12', Real.arccos_cos]
  · exact Complex.arg_nonneg_iff.2 hd.le
  · exact Complex.arg_le_pi _

/-- C61: the octant, seen from the first axis: a right angle. -/
example : arcCosPhi (pt3 1 0 0) (pt3 0 1 0) (pt3 0 0 1) = 0 ∧ spaceMetric3.ccw (pt3 1 0 0) (pt3 0 0 1) (pt3 0 1 0) := by
  constructor
  · rw [arcCosPhi_inner (by simp [norm_pt3]) (by simp [norm_pt3]) (by simp [norm_pt3])]
    simp [pt3, PiLp.inner_apply, Fin.sum_univ_three]
  · simp [spaceMetric3, pt3]

/-- **C61, with distances, negation.** The same three directions, all at distance 10: the formula gets the positions in space instead of
points of the unit sphere and gives a "cosine" below -1, so the angle is not a number. -/
theorem arc_sas_space_wrong : arcCosPhi (pt3 10 0 0) (pt3 0 10 0) (pt3 0 0 10) < -1 ∧
    skyAngle (pt3 1 0 0) (pt3 0 0 1) (pt3 0 1 0) = Real.pi / 2 := by
  constructor
  · have d : ∀ x y z x' y' z' : ℝ, ‖pt3 x y z - pt3 x' y' z'‖ ^ 2 = (x - x') ^ 2 + (y - y') ^ 2 + (z - z') ^ 2 := by
      intro x y z x' y' z'
      rw [← dist_eq_norm, dist_pt3, Real.sq_sqrt (by positivity)]
    unfold arcCosPhi
    simp only [d]
    rw [show ((10 - 0 : ℝ) ^ 2 + (0 - 0) ^ 2 + (0 - 10) ^ 2) * ((10 - 0) ^ 2 + (0 - 10) ^ 2 + (0 - 0) ^ 2)
      * (1 - 0.25 * ((10 - 0) ^ 2 + (0 - 0) ^ 2 + (0 - 10) ^ 2)) * (1 - 0.25 * ((10 - 0) ^ 2 + (0 - 10) ^ 2 + (0 - 0) ^ 2)) = 9800 ^ 2 by norm_num,
      Real.sqrt_sq (by norm_num)]
    norm_num
  · have : (⟨inner ℝ (pt3 0 0 1) (pt3 0 1 0) - inner ℝ (pt3 1 0 0) (pt3 0 0 1) * inner ℝ (pt3 1 0 0) (pt3 0 1 0),
        -det3 (pt3 1 0 0) (pt3 0 0 1) (pt3 0 1 0)⟩ : ℂ) = Complex.I := by
      apply Complex.ext <;> simp [pt3, det3, PiLp.inner_apply, Fin.sum_univ_three]
    rw [skyAngle, this, Complex.arg_I]

end
end TreeCorr
