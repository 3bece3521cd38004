import Verif.Props.Spin
import Verif.Props.SpinSphere

/-!
C52: projections of the three values of a triangle.
-/

namespace TreeCorr
open Classical ComplexConjugate
noncomputable section

/-- The centroid of a triangle. -/
def centroid3 {V : Type*} [AddCommGroup V] [Module ℝ V] (p1 p2 p3 : V) : V := (3 : ℝ)⁻¹ • (p1 + p2 + p3)

/-- **C52.** Flat coordinates: each of the three values is projected on the line from its point to the centroid. -/
theorem flat_project3 (D : Spin) (p1 p2 p3 : Plane) (h1 : p1 ≠ centroid3 p1 p2 p3) (h2 : p2 ≠ centroid3 p1 p2 p3)
    (h3 : p3 ≠ centroid3 p1 p2 p3) (z1 z2 z3 : ℂ) :
    flatProject3 D p1 p2 p3 (z1, z2, z3) =
      (z1 * turn D.s (lineAngle p1 (centroid3 p1 p2 p3)), z2 * turn D.s (lineAngle p2 (centroid3 p1 p2 p3)),
        z3 * turn D.s (lineAngle p3 (centroid3 p1 p2 p3))) := by
  rw [← flatFactor_turn D (dist_pos.2 h1), ← flatFactor_turn D (dist_pos.2 h2), ← flatFactor_turn D (dist_pos.2 h3)]
  rfl

theorem rotate_centroid (θ : ℝ) (p1 p2 p3 : Plane) :
    centroid3 (rotate θ p1) (rotate θ p2) (rotate θ p3) = rotate θ (centroid3 p1 p2 p3) := by
  ext i
  fin_cases i <;> simp [centroid3, rotate] <;> ring

/-- **C52.** Turning the sky does not change the projected values of a triangle. -/
theorem flat_project3_rotation (D : Spin) (θ : ℝ) (p1 p2 p3 : Plane) (z1 z2 z3 : ℂ) :
    let e := Complex.exp (D.s * θ * Complex.I)
    flatProject3 D (rotate θ p1) (rotate θ p2) (rotate θ p3) (z1 * e, z2 * e, z3 * e) = flatProject3 D p1 p2 p3 (z1, z2, z3) := by
  have h : ∀ (p : Plane) (z : ℂ),
      z * Complex.exp (D.s * θ * Complex.I) * flatFactor D (rotate θ p) (centroid3 (rotate θ p1) (rotate θ p2) (rotate θ p3))
        = z * flatFactor D p (centroid3 p1 p2 p3) := by
    intro p z
    rw [rotate_centroid, flat_rotation]
  exact Prod.ext (h p1 z1) (Prod.ext (h p2 z2) (h p3 z3))

/-- **C52.** The projection does not depend on the order of the three points. -/
theorem flat_project3_swap (D : Spin) (p1 p2 p3 : Plane) (z1 z2 z3 : ℂ) :
    (flatProject3 D p2 p1 p3 (z2, z1, z3) = (let r := flatProject3 D p1 p2 p3 (z1, z2, z3); (r.2.1, r.1, r.2.2))) ∧
    (flatProject3 D p1 p3 p2 (z1, z3, z2) = (let r := flatProject3 D p1 p2 p3 (z1, z2, z3); (r.1, r.2.2, r.2.1))) := by
  have e1 : p2 + p1 + p3 = p1 + p2 + p3 := by abel
  have e2 : p1 + p3 + p2 = p1 + p2 + p3 := by abel
  simp only [flatProject3, e1, e2, and_self]

theorem toSphere_on {p : Space} : OnSphere (toSphere p) := by
  rw [OnSphere, toSphere]
  split
  · simp
  · rename_i h
    rw [norm_smul, norm_inv, norm_norm, inv_mul_cancel₀ h]

/-- **C52.** Sphere: each of the three values is projected on the great circle between its point and the centroid. -/
theorem sphere_project3 (D : Spin) {p1 p2 p3 : Space} (h1 : OnSphere p1) (h2 : OnSphere p2) (h3 : OnSphere p3) (z1 z2 z3 : ℂ) :
    let cen := toSphere (centroid3 p1 p2 p3)
    sphProject3 D p1 p2 p3 (z1, z2, z3) =
      (z1 * conj (unitOf (components p1 (away cen p1))) ^ D.s, z2 * conj (unitOf (components p2 (away cen p2))) ^ D.s,
        z3 * conj (unitOf (components p3 (away cen p3))) ^ D.s) := by
  intro cen
  rw [← sphere_factor D toSphere_on h1, ← sphere_factor D toSphere_on h2, ← sphere_factor D toSphere_on h3]
  rfl

theorem dir_safe (r : ℂ) : r / (Real.sqrt (safeNorm r) : ℂ) = dirOf r := by
  by_cases h : r = 0
  · simp [h, dirOf_zero]
  · rw [sqrt_safeNorm h, dirOf]

/-- **C52.** Sphere, `LogSAS` and multipole bins: the value at the first point is projected on the mean of the directions of the two sides. -/
theorem sphere_projectX_first (D : Spin) {p1 p2 p3 : Space} (h1 : OnSphere p1) (h2 : OnSphere p2) (h3 : OnSphere p3) (st : Fin 3 → ℂ) :
    sphereProjectX D p1 p2 p3 st 0 =
      st 0 * conj (unitOf (unitOf (components p1 (away p2 p1)) + unitOf (components p1 (away p3 p1)))) ^ D.s := by
  simp [sphereProjectX, sphProjectX, mulVar, dir_safe, expm_eq, sphDirection_eq h2 h1, sphDirection_eq h3 h1, unitOf_eq]

/-! ### The hypotheses can be met -/

example : pt 0 0 ≠ centroid3 (pt 0 0) (pt 3 0) (pt 0 3) ∧ pt 3 0 ≠ centroid3 (pt 0 0) (pt 3 0) (pt 0 3) ∧
    pt 0 3 ≠ centroid3 (pt 0 0) (pt 3 0) (pt 0 3) := by
  have h : centroid3 (pt 0 0) (pt 3 0) (pt 0 3) = pt 1 1 := by
    ext i; fin_cases i <;> norm_num [centroid3, pt]
  rw [h]
  refine ⟨fun e => ?_, fun e => ?_, fun e => ?_⟩
  · have := congrArg (fun p => p 0) e; norm_num [pt] at this
  · have := congrArg (fun p => p 0) e; norm_num [pt] at this
  · have := congrArg (fun p => p 0) e; norm_num [pt] at this

end
end TreeCorr
