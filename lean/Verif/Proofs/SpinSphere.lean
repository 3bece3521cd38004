import Verif.Proofs.Spin
import Verif.Spec.Sphere

/-! Directions on the sphere in coordinates. -/

namespace TreeCorr
open Classical ComplexConjugate
noncomputable section

theorem inner3 (u v : Space) : inner ℝ u v = u 0 * v 0 + u 1 * v 1 + u 2 * v 2 := by
  simp [PiLp.inner_apply, Fin.sum_univ_three, mul_comm]

theorem normsq3 (u : Space) : ‖u‖ ^ 2 = u 0 ^ 2 + u 1 ^ 2 + u 2 ^ 2 := by
  rw [← real_inner_self_eq_norm_sq, inner3]; ring

theorem OnSphere.sq {p : Space} (h : OnSphere p) : p 0 ^ 2 + p 1 ^ 2 + p 2 ^ 2 = 1 := by
  rw [← normsq3, h]; norm_num

@[simp] theorem west_0 (p : Space) : west p 0 = p 1 := rfl
@[simp] theorem west_1 (p : Space) : west p 1 = -p 0 := rfl
@[simp] theorem west_2 (p : Space) : west p 2 = 0 := rfl
@[simp] theorem north_0 (p : Space) : north p 0 = -(p 2 * p 0) := by simp [north]
@[simp] theorem north_1 (p : Space) : north p 1 = -(p 2 * p 1) := by simp [north]
@[simp] theorem north_2 (p : Space) : north p 2 = 1 - p 2 * p 2 := by simp [north]

theorem unitOf_eq : unitOf = dirOf := rfl

/-- `calculate_direction` is the tangent away from the first point, in the axes west, north at the second. -/
theorem sphDirection_eq {p1 p2 : Space} (h1 : OnSphere p1) (h2 : OnSphere p2) : sphDirection p1 p2 = components p2 (away p1 p2) := by
  have e1 := h1.sq
  have e2 := h2.sq
  apply Complex.ext
  · simp only [sphDirection, components, inner3, away, PiLp.sub_apply, PiLp.smul_apply, smul_eq_mul, west_0, west_1, west_2]
    ring
  · simp only [sphDirection, components, normsq3, inner3, away, PiLp.sub_apply, PiLp.smul_apply, smul_eq_mul, north_0, north_1, north_2]
    linear_combination (-(1 / 2) * p2 2) * e1 + (-(1 / 2) * p2 2 + p2 2
      - p2 2 * ((p2 0 - p1 0) * p2 0 + (p2 1 - p1 1) * p2 1 + (p2 2 - p1 2) * p2 2)) * e2

/-! ### Rotations -/

theorem rot_apply (R : Matrix (Fin 3) (Fin 3) ℝ) (v : Space) (i : Fin 3) : rot R v i = R i 0 * v 0 + R i 1 * v 1 + R i 2 * v 2 := by
  simp [rot, Matrix.mulVec, dotProduct, Fin.sum_univ_three]

theorem IsRotation.inner {R : Matrix (Fin 3) (Fin 3) ℝ} (h : IsRotation R) (u v : Space) : inner ℝ (rot R u) (rot R v) = inner ℝ u v := by
  have e : ∀ i j, R 0 i * R 0 j + R 1 i * R 1 j + R 2 i * R 2 j = if i = j then 1 else 0 := by
    intro i j
    have := congrFun (congrFun h.1 i) j
    simpa [Matrix.mul_apply, Fin.sum_univ_three, Matrix.one_apply] using this
  have e00 := e 0 0
  have e01 := e 0 1
  have e02 := e 0 2
  have e11 := e 1 1
  have e12 := e 1 2
  have e22 := e 2 2
  simp at e00 e01 e02 e11 e12 e22
  simp only [inner3, rot_apply]
  linear_combination u 0 * v 0 * e00 + (u 0 * v 1 + u 1 * v 0) * e01 + (u 0 * v 2 + u 2 * v 0) * e02 + u 1 * v 1 * e11
    + (u 1 * v 2 + u 2 * v 1) * e12 + u 2 * v 2 * e22

theorem rot_add (R) (u v : Space) : rot R (u + v) = rot R u + rot R v := by
  ext i; simp only [rot_apply, PiLp.add_apply]; ring
theorem rot_sub (R) (u v : Space) : rot R (u - v) = rot R u - rot R v := by
  ext i; simp only [rot_apply, PiLp.sub_apply]; ring
theorem rot_smul (R) (a : ℝ) (v : Space) : rot R (a • v) = a • rot R v := by
  ext i; simp only [rot_apply, PiLp.smul_apply, smul_eq_mul]; ring

theorem IsRotation.onSphere {R : Matrix (Fin 3) (Fin 3) ℝ} (h : IsRotation R) {p : Space} (hp : OnSphere p) : OnSphere (rot R p) := by
  have : ‖rot R p‖ ^ 2 = 1 := by
    rw [← real_inner_self_eq_norm_sq, h.inner, real_inner_self_eq_norm_sq, hp]; norm_num
  rw [OnSphere]
  nlinarith [norm_nonneg (rot R p)]

theorem IsRotation.away {R : Matrix (Fin 3) (Fin 3) ℝ} (h : IsRotation R) (p1 p2 : Space) :
    away (rot R p1) (rot R p2) = rot R (away p1 p2) := by
  unfold TreeCorr.away
  rw [rot_sub, rot_sub, rot_smul, ← rot_sub, h.inner, rot_sub]

/-- The vector product. -/
def cross3 (u v : Space) : Space := !₂[u 1 * v 2 - u 2 * v 1, u 2 * v 0 - u 0 * v 2, u 0 * v 1 - u 1 * v 0]

@[simp] theorem cross3_0 (u v : Space) : cross3 u v 0 = u 1 * v 2 - u 2 * v 1 := rfl
@[simp] theorem cross3_1 (u v : Space) : cross3 u v 1 = u 2 * v 0 - u 0 * v 2 := rfl
@[simp] theorem cross3_2 (u v : Space) : cross3 u v 2 = u 0 * v 1 - u 1 * v 0 := rfl

theorem IsRotation.cross {R : Matrix (Fin 3) (Fin 3) ℝ} (h : IsRotation R) (u v : Space) :
    rot R (cross3 u v) = cross3 (rot R u) (rot R v) := by
  have hadj : R.adjugate = R.transpose := by
    have h1 : R * R.adjugate = 1 := by rw [Matrix.mul_adjugate, h.2, one_smul]
    calc R.adjugate = (R.transpose * R) * R.adjugate := by rw [h.1, one_mul]
      _ = R.transpose := by rw [Matrix.mul_assoc, h1, mul_one]
  rw [Matrix.adjugate_fin_three] at hadj
  have e : ∀ i j, R j i = _ := fun i j => (congrFun (congrFun hadj i) j).symm
  have e00 := e 0 0
  have e01 := e 0 1
  have e02 := e 0 2
  have e10 := e 1 0
  have e11 := e 1 1
  have e12 := e 1 2
  have e20 := e 2 0
  have e21 := e 2 1
  have e22 := e 2 2
  simp at e00 e01 e02 e10 e11 e12 e20 e21 e22
  ext i
  fin_cases i
  · change rot R (cross3 u v) 0 = cross3 (rot R u) (rot R v) 0
    simp only [rot_apply, cross3_0, cross3_1, cross3_2]
    linear_combination (u 1 * v 2 - u 2 * v 1) * e00 + (u 2 * v 0 - u 0 * v 2) * e10 + (u 0 * v 1 - u 1 * v 0) * e20
  · change rot R (cross3 u v) 1 = cross3 (rot R u) (rot R v) 1
    simp only [rot_apply, cross3_0, cross3_1, cross3_2]
    linear_combination (u 1 * v 2 - u 2 * v 1) * e01 + (u 2 * v 0 - u 0 * v 2) * e11 + (u 0 * v 1 - u 1 * v 0) * e21
  · change rot R (cross3 u v) 2 = cross3 (rot R u) (rot R v) 2
    simp only [rot_apply, cross3_0, cross3_1, cross3_2]
    linear_combination (u 1 * v 2 - u 2 * v 1) * e02 + (u 2 * v 0 - u 0 * v 2) * e12 + (u 0 * v 1 - u 1 * v 0) * e22

theorem north_cross {p : Space} (h : OnSphere p) : north p = cross3 (west p) p := by
  have e := h.sq
  ext i
  fin_cases i
  · change north p 0 = cross3 (west p) p 0
    simp; ring
  · change north p 1 = cross3 (west p) p 1
    simp; ring
  · change north p 2 = cross3 (west p) p 2
    simp
    linear_combination -e

theorem components_add (p u v : Space) : components p (u + v) = components p u + components p v := by
  apply Complex.ext <;> simp [components, inner_add_left]

theorem components_smul (p v : Space) (a : ℝ) : components p (a • v) = a * components p v := by
  apply Complex.ext <;> simp [components, inner_smul_left]

/-- Turning by a right angle in the tangent plane is multiplication by `i`. -/
theorem components_cross {q w : Space} (h : OnSphere q) (hw : inner ℝ w q = 0) : components q (cross3 w q) = Complex.I * components q w := by
  have e := h.sq
  rw [inner3] at hw
  apply Complex.ext
  · simp only [components, inner3, Complex.mul_re, Complex.I_re, Complex.I_im]
    simp
    linear_combination (-w 2) * e
  · simp only [components, inner3, Complex.mul_im, Complex.I_re, Complex.I_im]
    simp
    ring

/-- A tangent vector in terms of west and north. -/
theorem tangent_basis {p v : Space} (h : OnSphere p) (hv : inner ℝ v p = 0) :
    (p 0 ^ 2 + p 1 ^ 2) • v = inner ℝ v (west p) • west p + inner ℝ v (north p) • north p := by
  have e := h.sq
  rw [inner3] at hv
  ext i
  fin_cases i
  · change (p 0 ^ 2 + p 1 ^ 2) * v 0 = inner ℝ v (west p) * west p 0 + inner ℝ v (north p) * north p 0
    simp only [inner3, west_0, west_1, west_2, north_0, north_1, north_2]
    linear_combination (p 0 - p 2 ^ 2 * p 0) * hv
  · change (p 0 ^ 2 + p 1 ^ 2) * v 1 = inner ℝ v (west p) * west p 1 + inner ℝ v (north p) * north p 1
    simp only [inner3, west_0, west_1, west_2, north_0, north_1, north_2]
    linear_combination (p 1 - p 2 ^ 2 * p 1) * hv
  · change (p 0 ^ 2 + p 1 ^ 2) * v 2 = inner ℝ v (west p) * west p 2 + inner ℝ v (north p) * north p 2
    simp only [inner3, west_0, west_1, west_2, north_0, north_1, north_2]
    linear_combination (p 2 * (1 - p 2 ^ 2)) * hv + v 2 * e

theorem dirOf_mul (x y : ℂ) : dirOf (x * y) = dirOf x * dirOf y := by
  rw [dirOf, dirOf, dirOf, norm_mul]
  push_cast
  rw [mul_div_mul_comm]

theorem dirOf_pos {a : ℝ} (h : 0 < a) : dirOf (a : ℂ) = 1 := by
  rw [dirOf, Complex.norm_real, Real.norm_of_nonneg h.le, div_self]
  exact_mod_cast h.ne'

theorem inner_west (p : Space) : inner ℝ (west p) p = 0 := by
  rw [inner3]; simp; ring

theorem inner_away {p1 p2 : Space} (h : OnSphere p2) : inner ℝ (away p1 p2) p2 = 0 := by
  rw [away, inner_sub_left, inner_smul_left, real_inner_self_eq_norm_sq, h]
  simp

/-- Tangent vectors at `p`, carried along by a rotation: the components are multiplied by those of the image of west. -/
theorem components_rot {R : Matrix (Fin 3) (Fin 3) ℝ} (h : IsRotation R) {p v : Space} (hp : OnSphere p) (hv : inner ℝ v p = 0) :
    ((p 0 ^ 2 + p 1 ^ 2 : ℝ) : ℂ) * components (rot R p) (rot R v) = components p v * components (rot R p) (rot R (west p)) := by
  have h1 := congrArg (rot R) (tangent_basis hp hv)
  rw [rot_smul, rot_add, rot_smul, rot_smul] at h1
  have h2 : components (rot R p) (rot R (north p)) = Complex.I * components (rot R p) (rot R (west p)) := by
    rw [north_cross hp, h.cross]
    exact components_cross (h.onSphere hp) (by rw [h.inner, inner_west])
  have h3 := congrArg (components (rot R p)) h1
  rw [components_smul, components_add, components_smul, components_smul, h2] at h3
  rw [h3]
  have h4 : components p v = (inner ℝ v (west p) : ℝ) + (inner ℝ v (north p) : ℝ) * Complex.I := by
    apply Complex.ext <;> simp [components]
  rw [h4]
  ring

theorem OffPole.pos {p : Space} (h : OffPole p) : 0 < p 0 ^ 2 + p 1 ^ 2 := by
  rcases h with h | h
  · have := sq_pos_of_ne_zero h; nlinarith [sq_nonneg (p 1)]
  · have := sq_pos_of_ne_zero h; nlinarith [sq_nonneg (p 0)]

theorem components_normSq {p v : Space} (hp : OnSphere p) (hv : inner ℝ v p = 0) :
    Complex.normSq (components p v) = (p 0 ^ 2 + p 1 ^ 2) * inner ℝ v v := by
  have h1 := congrArg (fun u => inner ℝ v u) (tangent_basis hp hv)
  simp only [inner_add_right, inner_smul_right] at h1
  rw [Complex.normSq_apply, h1]
  simp [components]

theorem frame_ne_zero {R : Matrix (Fin 3) (Fin 3) ℝ} (h : IsRotation R) {p : Space} (hp : OnSphere p) (h1 : OffPole p) (h2 : OffPole (rot R p)) :
    components (rot R p) (rot R (west p)) ≠ 0 := by
  rw [← Complex.normSq_pos, components_normSq (h.onSphere hp) (by rw [h.inner, inner_west]), h.inner]
  have : inner ℝ (west p) (west p) = p 0 ^ 2 + p 1 ^ 2 := by rw [inner3]; simp; ring
  rw [this]
  exact mul_pos h2.pos h1.pos

end
end TreeCorr
