import Verif.Proofs.Map3

/-!
The functions `T` from the integrals of three filters.
-/

namespace TreeCorr.Map3

open MeasureTheory Aperture
open scoped ComplexConjugate Real

noncomputable section

/-- `f1`, with `l = k²/Theta2`. -/
def fq (l2 l3 : ℝ) (q1 q2 q3 : ℂ) : ℂ := (l2 + l3) / 2 + (l2 - l3) * (q2 - q3) / (6 * q1)

/-- `g1`. -/
def gq (l1 l2 l3 : ℝ) (q1 q2 q3 : ℂ) : ℂ := l2 * l3 + (l3 - l2) * l1 * (q2 - q3) / (3 * q1)

/-- `Z`. -/
def zq (h l1 l2 l3 : ℝ) (q1 q2 q3 : ℂ) : ℝ :=
  ((2 * l2 + 2 * l3 - l1) * ‖q1‖ ^ 2 + (2 * l3 + 2 * l1 - l2) * ‖q2‖ ^ 2 + (2 * l1 + 2 * l2 - l3) * ‖q3‖ ^ 2) / (6 * h)

/-- `expfactor`. -/
def eq' (h l1 l2 l3 : ℝ) (q1 q2 q3 : ℂ) : ℂ := (-(l1 * l2 * l3) * Real.exp (-zq h l1 l2 l3 q1 q2 q3) / (h * h) : ℝ)

/-- `T0`. -/
def tq0 (h l1 l2 l3 : ℝ) (q1 q2 q3 : ℂ) : ℂ :=
  eq' h l1 l2 l3 q1 q2 q3 * (((‖q1‖ ^ 2 : ℝ) : ℂ) * (‖q2‖ ^ 2 : ℝ) * (‖q3‖ ^ 2 : ℝ)) * conj (fq l2 l3 q1 q2 q3) ^ 2 *
    conj (fq l3 l1 q2 q3 q1) ^ 2 * conj (fq l1 l2 q3 q1 q2) ^ 2 / (24 * (h * h * h))

/-- `T1`. -/
def tq1 (h l1 l2 l3 : ℝ) (q1 q2 q3 : ℂ) : ℂ :=
  let a2 : ℂ := (‖q2‖ ^ 2 : ℝ)
  let a3 : ℂ := (‖q3‖ ^ 2 : ℝ)
  let a123 : ℂ := (‖q1‖ ^ 2 : ℝ) * a2 * a3
  let b1 := conj q1 ^ 2 * q2 * q3
  let f1 := fq l2 l3 q1 q2 q3
  let f2c := conj (fq l3 l1 q2 q3 q1)
  let f3c := conj (fq l1 l2 q3 q1 q2)
  let g1c := conj (gq l1 l2 l3 q1 q2 q3)
  eq' h l1 l2 l3 q1 q2 q3 * (a123 * f1 ^ 2 * f2c ^ 2 * f3c ^ 2 / (24 * (h * h * h)) - b1 * f1 * f2c * f3c * g1c / (9 * (h * h)) +
    (b1 ^ 2 * g1c ^ 2 + 2 * l2 * l3 * a2 * a3 * b1 * f2c * f3c) / (a123 * 27 * h))

/-- The scaled radii. -/
structure Scaled (h l1 l2 l3 : ℝ) : Prop where
  ph : 0 < h
  p1 : 0 < l1
  p2 : 0 < l2
  p3 : 0 < l3
  sum : l1 * l2 + l1 * l3 + l2 * l3 = 3

theorem Scaled.turn {h l1 l2 l3 : ℝ} (H : Scaled h l1 l2 l3) : Scaled h l2 l3 l1 :=
  ⟨H.ph, H.p2, H.p3, H.p1, by linarith [H.sum]⟩

theorem Scaled.ofK {k1 k2 k3 : ℝ} (h1 : 0 < k1) (h2 : 0 < k2) (h3 : 0 < k3) :
    let h := Real.sqrt ((k1 * k1 * (k2 * k2) + k1 * k1 * (k3 * k3) + k2 * k2 * (k3 * k3)) / 3)
    Scaled h (k1 * k1 / h) (k2 * k2 / h) (k3 * k3 / h) := by
  intro h
  have hh : 0 < h := Real.sqrt_pos.2 (by positivity)
  have e : h * h = (k1 * k1 * (k2 * k2) + k1 * k1 * (k3 * k3) + k2 * k2 * (k3 * k3)) / 3 :=
    Real.mul_self_sqrt (by positivity)
  refine ⟨hh, by positivity, by positivity, by positivity, ?_⟩
  field_simp
  nlinarith

theorem calcTGen_eq (s t : ℂ) (k1 k2 k3 : ℝ) :
    let q1 := (s + t) / 3
    let q2 := q1 - t
    let q3 := q1 - s
    let h := Real.sqrt ((k1 * k1 * (k2 * k2) + k1 * k1 * (k3 * k3) + k2 * k2 * (k3 * k3)) / 3)
    let l1 := k1 * k1 / h
    let l2 := k2 * k2 / h
    let l3 := k3 * k3 / h
    calcTGen s t k1 k2 k3 = ⟨tq0 h l1 l2 l3 q1 q2 q3, tq1 h l1 l2 l3 q1 q2 q3, tq1 h l2 l3 l1 q2 q3 q1,
      tq1 h l3 l1 l2 q3 q1 q2⟩ := by
  intro q1 q2 q3 h l1 l2 l3
  have z2 : eq' h l2 l3 l1 q2 q3 q1 = eq' h l1 l2 l3 q1 q2 q3 := by
    unfold eq'
    rw [show zq h l2 l3 l1 q2 q3 q1 = zq h l1 l2 l3 q1 q2 q3 by unfold zq; ring, show l2 * l3 * l1 = l1 * l2 * l3 by ring]
  have z3 : eq' h l3 l1 l2 q3 q1 q2 = eq' h l1 l2 l3 q1 q2 q3 := by
    unfold eq'
    rw [show zq h l3 l1 l2 q3 q1 q2 = zq h l1 l2 l3 q1 q2 q3 by unfold zq; ring, show l3 * l1 * l2 = l1 * l2 * l3 by ring]
  have t2 : (calcTGen s t k1 k2 k3).T2 = tq1 h l2 l3 l1 q2 q3 q1 := by
    simp only [tq1, z2]
    show eq' h l1 l2 l3 q1 q2 q3 * (((‖q1‖ ^ 2 : ℝ) : ℂ) * (‖q2‖ ^ 2 : ℝ) * (‖q3‖ ^ 2 : ℝ) * conj (fq l2 l3 q1 q2 q3) ^ 2 *
      fq l3 l1 q2 q3 q1 ^ 2 * conj (fq l1 l2 q3 q1 q2) ^ 2 / (24 * ((h * h * h : ℝ) : ℂ)) -
      conj q2 ^ 2 * q1 * q3 * conj (fq l2 l3 q1 q2 q3) * fq l3 l1 q2 q3 q1 * conj (fq l1 l2 q3 q1 q2) *
        conj (gq l2 l3 l1 q2 q3 q1) / (9 * ((h * h : ℝ) : ℂ)) +
      ((conj q2 ^ 2 * q1 * q3) ^ 2 * conj (gq l2 l3 l1 q2 q3 q1) ^ 2 + 2 * l1 * l3 * ((‖q1‖ ^ 2 : ℝ) : ℂ) * (‖q3‖ ^ 2 : ℝ) *
        (conj q2 ^ 2 * q1 * q3) * conj (fq l2 l3 q1 q2 q3) * conj (fq l1 l2 q3 q1 q2)) /
        (((‖q1‖ ^ 2 : ℝ) : ℂ) * (‖q2‖ ^ 2 : ℝ) * (‖q3‖ ^ 2 : ℝ) * 27 * h)) = _
    clear_value q1 q2 q3 h l1 l2 l3
    push_cast
    ring
  have t3 : (calcTGen s t k1 k2 k3).T3 = tq1 h l3 l1 l2 q3 q1 q2 := by
    simp only [tq1, z3]
    show eq' h l1 l2 l3 q1 q2 q3 * (((‖q1‖ ^ 2 : ℝ) : ℂ) * (‖q2‖ ^ 2 : ℝ) * (‖q3‖ ^ 2 : ℝ) * conj (fq l2 l3 q1 q2 q3) ^ 2 *
      conj (fq l3 l1 q2 q3 q1) ^ 2 * fq l1 l2 q3 q1 q2 ^ 2 / (24 * ((h * h * h : ℝ) : ℂ)) -
      conj q3 ^ 2 * q1 * q2 * conj (fq l2 l3 q1 q2 q3) * conj (fq l3 l1 q2 q3 q1) * fq l1 l2 q3 q1 q2 *
        conj (gq l3 l1 l2 q3 q1 q2) / (9 * ((h * h : ℝ) : ℂ)) +
      ((conj q3 ^ 2 * q1 * q2) ^ 2 * conj (gq l3 l1 l2 q3 q1 q2) ^ 2 + 2 * l1 * l2 * ((‖q1‖ ^ 2 : ℝ) : ℂ) * (‖q2‖ ^ 2 : ℝ) *
        (conj q3 ^ 2 * q1 * q2) * conj (fq l2 l3 q1 q2 q3) * conj (fq l3 l1 q2 q3 q1)) /
        (((‖q1‖ ^ 2 : ℝ) : ℂ) * (‖q2‖ ^ 2 : ℝ) * (‖q3‖ ^ 2 : ℝ) * 27 * h)) = _
    clear_value q1 q2 q3 h l1 l2 l3
    push_cast
    ring
  have t1 : (calcTGen s t k1 k2 k3).T1 = tq1 h l1 l2 l3 q1 q2 q3 := by
    simp only [tq1]
    show eq' h l1 l2 l3 q1 q2 q3 * (((‖q1‖ ^ 2 : ℝ) : ℂ) * (‖q2‖ ^ 2 : ℝ) * (‖q3‖ ^ 2 : ℝ) * fq l2 l3 q1 q2 q3 ^ 2 *
      conj (fq l3 l1 q2 q3 q1) ^ 2 * conj (fq l1 l2 q3 q1 q2) ^ 2 / (24 * ((h * h * h : ℝ) : ℂ)) -
      conj q1 ^ 2 * q2 * q3 * fq l2 l3 q1 q2 q3 * conj (fq l3 l1 q2 q3 q1) * conj (fq l1 l2 q3 q1 q2) *
        conj (gq l1 l2 l3 q1 q2 q3) / (9 * ((h * h : ℝ) : ℂ)) +
      ((conj q1 ^ 2 * q2 * q3) ^ 2 * conj (gq l1 l2 l3 q1 q2 q3) ^ 2 + 2 * l2 * l3 * ((‖q2‖ ^ 2 : ℝ) : ℂ) * (‖q3‖ ^ 2 : ℝ) *
        (conj q1 ^ 2 * q2 * q3) * conj (fq l3 l1 q2 q3 q1) * conj (fq l1 l2 q3 q1 q2)) /
        (((‖q1‖ ^ 2 : ℝ) : ℂ) * (‖q2‖ ^ 2 : ℝ) * (‖q3‖ ^ 2 : ℝ) * 27 * h)) = _
    clear_value q1 q2 q3 h l1 l2 l3
    push_cast
    ring
  have t0 : (calcTGen s t k1 k2 k3).T0 = tq0 h l1 l2 l3 q1 q2 q3 := by
    simp only [tq0]
    show eq' h l1 l2 l3 q1 q2 q3 * (((‖q1‖ ^ 2 : ℝ) : ℂ) * (‖q2‖ ^ 2 : ℝ) * (‖q3‖ ^ 2 : ℝ)) * conj (fq l2 l3 q1 q2 q3) ^ 2 *
      conj (fq l3 l1 q2 q3 q1) ^ 2 * conj (fq l1 l2 q3 q1 q2) ^ 2 / (24 * ((h * h * h : ℝ) : ℂ)) = _
    push_cast
    rfl
  rw [← t0, ← t1, ← t2, ← t3]

/-- The special branch is the general one at `k1 = k2 = k3 = 1`. -/
theorem calcTOne_eq (s t : ℂ) : calcTOne s t = calcTGen s t 1 1 1 := by
  have h : Real.sqrt ((1 * 1 * (1 * 1) + 1 * 1 * (1 * 1) + 1 * 1 * (1 * 1)) / 3) = 1 := by
    norm_num
  unfold calcTOne calcTGen
  rw [h]
  have e : ∀ a b c : ℝ, -1 * 1 * 1 * Real.exp (-(((2 * 1 + 2 * 1 - 1) * a + (2 * 1 + 2 * 1 - 1) * b + (2 * 1 + 2 * 1 - 1) * c) / (6 * 1))) =
      -Real.exp (-(a + b + c) / 2) := by
    intro a b c
    rw [show -(((2 * 1 + 2 * 1 - 1) * a + (2 * 1 + 2 * 1 - 1) * b + (2 * 1 + 2 * 1 - 1) * c) / (6 * 1)) = -(a + b + c) / 2 by ring]
    ring
  simp only [mul_one, div_one, sub_self, Complex.ofReal_one, zero_mul, zero_div, add_zero]
  have e2 : ∀ a b c : ℝ, -((2 + 2 - 1) * a + (2 + 2 - 1) * b + (2 + 2 - 1) * c) / 6 = -(a + b + c) / 2 := by
    intro a b c
    ring
  simp only [← neg_div, e2]
  norm_num

/-- The displacements from the weighted mean. -/
theorem reduced {h l1 l2 l3 : ℝ} (H : Scaled h l1 l2 l3) (q1 q2 q3 : ℂ) (hq : q1 + q2 + q3 = 0) (h1 : q1 ≠ 0) :
    let w1 : ℂ := 1 / (l1 * h)
    let w2 : ℂ := 1 / (l2 * h)
    let w3 : ℂ := 1 / (l3 * h)
    let m := (w1 * q1 + w2 * q2 + w3 * q3) / (w1 + w2 + w3)
    q1 - m = l1 * q1 * fq l2 l3 q1 q2 q3 ∧ w1 + w2 + w3 = 3 / (h * (l1 * l2 * l3)) := by
  intro w1 w2 w3 m
  have c1 : (l1 : ℂ) ≠ 0 := by exact_mod_cast H.p1.ne'
  have c2 : (l2 : ℂ) ≠ 0 := by exact_mod_cast H.p2.ne'
  have c3 : (l3 : ℂ) ≠ 0 := by exact_mod_cast H.p3.ne'
  have ch : (h : ℂ) ≠ 0 := by exact_mod_cast H.ph.ne'
  have cs : (l1 : ℂ) * l2 + l1 * l3 + l2 * l3 = 3 := by exact_mod_cast H.sum
  have hw : w1 + w2 + w3 = 3 / (h * (l1 * l2 * l3)) := by
    simp only [w1, w2, w3]
    field_simp
    linear_combination cs
  refine ⟨?_, hw⟩
  simp only [m]
  rw [hw]
  simp only [w1, w2, w3, fq]
  have e3 : q3 = -q1 - q2 := by linear_combination hq
  rw [e3]
  field_simp
  linear_combination (-12 * q1) * cs

/-- The sum of the squares of the displacements from the weighted mean. -/
theorem reduced_sum {h l1 l2 l3 : ℝ} (H : Scaled h l1 l2 l3) (q1 q2 q3 m : ℂ) (hq : q1 + q2 + q3 = 0)
    (hm : m = ((1 / (l1 * h) : ℝ) * q1 + (1 / (l2 * h) : ℝ) * q2 + (1 / (l3 * h) : ℝ) * q3) * ((h * (l1 * l2 * l3) / 3 : ℝ) : ℂ)) :
    (1 / (l1 * h) * ‖q1 - m‖ ^ 2 + 1 / (l2 * h) * ‖q2 - m‖ ^ 2 + 1 / (l3 * h) * ‖q3 - m‖ ^ 2) / 2 = zq h l1 l2 l3 q1 q2 q3 := by
  have e : ∀ z : ℂ, ‖z‖ ^ 2 = z.re ^ 2 + z.im ^ 2 := by
    intro z
    rw [← Complex.normSq_eq_norm_sq, Complex.normSq_apply]
    ring
  have r3 : q3.re = -q1.re - q2.re := by
    have := congrArg Complex.re hq
    simp at this
    linarith
  have i3 : q3.im = -q1.im - q2.im := by
    have := congrArg Complex.im hq
    simp at this
    linarith
  have mr := congrArg Complex.re hm
  have mi := congrArg Complex.im hm
  rw [Complex.re_mul_ofReal] at mr
  rw [Complex.im_mul_ofReal] at mi
  simp only [Complex.add_re, Complex.add_im, Complex.re_ofReal_mul, Complex.im_ofReal_mul, r3, i3] at mr mi
  have p1 := H.p1
  have p2 := H.p2
  have p3 := H.p3
  have ph := H.ph
  have key : ∀ x1 x2 μ : ℝ, μ = (1 / (l1 * h) * x1 + 1 / (l2 * h) * x2 + 1 / (l3 * h) * (-x1 - x2)) * (h * (l1 * l2 * l3) / 3) →
      (1 / (l1 * h) * (x1 - μ) ^ 2 + 1 / (l2 * h) * (x2 - μ) ^ 2 + 1 / (l3 * h) * ((-x1 - x2) - μ) ^ 2) / 2 =
      ((2 * l2 + 2 * l3 - l1) * x1 ^ 2 + (2 * l3 + 2 * l1 - l2) * x2 ^ 2 + (2 * l1 + 2 * l2 - l3) * (-x1 - x2) ^ 2) / (6 * h) := by
    intro x1 x2 μ hμ
    have hμ' : 3 * μ = l2 * l3 * x1 + l1 * l3 * x2 + l1 * l2 * (-x1 - x2) := by
      rw [hμ]
      field_simp
    have hs := H.sum
    have hs' : 1 / (l1 * h) + 1 / (l2 * h) + 1 / (l3 * h) = 3 / (h * (l1 * l2 * l3)) := by
      field_simp
      linarith
    have h1 : (1 / (l1 * h) * (x1 - μ) ^ 2 + 1 / (l2 * h) * (x2 - μ) ^ 2 + 1 / (l3 * h) * ((-x1 - x2) - μ) ^ 2) =
        (l2 * l3 * x1 ^ 2 + l1 * l3 * x2 ^ 2 + l1 * l2 * (-x1 - x2) ^ 2 - 3 * μ ^ 2) / (h * (l1 * l2 * l3)) := by
      field_simp
      linear_combination (2 * μ) * hμ' + μ ^ 2 * hs
    rw [h1, div_div, div_eq_div_iff (by positivity) (by positivity)]
    have h2 : 9 * μ ^ 2 = (l2 * l3 * x1 + l1 * l3 * x2 + l1 * l2 * (-x1 - x2)) ^ 2 := by rw [← hμ']; ring
    linear_combination (-2 * h) * h2 - 2 * h * (l2 * l3 * x1 ^ 2 + l1 * l3 * x2 ^ 2 + l1 * l2 * (-x1 - x2) ^ 2) * hs
  have kr := key q1.re q2.re m.re mr
  have ki := key q1.im q2.im m.im mi
  simp only [e, Complex.sub_re, Complex.sub_im, r3, i3, zq]
  linear_combination kr + ki

/-- The weighted mean. -/
def meanq (l1 l2 l3 : ℝ) (q1 q2 q3 : ℂ) : ℂ := (l2 * l3 * q1 + l1 * l3 * q2 + l1 * l2 * q3) / 3

theorem meanq_turn (l1 l2 l3 : ℝ) (q1 q2 q3 : ℂ) : meanq l2 l3 l1 q2 q3 q1 = meanq l1 l2 l3 q1 q2 q3 := by
  unfold meanq
  ring

theorem meanq_eq {h l1 l2 l3 : ℝ} (H : Scaled h l1 l2 l3) (q1 q2 q3 : ℂ) :
    meanq l1 l2 l3 q1 q2 q3 = ((1 / (l1 * h) : ℝ) * q1 + (1 / (l2 * h) : ℝ) * q2 + (1 / (l3 * h) : ℝ) * q3) *
      ((h * (l1 * l2 * l3) / 3 : ℝ) : ℂ) := by
  have c1 : (l1 : ℂ) ≠ 0 := by exact_mod_cast H.p1.ne'
  have c2 : (l2 : ℂ) ≠ 0 := by exact_mod_cast H.p2.ne'
  have c3 : (l3 : ℂ) ≠ 0 := by exact_mod_cast H.p3.ne'
  have ch : (h : ℂ) ≠ 0 := by exact_mod_cast H.ph.ne'
  unfold meanq
  push_cast
  field_simp

theorem reduced_first {h l1 l2 l3 : ℝ} (H : Scaled h l1 l2 l3) (q1 q2 q3 : ℂ) (hq : q1 + q2 + q3 = 0) (h1 : q1 ≠ 0) :
    q1 - meanq l1 l2 l3 q1 q2 q3 = l1 * q1 * fq l2 l3 q1 q2 q3 := by
  have cs : (l1 : ℂ) * l2 + l1 * l3 + l2 * l3 = 3 := by exact_mod_cast H.sum
  have e3 : q3 = -q1 - q2 := by linear_combination hq
  unfold meanq fq
  rw [e3]
  field_simp
  linear_combination (-12 * q1) * cs

theorem reduced_two {h l1 l2 l3 : ℝ} (H : Scaled h l1 l2 l3) (q1 q2 q3 : ℂ) (hq : q1 + q2 + q3 = 0) (h1 : q1 ≠ 0) :
    q2 - meanq l1 l2 l3 q1 q2 q3 + (q3 - meanq l1 l2 l3 q1 q2 q3) = -q1 * gq l1 l2 l3 q1 q2 q3 := by
  have cs : (l1 : ℂ) * l2 + l1 * l3 + l2 * l3 = 3 := by exact_mod_cast H.sum
  have e3 : q3 = -q1 - q2 := by linear_combination hq
  unfold meanq gq
  rw [e3]
  field_simp
  linear_combination q1 * cs

theorem reduced_zero {h l1 l2 l3 : ℝ} (H : Scaled h l1 l2 l3) (q1 q2 q3 : ℂ) :
    ((1 / (l1 * h) : ℝ) : ℂ) * -(q1 - meanq l1 l2 l3 q1 q2 q3) + (1 / (l2 * h) : ℝ) * -(q2 - meanq l1 l2 l3 q1 q2 q3) +
      (1 / (l3 * h) : ℝ) * -(q3 - meanq l1 l2 l3 q1 q2 q3) = 0 := by
  have c1 : (l1 : ℂ) ≠ 0 := by exact_mod_cast H.p1.ne'
  have c2 : (l2 : ℂ) ≠ 0 := by exact_mod_cast H.p2.ne'
  have c3 : (l3 : ℂ) ≠ 0 := by exact_mod_cast H.p3.ne'
  have ch : (h : ℂ) ≠ 0 := by exact_mod_cast H.ph.ne'
  have cs : (l1 : ℂ) * l2 + l1 * l3 + l2 * l3 = 3 := by exact_mod_cast H.sum
  unfold meanq
  push_cast
  field_simp
  linear_combination (l2 * l3 * q1 + l1 * l3 * q2 + l1 * l2 * q3) * cs

theorem weights_sum {h l1 l2 l3 : ℝ} (H : Scaled h l1 l2 l3) :
    (1 / (l1 * h) + 1 / (l2 * h) + 1 / (l3 * h)) / 2 = 3 / (2 * h * (l1 * l2 * l3)) := by
  have p1 := H.p1
  have p2 := H.p2
  have p3 := H.p3
  have ph := H.ph
  field_simp
  linarith [H.sum]

/-- The weight of three shears, from the filters. -/
theorem tq0_kernel {h l1 l2 l3 k1 k2 k3 : ℝ} (H : Scaled h l1 l2 l3) (h1 : 0 < k1) (h2 : 0 < k2) (h3 : 0 < k3)
    (e1 : k1 ^ 2 = l1 * h) (e2 : k2 ^ 2 = l2 * h) (e3 : k3 ^ 2 = l3 * h) (p1 p2 p3 c : ℂ) (hc : c - p1 + (c - p2) + (c - p3) = 0)
    (n1 : c - p1 ≠ 0) (n2 : c - p2 ≠ 0) (n3 : c - p3 ≠ 0) :
    kernel3 (apertureFilter k1) (apertureFilter k2) (apertureFilter k3) p1 p2 p3 =
      tq0 h l1 l2 l3 (c - p1) (c - p2) (c - p3) *
        (conj (c - p1) / (c - p1) * (conj (c - p2) / (c - p2)) * (conj (c - p3) / (c - p3))) := by
  have r1 := reduced_first H _ _ _ hc n1
  have r2 := reduced_first H.turn (c - p2) (c - p3) (c - p1) (by linear_combination hc) n2
  have r3 := reduced_first H.turn.turn (c - p3) (c - p1) (c - p2) (by linear_combination hc) n3
  rw [meanq_turn] at r2
  rw [meanq_turn, meanq_turn] at r3
  have rz := reduced_zero H (c - p1) (c - p2) (c - p3)
  have rs := reduced_sum H (c - p1) (c - p2) (c - p3) _ hc (meanq_eq H _ _ _)
  generalize hm : meanq l1 l2 l3 (c - p1) (c - p2) (c - p3) = m at *
  have s1 : p1 - (c - m) = -(c - p1 - m) := by ring
  have s2 : p2 - (c - m) = -(c - p2 - m) := by ring
  have s3 : p3 - (c - m) = -(c - p3 - m) := by ring
  rw [kernel3_shift _ _ _ p1 p2 p3 (c - m), s1, s2, s3, three_none k1 k2 k3 h1 h2 h3 _ _ _ (by rw [e1, e2, e3]; exact rz)]
  simp only [norm_neg]
  rw [e1, e2, e3, neg_div, rs, weights_sum H, r1, r2, r3]
  have g1 : ((k1 : ℂ)) ^ 2 = l1 * h := by exact_mod_cast e1
  have g2 : ((k2 : ℂ)) ^ 2 = l2 * h := by exact_mod_cast e2
  have g3 : ((k3 : ℂ)) ^ 2 = l3 * h := by exact_mod_cast e3
  rw [g1, g2, g3]
  have c1 : (l1 : ℂ) ≠ 0 := by exact_mod_cast H.p1.ne'
  have c2 : (l2 : ℂ) ≠ 0 := by exact_mod_cast H.p2.ne'
  have c3 : (l3 : ℂ) ≠ 0 := by exact_mod_cast H.p3.ne'
  have ch : (h : ℂ) ≠ 0 := by exact_mod_cast H.ph.ne'
  have cp : (π : ℂ) ≠ 0 := by exact_mod_cast Real.pi_ne_zero
  unfold tq0 eq'
  rw [sq_norm_eq, sq_norm_eq, sq_norm_eq]
  simp only [map_mul, map_neg, Complex.conj_ofReal]
  push_cast
  generalize fq l2 l3 (c - p1) (c - p2) (c - p3) = f1
  generalize fq l3 l1 (c - p2) (c - p3) (c - p1) = f2
  generalize fq l1 l2 (c - p3) (c - p1) (c - p2) = f3
  generalize Complex.exp (-(zq h l1 l2 l3 (c - p1) (c - p2) (c - p3) : ℂ)) = E
  generalize conj f1 = f1c
  generalize conj f2 = f2c
  generalize conj f3 = f3c
  generalize conj (c - p1) = q1c
  generalize conj (c - p2) = q2c
  generalize conj (c - p3) = q3c
  generalize c - p1 = q1 at *
  generalize c - p2 = q2 at *
  generalize c - p3 = q3 at *
  field_simp
  ring

/-- The weight of three shears, the first conjugated, from the filters. -/
theorem tq1_kernel {h l1 l2 l3 k1 k2 k3 : ℝ} (H : Scaled h l1 l2 l3) (h1 : 0 < k1) (h2 : 0 < k2) (h3 : 0 < k3)
    (e1 : k1 ^ 2 = l1 * h) (e2 : k2 ^ 2 = l2 * h) (e3 : k3 ^ 2 = l3 * h) (p1 p2 p3 c : ℂ) (hc : c - p1 + (c - p2) + (c - p3) = 0)
    (n1 : c - p1 ≠ 0) (n2 : c - p2 ≠ 0) (n3 : c - p3 ≠ 0) :
    kernel3 (conjFilter (apertureFilter k1)) (apertureFilter k2) (apertureFilter k3) p1 p2 p3 =
      tq1 h l1 l2 l3 (c - p1) (c - p2) (c - p3) *
        ((c - p1) / conj (c - p1) * (conj (c - p2) / (c - p2)) * (conj (c - p3) / (c - p3))) := by
  have r1 := reduced_first H _ _ _ hc n1
  have r2 := reduced_first H.turn (c - p2) (c - p3) (c - p1) (by linear_combination hc) n2
  have r3 := reduced_first H.turn.turn (c - p3) (c - p1) (c - p2) (by linear_combination hc) n3
  have r4 := reduced_two H _ _ _ hc n1
  rw [meanq_turn] at r2
  rw [meanq_turn, meanq_turn] at r3
  have rz := reduced_zero H (c - p1) (c - p2) (c - p3)
  have rs := reduced_sum H (c - p1) (c - p2) (c - p3) _ hc (meanq_eq H _ _ _)
  generalize hm : meanq l1 l2 l3 (c - p1) (c - p2) (c - p3) = m at *
  have s1 : p1 - (c - m) = -(c - p1 - m) := by ring
  have s2 : p2 - (c - m) = -(c - p2 - m) := by ring
  have s3 : p3 - (c - m) = -(c - p3 - m) := by ring
  rw [kernel3_shift _ _ _ p1 p2 p3 (c - m), s1, s2, s3]
  simp only [conjFilter]
  rw [three_first k1 k2 k3 h1 h2 h3 _ _ _ (by rw [e1, e2, e3]; exact rz), ← neg_add, r4]
  simp only [norm_neg]
  rw [e1, e2, e3, neg_div, rs, weights_sum H, r1, r2, r3]
  have g1 : ((k1 : ℂ)) ^ 2 = l1 * h := by exact_mod_cast e1
  have g2 : ((k2 : ℂ)) ^ 2 = l2 * h := by exact_mod_cast e2
  have g3 : ((k3 : ℂ)) ^ 2 = l3 * h := by exact_mod_cast e3
  rw [g1, g2, g3]
  have c1 : (l1 : ℂ) ≠ 0 := by exact_mod_cast H.p1.ne'
  have c2 : (l2 : ℂ) ≠ 0 := by exact_mod_cast H.p2.ne'
  have c3 : (l3 : ℂ) ≠ 0 := by exact_mod_cast H.p3.ne'
  have ch : (h : ℂ) ≠ 0 := by exact_mod_cast H.ph.ne'
  have cp : (π : ℂ) ≠ 0 := by exact_mod_cast Real.pi_ne_zero
  have m1 : conj (c - p1) ≠ 0 := (map_ne_zero _).2 n1
  have m2 : conj (c - p2) ≠ 0 := (map_ne_zero _).2 n2
  have m3 : conj (c - p3) ≠ 0 := (map_ne_zero _).2 n3
  unfold tq1 eq'
  simp only
  rw [sq_norm_eq, sq_norm_eq, sq_norm_eq]
  simp only [map_mul, map_neg, Complex.conj_ofReal]
  push_cast
  generalize fq l2 l3 (c - p1) (c - p2) (c - p3) = f1
  generalize fq l3 l1 (c - p2) (c - p3) (c - p1) = f2
  generalize fq l1 l2 (c - p3) (c - p1) (c - p2) = f3
  generalize gq l1 l2 l3 (c - p1) (c - p2) (c - p3) = g1
  generalize Complex.exp (-(zq h l1 l2 l3 (c - p1) (c - p2) (c - p3) : ℂ)) = E
  generalize conj f2 = f2c
  generalize conj f3 = f3c
  generalize conj g1 = g1c
  generalize conj (c - p1) = q1c at *
  generalize conj (c - p2) = q2c at *
  generalize conj (c - p3) = q3c at *
  generalize c - p1 = q1 at *
  generalize c - p2 = q2 at *
  generalize c - p3 = q3 at *
  field_simp
  ring

end

end TreeCorr.Map3
