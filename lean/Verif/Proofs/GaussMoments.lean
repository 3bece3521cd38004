import Mathlib.MeasureTheory.Integral.Gamma
import Mathlib.MeasureTheory.Measure.Haar.InnerProductSpace
import Mathlib.Analysis.Complex.Isometry

/-!
Moments of the round Gaussian on the complex plane: the integral of
`x ^ j * conj x ^ k * exp (-b ‖x‖ ^ 2)` is zero when `j ≠ k` and `π j! / b ^ (j + 1)` when
`j = k`.
-/

namespace TreeCorr.Aperture

open MeasureTheory Complex
open scoped ComplexConjugate Real

/-- The Gaussian weight. -/
noncomputable def gauss (b : ℝ) (x : ℂ) : ℂ := ((Real.exp (-b * ‖x‖ ^ 2) : ℝ) : ℂ)

theorem norm_moment (b : ℝ) (hb : 0 < b) (n : ℕ) :
    ∫ x : ℂ, ‖x‖ ^ n * Real.exp (-b * ‖x‖ ^ 2) =
      π * b ^ (-((n : ℝ) + 2) / 2) * Real.Gamma (((n : ℝ) + 2) / 2) := by
  have h := Complex.integral_rpow_mul_exp_neg_mul_rpow (p := 2) (q := n) (b := b) (by norm_num)
    (by have : (0 : ℝ) ≤ n := Nat.cast_nonneg n
        linarith) hb
  simp only [Real.rpow_natCast, Real.rpow_ofNat] at h
  rw [h]
  ring

theorem norm_moment_integrable (b : ℝ) (hb : 0 < b) (n : ℕ) :
    Integrable fun x : ℂ => ‖x‖ ^ n * Real.exp (-b * ‖x‖ ^ 2) := by
  by_contra hn
  have h := norm_moment b hb n
  rw [integral_undef hn] at h
  have h1 : 0 < b ^ (-((n : ℝ) + 2) / 2) := Real.rpow_pos_of_pos hb _
  have h2 : 0 < Real.Gamma (((n : ℝ) + 2) / 2) := Real.Gamma_pos_of_pos (by positivity)
  have h3 : 0 < π * b ^ (-((n : ℝ) + 2) / 2) * Real.Gamma (((n : ℝ) + 2) / 2) := by positivity
  linarith

theorem moment_integrable (b : ℝ) (hb : 0 < b) (j k : ℕ) :
    Integrable fun x : ℂ => x ^ j * conj x ^ k * gauss b x := by
  refine (norm_moment_integrable b hb (j + k)).mono' ?_ ?_
  · refine Continuous.aestronglyMeasurable ?_
    unfold gauss
    fun_prop
  · refine Filter.Eventually.of_forall fun x => ?_
    simp only [gauss, norm_mul, norm_pow, RCLike.norm_conj, Complex.norm_real, Real.norm_eq_abs,
      abs_of_pos (Real.exp_pos _), pow_add]
    exact le_rfl

theorem moment_off (b : ℝ) (j k : ℕ) (h : j ≠ k) :
    ∫ x : ℂ, x ^ j * conj x ^ k * gauss b x = 0 := by
  -- turn by the angle that multiplies the integrand by -1
  have hd : ((j : ℂ) - k) ≠ 0 := sub_ne_zero.2 (by exact_mod_cast h)
  let th : ℝ := π / ((j : ℝ) - k)
  let a : Circle := Circle.exp th
  have hm := (rotation a).measurePreserving.integral_comp
    (rotation a).toHomeomorph.measurableEmbedding
    (fun x : ℂ => x ^ j * conj x ^ k * gauss b x)
  have ha : (a : ℂ) ^ j * conj (a : ℂ) ^ k = -1 := by
    rw [Circle.coe_exp, ← Complex.exp_conj, ← Complex.exp_nat_mul, ← Complex.exp_nat_mul,
      ← Complex.exp_add, ← Complex.exp_pi_mul_I]
    congr 1
    simp only [th, map_mul, Complex.conj_I, Complex.conj_ofReal]
    push_cast
    field_simp
    ring
  have e : (fun x : ℂ => (rotation a) x ^ j * conj ((rotation a) x) ^ k * gauss b ((rotation a) x))
      = fun x => -(x ^ j * conj x ^ k * gauss b x) := by
    funext x
    have hn : ‖(a : ℂ) * x‖ = ‖x‖ := by rw [norm_mul, Circle.norm_coe, one_mul]
    rw [rotation_apply, gauss, hn, ← gauss, map_mul, mul_pow, mul_pow]
    linear_combination (x ^ j * conj x ^ k * gauss b x) * ha
  rw [e, integral_neg] at hm
  have h2 := hm
  have : (2 : ℂ) * ∫ x : ℂ, x ^ j * conj x ^ k * gauss b x = 0 := by linear_combination -h2
  simpa using this

theorem moment_diag (b : ℝ) (hb : 0 < b) (j : ℕ) :
    ∫ x : ℂ, x ^ j * conj x ^ j * gauss b x = (π : ℂ) * j.factorial / (b : ℂ) ^ (j + 1) := by
  have e : (fun x : ℂ => x ^ j * conj x ^ j * gauss b x) =
      fun x => ((‖x‖ ^ (2 * j) * Real.exp (-b * ‖x‖ ^ 2) : ℝ) : ℂ) := by
    funext x
    rw [← mul_pow, Complex.mul_conj, Complex.normSq_eq_norm_sq, gauss]
    push_cast
    rw [pow_mul]
  rw [e, integral_complex_ofReal, norm_moment b hb]
  have e1 : ((2 * j : ℕ) : ℝ) + 2 = 2 * ((j : ℝ) + 1) := by push_cast; ring
  have e2 : -(2 * ((j : ℝ) + 1)) / 2 = -((j + 1 : ℕ) : ℝ) := by push_cast; ring
  rw [e1, e2, Real.rpow_neg hb.le, Real.rpow_natCast,
    show 2 * ((j : ℝ) + 1) / 2 = j + 1 by ring, Real.Gamma_nat_eq_factorial]
  push_cast
  field_simp

/-- The integral of a polynomial in `x` times a polynomial in `conj x` times a Gaussian. -/
theorem gauss_integral (b : ℝ) (hb : 0 < b) (m n : ℕ) (α β : ℕ → ℂ) :
    ∫ x : ℂ, (∑ j ∈ Finset.range m, α j * x ^ j) * (∑ k ∈ Finset.range n, β k * conj x ^ k) *
        gauss b x =
      ∑ j ∈ Finset.range m, if j < n then α j * β j * ((π : ℂ) * j.factorial / (b : ℂ) ^ (j + 1))
        else 0 := by
  have e : (fun x : ℂ => (∑ j ∈ Finset.range m, α j * x ^ j) *
      (∑ k ∈ Finset.range n, β k * conj x ^ k) * gauss b x) =
      fun x => ∑ j ∈ Finset.range m, ∑ k ∈ Finset.range n,
        α j * β k * (x ^ j * conj x ^ k * gauss b x) := by
    funext x
    rw [Finset.sum_mul_sum, Finset.sum_mul]
    refine Finset.sum_congr rfl fun j _ => ?_
    rw [Finset.sum_mul]
    refine Finset.sum_congr rfl fun k _ => ?_
    ring
  rw [e, integral_finsetSum _ fun j _ => integrable_finsetSum _ fun k _ =>
    (moment_integrable b hb j k).const_mul _]
  refine Finset.sum_congr rfl fun j _ => ?_
  rw [integral_finsetSum _ fun k _ => (moment_integrable b hb j k).const_mul _]
  simp only [integral_const_mul]
  by_cases hj : j < n
  · rw [Finset.sum_eq_single j, if_pos hj, moment_diag b hb]
    · intro k _ hk
      rw [moment_off b j k (Ne.symm hk), mul_zero]
    · intro h
      exact absurd (Finset.mem_range.2 hj) h
  · rw [if_neg hj]
    refine Finset.sum_eq_zero fun k hk => ?_
    have : j ≠ k := by
      have := Finset.mem_range.1 hk
      omega
    rw [moment_off b j k this, mul_zero]

theorem gauss_integrable (b : ℝ) (hb : 0 < b) (m n : ℕ) (α β : ℕ → ℂ) :
    Integrable fun x : ℂ => (∑ j ∈ Finset.range m, α j * x ^ j) *
      (∑ k ∈ Finset.range n, β k * conj x ^ k) * gauss b x := by
  have e : (fun x : ℂ => (∑ j ∈ Finset.range m, α j * x ^ j) *
      (∑ k ∈ Finset.range n, β k * conj x ^ k) * gauss b x) =
      fun x => ∑ j ∈ Finset.range m, ∑ k ∈ Finset.range n,
        α j * β k * (x ^ j * conj x ^ k * gauss b x) := by
    funext x
    rw [Finset.sum_mul_sum, Finset.sum_mul]
    refine Finset.sum_congr rfl fun j _ => ?_
    rw [Finset.sum_mul]
    refine Finset.sum_congr rfl fun k _ => ?_
    ring
  rw [e]
  exact integrable_finsetSum _ fun j _ => integrable_finsetSum _ fun k _ =>
    (moment_integrable b hb j k).const_mul _

end TreeCorr.Aperture
