import Verif.Proofs.Aperture
import Verif.Spec.Map3
import Verif.Model.Map3

/-!
The integral of three filters.
-/

namespace TreeCorr.Map3

open MeasureTheory Aperture
open scoped ComplexConjugate Real

theorem apertureFilter_eq (k : ℝ) (hk : 0 < k) (z : ℂ) :
    apertureFilter k z = -(1 / (4 * π)) * (1 / (k : ℂ) ^ 2) ^ 2 * conj z ^ 2 * gauss (1 / k ^ 2 / 2) z := by
  have hk' : (k : ℂ) ≠ 0 := by exact_mod_cast hk.ne'
  have e : gauss (1 / 2) (z / k) = gauss (1 / k ^ 2 / 2) z := by
    unfold gauss
    rw [norm_div, Complex.norm_real, Real.norm_of_nonneg hk.le]
    congr 2
    field_simp
  rw [apertureFilter, shearFilter_crit, e, map_div₀, Complex.conj_ofReal]
  have : (π : ℂ) ≠ 0 := by exact_mod_cast Real.pi_ne_zero
  field_simp

/-- The product of three Gaussians around the weighted mean of their centres. -/
theorem gauss_three (w1 w2 w3 : ℝ) (P1 P2 P3 x : ℂ) (h : (w1 : ℂ) * P1 + w2 * P2 + w3 * P3 = 0) :
    gauss (w1 / 2) (P1 + x) * gauss (w2 / 2) (P2 + x) * gauss (w3 / 2) (P3 + x) =
      ((Real.exp (-(w1 * ‖P1‖ ^ 2 + w2 * ‖P2‖ ^ 2 + w3 * ‖P3‖ ^ 2) / 2) : ℝ) : ℂ) * gauss ((w1 + w2 + w3) / 2) x := by
  unfold gauss
  rw [← Complex.ofReal_mul, ← Complex.ofReal_mul, ← Complex.ofReal_mul, ← Real.exp_add, ← Real.exp_add, ← Real.exp_add]
  congr 2
  have hr := congrArg Complex.re h
  have hi := congrArg Complex.im h
  simp at hr hi
  have e : ∀ z : ℂ, ‖z‖ ^ 2 = z.re ^ 2 + z.im ^ 2 := by
    intro z
    rw [← Complex.normSq_eq_norm_sq, Complex.normSq_apply]
    ring
  simp only [e, Complex.add_re, Complex.add_im]
  linear_combination (-x.re) * hr - x.im * hi

/-- Three shears, none conjugated. -/
theorem three_none (k1 k2 k3 : ℝ) (h1 : 0 < k1) (h2 : 0 < k2) (h3 : 0 < k3) (P1 P2 P3 : ℂ)
    (h : ((1 / k1 ^ 2 : ℝ) : ℂ) * P1 + (1 / k2 ^ 2 : ℝ) * P2 + (1 / k3 ^ 2 : ℝ) * P3 = 0) :
    ∫ x : ℂ, apertureFilter k1 (P1 + x) * apertureFilter k2 (P2 + x) * apertureFilter k3 (P3 + x) =
      -(1 / (4 * π)) ^ 3 * (1 / ((k1 : ℂ) ^ 2 * k2 ^ 2 * k3 ^ 2)) ^ 2 *
        ((Real.exp (-(1 / k1 ^ 2 * ‖P1‖ ^ 2 + 1 / k2 ^ 2 * ‖P2‖ ^ 2 + 1 / k3 ^ 2 * ‖P3‖ ^ 2) / 2) : ℝ) : ℂ) *
        (conj (P1 * P2 * P3) ^ 2 * (π / (((1 / k1 ^ 2 + 1 / k2 ^ 2 + 1 / k3 ^ 2) / 2 : ℝ) : ℂ))) := by
  have hb : 0 < (1 / k1 ^ 2 + 1 / k2 ^ 2 + 1 / k3 ^ 2) / 2 := by positivity
  generalize hbd : (1 / k1 ^ 2 + 1 / k2 ^ 2 + 1 / k3 ^ 2) / 2 = b at *
  have e : (fun x : ℂ => apertureFilter k1 (P1 + x) * apertureFilter k2 (P2 + x) * apertureFilter k3 (P3 + x)) =
      fun x => (-(1 / (4 * π)) ^ 3 * (1 / ((k1 : ℂ) ^ 2 * k2 ^ 2 * k3 ^ 2)) ^ 2 *
        ((Real.exp (-(1 / k1 ^ 2 * ‖P1‖ ^ 2 + 1 / k2 ^ 2 * ‖P2‖ ^ 2 + 1 / k3 ^ 2 * ‖P3‖ ^ 2) / 2) : ℝ) : ℂ)) *
        (([([1], [conj P1 ^ 2 * conj P2 ^ 2 * conj P3 ^ 2,
            2 * conj P1 * conj P2 * conj P3 * (conj P1 * conj P2 + conj P1 * conj P3 + conj P2 * conj P3),
            (conj P1 * conj P2 + conj P1 * conj P3 + conj P2 * conj P3) ^ 2 +
              2 * conj P1 * conj P2 * conj P3 * (conj P1 + conj P2 + conj P3),
            2 * conj P1 * conj P2 * conj P3 +
              2 * (conj P1 * conj P2 + conj P1 * conj P3 + conj P2 * conj P3) * (conj P1 + conj P2 + conj P3),
            (conj P1 + conj P2 + conj P3) ^ 2 + 2 * (conj P1 * conj P2 + conj P1 * conj P3 + conj P2 * conj P3),
            2 * (conj P1 + conj P2 + conj P3), 1])].map
          fun p : List ℂ × List ℂ => poly p.1 x * poly p.2 (conj x)).sum * gauss b x) := by
    funext x
    rw [apertureFilter_eq k1 h1, apertureFilter_eq k2 h2, apertureFilter_eq k3 h3]
    simp only [map_add, poly, List.map_cons, List.map_nil, List.sum_cons,
      List.sum_nil, List.length_cons, List.length_nil, Finset.sum_range_succ, Finset.sum_range_zero,
      List.getD_cons_zero, List.getD_cons_succ]
    have hg := gauss_three _ _ _ P1 P2 P3 x h
    rw [hbd] at hg
    have hk : (1 / ((k1 : ℂ) ^ 2 * k2 ^ 2 * k3 ^ 2)) ^ 2 = (1 / (k1 : ℂ) ^ 2) ^ 2 * (1 / (k2 : ℂ) ^ 2) ^ 2 * (1 / (k3 : ℂ) ^ 2) ^ 2 := by
      simp only [one_div, mul_inv, mul_pow]
    rw [hk]
    linear_combination (-(1 / (4 * π)) ^ 3 * ((1 / (k1 : ℂ) ^ 2) ^ 2 * (1 / (k2 : ℂ) ^ 2) ^ 2 * (1 / (k3 : ℂ) ^ 2) ^ 2) *
      (conj P1 + conj x) ^ 2 * (conj P2 + conj x) ^ 2 * (conj P3 + conj x) ^ 2) * hg
  rw [e, integral_const_mul, (gauss_sum b hb _).2]
  simp [gaussVal]
  ring_nf
  simp

/-- Three shears, the first conjugated. -/
theorem three_first (k1 k2 k3 : ℝ) (h1 : 0 < k1) (h2 : 0 < k2) (h3 : 0 < k3) (P1 P2 P3 : ℂ)
    (h : ((1 / k1 ^ 2 : ℝ) : ℂ) * P1 + (1 / k2 ^ 2 : ℝ) * P2 + (1 / k3 ^ 2 : ℝ) * P3 = 0) :
    ∫ x : ℂ, conj (apertureFilter k1 (P1 + x)) * apertureFilter k2 (P2 + x) * apertureFilter k3 (P3 + x) =
      -(1 / (4 * π)) ^ 3 * (1 / ((k1 : ℂ) ^ 2 * k2 ^ 2 * k3 ^ 2)) ^ 2 *
        ((Real.exp (-(1 / k1 ^ 2 * ‖P1‖ ^ 2 + 1 / k2 ^ 2 * ‖P2‖ ^ 2 + 1 / k3 ^ 2 * ‖P3‖ ^ 2) / 2) : ℝ) : ℂ) *
        (P1 ^ 2 * conj (P2 * P3) ^ 2 * (π / (((1 / k1 ^ 2 + 1 / k2 ^ 2 + 1 / k3 ^ 2) / 2 : ℝ) : ℂ)) +
          4 * P1 * conj (P2 * P3) * conj (P2 + P3) * (π / (((1 / k1 ^ 2 + 1 / k2 ^ 2 + 1 / k3 ^ 2) / 2 : ℝ) : ℂ) ^ 2) +
          (conj (P2 + P3) ^ 2 + 2 * conj (P2 * P3)) *
            (2 * π / (((1 / k1 ^ 2 + 1 / k2 ^ 2 + 1 / k3 ^ 2) / 2 : ℝ) : ℂ) ^ 3)) := by
  have hb : 0 < (1 / k1 ^ 2 + 1 / k2 ^ 2 + 1 / k3 ^ 2) / 2 := by positivity
  generalize hbd : (1 / k1 ^ 2 + 1 / k2 ^ 2 + 1 / k3 ^ 2) / 2 = b at *
  have e : (fun x : ℂ => conj (apertureFilter k1 (P1 + x)) * apertureFilter k2 (P2 + x) * apertureFilter k3 (P3 + x)) =
      fun x => (-(1 / (4 * π)) ^ 3 * (1 / ((k1 : ℂ) ^ 2 * k2 ^ 2 * k3 ^ 2)) ^ 2 *
        ((Real.exp (-(1 / k1 ^ 2 * ‖P1‖ ^ 2 + 1 / k2 ^ 2 * ‖P2‖ ^ 2 + 1 / k3 ^ 2 * ‖P3‖ ^ 2) / 2) : ℝ) : ℂ)) *
        (([([P1 ^ 2, 2 * P1, 1], [conj P2 ^ 2 * conj P3 ^ 2,
            2 * conj P2 * conj P3 * (conj P2 + conj P3), (conj P2 + conj P3) ^ 2 + 2 * conj P2 * conj P3,
            2 * (conj P2 + conj P3), 1])].map
          fun p : List ℂ × List ℂ => poly p.1 x * poly p.2 (conj x)).sum * gauss b x) := by
    funext x
    rw [apertureFilter_eq k1 h1, apertureFilter_eq k2 h2, apertureFilter_eq k3 h3]
    simp only [map_add, map_mul, map_neg, map_div₀, map_one, map_ofNat, map_pow, Complex.conj_conj, Complex.conj_ofReal,
      conj_gauss, poly, List.map_cons, List.map_nil, List.sum_cons,
      List.sum_nil, List.length_cons, List.length_nil, Finset.sum_range_succ, Finset.sum_range_zero,
      List.getD_cons_zero, List.getD_cons_succ]
    have hg := gauss_three _ _ _ P1 P2 P3 x h
    rw [hbd] at hg
    have hk : (1 / ((k1 : ℂ) ^ 2 * k2 ^ 2 * k3 ^ 2)) ^ 2 = (1 / (k1 : ℂ) ^ 2) ^ 2 * (1 / (k2 : ℂ) ^ 2) ^ 2 * (1 / (k3 : ℂ) ^ 2) ^ 2 := by
      simp only [one_div, mul_inv, mul_pow]
    rw [hk]
    linear_combination (-(1 / (4 * π)) ^ 3 * ((1 / (k1 : ℂ) ^ 2) ^ 2 * (1 / (k2 : ℂ) ^ 2) ^ 2 * (1 / (k3 : ℂ) ^ 2) ^ 2) *
      (P1 + x) ^ 2 * (conj P2 + conj x) ^ 2 * (conj P3 + conj x) ^ 2) * hg
  rw [e, integral_const_mul, (gauss_sum b hb _).2]
  simp [gaussVal, Finset.sum_range_succ, Nat.factorial]
  ring_nf
  simp

/-- The kernel around the weighted mean of the points. -/
theorem kernel3_shift (F1 F2 F3 : ℂ → ℂ) (p1 p2 p3 m : ℂ) :
    kernel3 F1 F2 F3 p1 p2 p3 =
      (2 * π) ^ 2 * ∫ x : ℂ, F1 (p1 - m + x) * F2 (p2 - m + x) * F3 (p3 - m + x) := by
  rw [kernel3]
  congr 1
  have h := integral_sub_left_eq_self (fun y : ℂ => F1 (p1 - m + y) * F2 (p2 - m + y) * F3 (p3 - m + y)) volume m
  rw [← h]
  refine integral_congr_ae (Filter.Eventually.of_forall fun x => ?_)
  simp only
  rw [show p1 - m + (m - x) = p1 - x by ring, show p2 - m + (m - x) = p2 - x by ring,
    show p3 - m + (m - x) = p3 - x by ring]

end TreeCorr.Map3
