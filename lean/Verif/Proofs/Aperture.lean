import Verif.Proofs.GaussMoments
import Verif.Spec.Aperture

/-!
The integrals of products of two Crittenden filters.
-/

namespace TreeCorr.Aperture

open MeasureTheory Complex
open scoped ComplexConjugate Real

/-- The integral for explicit coefficients. -/
theorem gauss_lists (b : ℝ) (hb : 0 < b) (l m : List ℂ) :
    ∫ x : ℂ, (∑ j ∈ Finset.range l.length, l.getD j 0 * x ^ j) *
        (∑ k ∈ Finset.range m.length, m.getD k 0 * conj x ^ k) * gauss b x =
      ∑ j ∈ Finset.range l.length, if j < m.length then
        l.getD j 0 * m.getD j 0 * ((π : ℂ) * j.factorial / (b : ℂ) ^ (j + 1)) else 0 :=
  gauss_integral b hb _ _ _ _

/-- The polynomial with the given coefficients. -/
def poly (l : List ℂ) (x : ℂ) : ℂ := ∑ j ∈ Finset.range l.length, l.getD j 0 * x ^ j

/-- The value of the integral of `poly l x * poly m (conj x)` times a Gaussian. -/
noncomputable def gaussVal (b : ℝ) (l m : List ℂ) : ℂ :=
  ∑ j ∈ Finset.range l.length, if j < m.length then
    l.getD j 0 * m.getD j 0 * ((π : ℂ) * j.factorial / (b : ℂ) ^ (j + 1)) else 0

/-- The same for a sum of products. -/
theorem gauss_sum (b : ℝ) (hb : 0 < b) (L : List (List ℂ × List ℂ)) :
    (Integrable fun x : ℂ => (L.map fun p => poly p.1 x * poly p.2 (conj x)).sum * gauss b x) ∧
    ∫ x : ℂ, (L.map fun p => poly p.1 x * poly p.2 (conj x)).sum * gauss b x =
      (L.map fun p => gaussVal b p.1 p.2).sum := by
  induction L with
  | nil => simp
  | cons p L ih =>
    simp only [List.map_cons, List.sum_cons, add_mul]
    have h1 : Integrable fun x : ℂ => poly p.1 x * poly p.2 (conj x) * gauss b x :=
      gauss_integrable b hb _ _ _ _
    refine ⟨h1.add ih.1, ?_⟩
    rw [integral_add h1 ih.1, ih.2]
    congr 1
    exact gauss_lists b hb p.1 p.2

theorem sq_norm_eq (z : ℂ) : ((‖z‖ ^ 2 : ℝ) : ℂ) = z * conj z := by
  rw [Complex.mul_conj, Complex.normSq_eq_norm_sq]

theorem shearFilter_crit (z : ℂ) :
    shearFilter critQ z = -(1 / (4 * π)) * conj z ^ 2 * gauss (1 / 2) z := by
  rcases eq_or_ne z 0 with h | h
  · simp [h, shearFilter]
  · have e : ((‖z‖ : ℝ) : ℂ) ^ 2 = z * conj z := by rw [← sq_norm_eq]; push_cast; rfl
    have e2 : Real.exp (-‖z‖ ^ 2 / 2) = Real.exp (-(1 / 2) * ‖z‖ ^ 2) := by congr 1; ring
    unfold shearFilter critQ gauss
    rw [e2]
    push_cast
    rw [e]
    field_simp

theorem countFilter_crit (z : ℂ) :
    countFilter critU z = 1 / (2 * π) * (1 - z * conj z / 2) * gauss (1 / 2) z := by
  have e2 : Real.exp (-‖z‖ ^ 2 / 2) = Real.exp (-(1 / 2) * ‖z‖ ^ 2) := by congr 1; ring
  have e : ((‖z‖ : ℝ) : ℂ) ^ 2 = z * conj z := by rw [← sq_norm_eq]; push_cast; rfl
  unfold countFilter critU gauss
  rw [e2]
  push_cast
  rw [e]

theorem countFilter_doc (z : ℂ) :
    countFilter docCritU z = 1 / (2 * π) * (1 - z * conj z) * gauss (1 / 2) z := by
  have e2 : Real.exp (-‖z‖ ^ 2 / 2) = Real.exp (-(1 / 2) * ‖z‖ ^ 2) := by congr 1; ring
  have e : ((‖z‖ : ℝ) : ℂ) ^ 2 = z * conj z := by rw [← sq_norm_eq]; push_cast; rfl
  unfold countFilter docCritU gauss
  rw [e2]
  push_cast
  rw [e]

/-- The product of the Gaussians at two points around their middle. -/
theorem gauss_two (d x : ℂ) :
    gauss (1 / 2) (x - d / 2) * gauss (1 / 2) (x + d / 2) =
      ((Real.exp (-(‖d‖ * ‖d‖) / 4) : ℝ) : ℂ) * gauss 1 x := by
  unfold gauss
  rw [← Complex.ofReal_mul, ← Complex.ofReal_mul, ← Real.exp_add, ← Real.exp_add]
  have h := parallelogram_law_with_norm ℝ x (d / 2)
  have h2 : ‖d / 2‖ = ‖d‖ / 2 := by rw [norm_div]; norm_num
  rw [h2] at h
  have h3 : -(1 / 2) * ‖x - d / 2‖ ^ 2 + -(1 / 2) * ‖x + d / 2‖ ^ 2 =
      -(‖d‖ * ‖d‖) / 4 + -1 * ‖x‖ ^ 2 := by nlinarith
  rw [h3]

theorem conj_gauss (b : ℝ) (x : ℂ) : conj (gauss b x) = gauss b x := Complex.conj_ofReal _

theorem middle (f : ℂ → ℂ) (d : ℂ) : ∫ x : ℂ, f x = ∫ x : ℂ, f (x - d / 2) :=
  (integral_sub_right_eq_self f (d / 2)).symm

/-- Two shears, one of them conjugated. -/
theorem crit_plus (d : ℂ) :
    ∫ x : ℂ, shearFilter critQ x * conj (shearFilter critQ (x + d)) =
      (((32 - 16 * ‖d‖ ^ 2 + ‖d‖ ^ 4) / (256 * π) * Real.exp (-(‖d‖ * ‖d‖) / 4) : ℝ) : ℂ) := by
  rw [middle _ d]
  have e : (fun x : ℂ => shearFilter critQ (x - d / 2) * conj (shearFilter critQ (x - d / 2 + d))) =
      fun x => (1 / (16 * π ^ 2) * ((Real.exp (-(‖d‖ * ‖d‖) / 4) : ℝ) : ℂ)) *
        ((∑ j ∈ Finset.range 3, [d ^ 2 / 4, d, 1].getD j 0 * x ^ j) *
          (∑ k ∈ Finset.range 3, [conj d ^ 2 / 4, -conj d, 1].getD k 0 * conj x ^ k) * gauss 1 x) := by
    funext x
    rw [show x - d / 2 + d = x + d / 2 by ring, shearFilter_crit, shearFilter_crit]
    simp only [map_mul, map_neg, map_pow, map_div₀, map_one, Complex.conj_conj, conj_gauss, map_sub, map_add,
      Complex.conj_ofReal, map_ofNat, Finset.sum_range_succ, Finset.sum_range_zero, List.getD_cons_zero,
      List.getD_cons_succ]
    have := gauss_two d x
    linear_combination ((1 / (4 * π)) * (1 / (4 * π)) * (conj x - conj d / 2) ^ 2 * (x + d / 2) ^ 2) * this
  rw [e, integral_const_mul]
  have h := gauss_lists 1 one_pos [d ^ 2 / 4, d, 1] [conj d ^ 2 / 4, -conj d, 1]
  simp only [List.length_cons, List.length_nil] at h
  rw [h]
  have e4 : ((‖d‖ : ℝ) : ℂ) ^ 2 = d * conj d := by rw [← sq_norm_eq]; push_cast; rfl
  have e5 : ((‖d‖ : ℝ) : ℂ) ^ 4 = (d * conj d) ^ 2 := by rw [← e4]; ring
  simp [Finset.sum_range_succ, Nat.factorial]
  rw [e4, e5]
  have : (π : ℂ) ≠ 0 := by exact_mod_cast Real.pi_ne_zero
  field_simp
  ring

/-- Two shears, neither conjugated. -/
theorem crit_minus (d : ℂ) :
    ∫ x : ℂ, shearFilter critQ x * shearFilter critQ (x + d) =
      conj d ^ 4 * ((1 / (256 * π) * Real.exp (-(‖d‖ * ‖d‖) / 4) : ℝ) : ℂ) := by
  rw [middle _ d]
  have e : (fun x : ℂ => shearFilter critQ (x - d / 2) * shearFilter critQ (x - d / 2 + d)) =
      fun x => (1 / (16 * π ^ 2) * ((Real.exp (-(‖d‖ * ‖d‖) / 4) : ℝ) : ℂ)) *
        (([([1], [conj d ^ 4 / 16, 0, -conj d ^ 2 / 2, 0, 1])].map
          fun p : List ℂ × List ℂ => poly p.1 x * poly p.2 (conj x)).sum * gauss 1 x) := by
    funext x
    rw [show x - d / 2 + d = x + d / 2 by ring, shearFilter_crit, shearFilter_crit]
    simp only [map_sub, map_add, map_div₀, map_ofNat, poly, List.map_cons, List.map_nil, List.sum_cons,
      List.sum_nil, List.length_cons, List.length_nil, Finset.sum_range_succ, Finset.sum_range_zero,
      List.getD_cons_zero, List.getD_cons_succ]
    have := gauss_two d x
    linear_combination ((1 / (4 * π)) * (1 / (4 * π)) * (conj x - conj d / 2) ^ 2 *
      (conj x + conj d / 2) ^ 2) * this
  rw [e, integral_const_mul, (gauss_sum 1 one_pos _).2]
  have : (π : ℂ) ≠ 0 := by exact_mod_cast Real.pi_ne_zero
  simp [gaussVal]
  field_simp
  ring

/-- A count and a shear. -/
theorem crit_cross (d : ℂ) :
    ∫ x : ℂ, countFilter critU x * shearFilter critQ (x + d) =
      -(conj d ^ 2 * (((12 - ‖d‖ ^ 2) / (256 * π) * Real.exp (-(‖d‖ * ‖d‖) / 4) : ℝ) : ℂ)) := by
  rw [middle _ d]
  have e : (fun x : ℂ => countFilter critU (x - d / 2) * shearFilter critQ (x - d / 2 + d)) =
      fun x => (-1 / (8 * π ^ 2) * ((Real.exp (-(‖d‖ * ‖d‖) / 4) : ℝ) : ℂ)) *
        (([([1], [conj d ^ 2 / 4, conj d, 1]),
           ([d / 4, -1 / 2], [-conj d ^ 3 / 8, -conj d ^ 2 / 4, conj d / 2, 1])].map
          fun p : List ℂ × List ℂ => poly p.1 x * poly p.2 (conj x)).sum * gauss 1 x) := by
    funext x
    rw [show x - d / 2 + d = x + d / 2 by ring, shearFilter_crit, countFilter_crit]
    simp only [map_sub, map_add, map_div₀, map_ofNat, poly, List.map_cons, List.map_nil, List.sum_cons,
      List.sum_nil, List.length_cons, List.length_nil, Finset.sum_range_succ, Finset.sum_range_zero,
      List.getD_cons_zero, List.getD_cons_succ]
    have := gauss_two d x
    linear_combination (-(1 / (2 * π)) * (1 / (4 * π)) * (1 - (x - d / 2) * (conj x - conj d / 2) / 2) *
      (conj x + conj d / 2) ^ 2) * this
  rw [e, integral_const_mul, (gauss_sum 1 one_pos _).2]
  have : (π : ℂ) ≠ 0 := by exact_mod_cast Real.pi_ne_zero
  have e4 : ((‖d‖ : ℝ) : ℂ) ^ 2 = d * conj d := by rw [← sq_norm_eq]; push_cast; rfl
  simp [gaussVal, Finset.sum_range_succ, Nat.factorial]
  rw [e4]
  field_simp
  ring

/-- A count with the documented `U` and a shear. -/
theorem crit_cross_doc (d : ℂ) :
    ∫ x : ℂ, countFilter docCritU x * shearFilter critQ (x + d) =
      -(conj d ^ 2 * (((8 - ‖d‖ ^ 2) / (128 * π) * Real.exp (-(‖d‖ * ‖d‖) / 4) : ℝ) : ℂ)) := by
  rw [middle _ d]
  have e : (fun x : ℂ => countFilter docCritU (x - d / 2) * shearFilter critQ (x - d / 2 + d)) =
      fun x => (-1 / (8 * π ^ 2) * ((Real.exp (-(‖d‖ * ‖d‖) / 4) : ℝ) : ℂ)) *
        (([([1], [conj d ^ 2 / 4, conj d, 1]),
           ([d / 2, -1], [-conj d ^ 3 / 8, -conj d ^ 2 / 4, conj d / 2, 1])].map
          fun p : List ℂ × List ℂ => poly p.1 x * poly p.2 (conj x)).sum * gauss 1 x) := by
    funext x
    rw [show x - d / 2 + d = x + d / 2 by ring, shearFilter_crit, countFilter_doc]
    simp only [map_sub, map_add, map_div₀, map_ofNat, poly, List.map_cons, List.map_nil, List.sum_cons,
      List.sum_nil, List.length_cons, List.length_nil, Finset.sum_range_succ, Finset.sum_range_zero,
      List.getD_cons_zero, List.getD_cons_succ]
    have := gauss_two d x
    linear_combination (-(1 / (2 * π)) * (1 / (4 * π)) * (1 - (x - d / 2) * (conj x - conj d / 2)) *
      (conj x + conj d / 2) ^ 2) * this
  rw [e, integral_const_mul, (gauss_sum 1 one_pos _).2]
  have : (π : ℂ) ≠ 0 := by exact_mod_cast Real.pi_ne_zero
  have e4 : ((‖d‖ : ℝ) : ℂ) ^ 2 = d * conj d := by rw [← sq_norm_eq]; push_cast; rfl
  simp [gaussVal, Finset.sum_range_succ, Nat.factorial]
  rw [e4]
  field_simp
  ring

/-- Two counts. -/
theorem crit_count (d : ℂ) :
    ∫ x : ℂ, countFilter critU x * countFilter critU (x + d) =
      (((32 - 16 * ‖d‖ ^ 2 + ‖d‖ ^ 4) / (256 * π) * Real.exp (-(‖d‖ * ‖d‖) / 4) : ℝ) : ℂ) := by
  rw [middle _ d]
  have e : (fun x : ℂ => countFilter critU (x - d / 2) * countFilter critU (x - d / 2 + d)) =
      fun x => (1 / (4 * π ^ 2) * ((Real.exp (-(‖d‖ * ‖d‖) / 4) : ℝ) : ℂ)) *
        (([([1], [1]), ([d / 4, -1 / 2], [-conj d / 2, 1]), ([-d / 4, -1 / 2], [conj d / 2, 1]),
           ([-d ^ 2 / 16, 0, 1 / 4], [-conj d ^ 2 / 4, 0, 1])].map
          fun p : List ℂ × List ℂ => poly p.1 x * poly p.2 (conj x)).sum * gauss 1 x) := by
    funext x
    rw [show x - d / 2 + d = x + d / 2 by ring, countFilter_crit, countFilter_crit]
    simp only [map_sub, map_add, map_div₀, map_ofNat, poly, List.map_cons, List.map_nil, List.sum_cons,
      List.sum_nil, List.length_cons, List.length_nil, Finset.sum_range_succ, Finset.sum_range_zero,
      List.getD_cons_zero, List.getD_cons_succ]
    have := gauss_two d x
    linear_combination ((1 / (2 * π)) * (1 / (2 * π)) * (1 - (x - d / 2) * (conj x - conj d / 2) / 2) *
      (1 - (x + d / 2) * (conj x + conj d / 2) / 2)) * this
  rw [e, integral_const_mul, (gauss_sum 1 one_pos _).2]
  have : (π : ℂ) ≠ 0 := by exact_mod_cast Real.pi_ne_zero
  have e4 : ((‖d‖ : ℝ) : ℂ) ^ 2 = d * conj d := by rw [← sq_norm_eq]; push_cast; rfl
  have e5 : ((‖d‖ : ℝ) : ℂ) ^ 4 = (d * conj d) ^ 2 := by rw [← e4]; ring
  simp [gaussVal, Finset.sum_range_succ, Nat.factorial]
  rw [e4, e5]
  field_simp
  ring

end TreeCorr.Aperture
