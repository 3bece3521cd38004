import Verif.Proofs.ApertureDual
import Verif.Spec.Aperture
import Mathlib.MeasureTheory.Integral.Prod

/-!
Exchange of the order of the integrals in the E and B parts of the aperture statistics.
-/

namespace TreeCorr.Aperture

open MeasureTheory Set Filter Topology
open scoped Real

/-- The order of integration over `0 < t < r`, for a bounded factor `c`. -/
theorem triangle_swap (a b : ℝ → ℝ) (c : ℝ → ℝ → ℝ) (C : ℝ) (ha : IntegrableOn a (Ioi 0))
    (hb : IntegrableOn b (Ioi 0)) (hc : Measurable fun p : ℝ × ℝ => c p.1 p.2)
    (hC : ∀ r t, 0 < t → t < r → |c r t| ≤ C) :
    IntegrableOn (fun r => a r * ∫ t in Ioo 0 r, b t * c r t) (Ioi 0) ∧
    IntegrableOn (fun t => b t * ∫ r in Ioi t, a r * c r t) (Ioi 0) ∧
    ∫ r in Ioi 0, a r * (∫ t in Ioo 0 r, b t * c r t) =
      ∫ t in Ioi 0, b t * ∫ r in Ioi t, a r * c r t := by
  classical
  let F : ℝ → ℝ → ℝ := fun r t => (if 0 < t ∧ t < r then c r t else 0) * (a r * b t)
  have hprod := ha.mul_prod hb
  have hCn : 0 ≤ C := (abs_nonneg _).trans (hC 2 1 one_pos (by norm_num))
  have hF : Integrable (Function.uncurry F) ((volume.restrict (Ioi 0)).prod (volume.restrict (Ioi 0))) := by
    refine (hprod.norm.const_mul C).mono' ?_ ?_
    · refine AEStronglyMeasurable.mul ?_ hprod.aestronglyMeasurable
      refine Measurable.aestronglyMeasurable ?_
      refine Measurable.ite ?_ hc measurable_const
      exact (measurableSet_lt measurable_const measurable_snd).inter
        (measurableSet_lt measurable_snd measurable_fst)
    · refine Eventually.of_forall fun p => ?_
      obtain ⟨r, t⟩ := p
      simp only [Function.uncurry, F, norm_mul, Real.norm_eq_abs]
      refine mul_le_mul_of_nonneg_right ?_ (by positivity)
      split
      · rename_i h
        exact hC r t h.1 h.2
      · simpa using hCn
  have e1 : ∀ r ∈ Ioi (0 : ℝ), a r * (∫ t in Ioo 0 r, b t * c r t) = ∫ t in Ioi 0, F r t := by
    intro r hr
    rw [← integral_const_mul]
    have h : ∫ t in Ioi 0, F r t = ∫ t in Ioo 0 r, F r t :=
      setIntegral_eq_of_subset_of_forall_sdiff_eq_zero measurableSet_Ioi (fun t ht => ht.1) fun t ht => by
        have : ¬ (0 < t ∧ t < r) := fun h => ht.2 h
        simp [F, this]
    rw [h]
    refine setIntegral_congr_fun measurableSet_Ioo fun t ht => ?_
    simp only [F, if_pos (show 0 < t ∧ t < r from ht)]
    ring
  have e2 : ∀ t ∈ Ioi (0 : ℝ), b t * (∫ r in Ioi t, a r * c r t) = ∫ r in Ioi 0, F r t := by
    intro t ht
    rw [← integral_const_mul]
    have h : ∫ r in Ioi 0, F r t = ∫ r in Ioi t, F r t :=
      setIntegral_eq_of_subset_of_forall_sdiff_eq_zero measurableSet_Ioi
        (fun r hr => show (0 : ℝ) < r from lt_trans (show (0 : ℝ) < t from ht) hr) fun r hr => by
        have : ¬ (0 < t ∧ t < r) := fun h => hr.2 h.2
        simp [F, this]
    rw [h]
    refine setIntegral_congr_fun measurableSet_Ioi fun r hr => ?_
    simp only [F, if_pos (show 0 < t ∧ t < r from ⟨ht, hr⟩)]
    ring
  refine ⟨?_, ?_, ?_⟩
  · exact IntegrableOn.congr_fun (f := fun r => ∫ t in Ioi 0, F r t) hF.integral_prod_left
      (fun r hr => (e1 r hr).symm) measurableSet_Ioi
  · exact IntegrableOn.congr_fun (f := fun t => ∫ r in Ioi 0, F r t) hF.integral_prod_right
      (fun t ht => (e2 t ht).symm) measurableSet_Ioi
  · rw [setIntegral_congr_fun measurableSet_Ioi e1, setIntegral_congr_fun measurableSet_Ioi e2]
    exact integral_integral_swap hF

/-- A kernel that can be integrated against. -/
def Nice (T : ℝ → ℝ) : Prop := Measurable T ∧ ∃ C, ∀ s > 0, |T s| ≤ C

theorem nice_stop (T g : ℝ → ℝ) (hg : Continuous g) (h : ∀ t, 0 < t → t < 2 → T t = g t) (h0 : ∀ t, 2 ≤ t → T t = 0)
    (hm : Measurable T) : Nice T := by
  obtain ⟨C, hC⟩ := (isCompact_Icc (a := (0 : ℝ)) (b := 2)).exists_bound_of_continuousOn hg.continuousOn
  refine ⟨hm, C, fun s hs => ?_⟩
  rcases lt_or_ge s 2 with h2 | h2
  · rw [h s hs h2]
    exact hC s ⟨hs.le, h2.le⟩
  · rw [h0 s h2, abs_zero]
    exact (norm_nonneg _).trans (hC 0 ⟨le_rfl, by norm_num⟩)

theorem exp_bounds (u : ℝ) (hu : 0 ≤ u) :
    0 < Real.exp (-u) ∧ Real.exp (-u) ≤ 1 ∧ u * Real.exp (-u) ≤ 1 ∧ u ^ 2 * Real.exp (-u) ≤ 2 := by
  have h := Real.quadratic_le_exp_of_nonneg hu
  have hp := Real.exp_pos u
  rw [Real.exp_neg]
  refine ⟨inv_pos.2 hp, ?_, ?_, ?_⟩
  · rw [inv_le_one₀ hp]; nlinarith [sq_nonneg u]
  · rw [← div_eq_mul_inv, div_le_one hp]; nlinarith [sq_nonneg u]
  · rw [← div_eq_mul_inv, div_le_iff₀ hp]; nlinarith

theorem tPlus_nice (f : MForm) : Nice (tPlus f) := by
  cases f with
  | crittenden =>
    refine ⟨Continuous.measurable (by unfold tPlus; fun_prop), 1, fun s hs => ?_⟩
    obtain ⟨h0, h1, h2, h3⟩ := exp_bounds (s * s / 4) (by positivity)
    have e : tPlus .crittenden s = 1 / 4 * Real.exp (-(s * s / 4)) - 1 / 2 * (s * s / 4 * Real.exp (-(s * s / 4))) +
        1 / 8 * ((s * s / 4) ^ 2 * Real.exp (-(s * s / 4))) := by
      simp only [tPlus]
      rw [neg_div]
      ring
    have h4 : 0 ≤ s * s / 4 * Real.exp (-(s * s / 4)) := by positivity
    have h5 : 0 ≤ (s * s / 4) ^ 2 * Real.exp (-(s * s / 4)) := by positivity
    rw [e, abs_le]
    constructor <;> linarith
  | schneider =>
    refine nice_stop _ (fun t => 1 / π * arcRoot [24 / 5, 0, -36]
      [0, 6 / 5, 0, 116 / 5, 0, -377 / 50, 0, 33 / 25, 0, -9 / 100] t) ?_ ?_ ?_ ?_
    · have := arcRoot_cont [24 / 5, 0, -36] [0, 6 / 5, 0, 116 / 5, 0, -377 / 50, 0, 33 / 25, 0, -9 / 100]
      fun_prop
    · intro t _ h2
      simp only [tPlus, if_pos h2]
      simp [arcRoot, rpoly, Finset.sum_range_succ]
      field_simp
      ring
    · intro t h2
      simp [tPlus, not_lt.2 h2]
    · unfold tPlus
      refine Measurable.ite measurableSet_Iio ?_ measurable_const
      have := Real.continuous_arccos
      exact Continuous.measurable (by fun_prop)

theorem tMinus_nice (f : MForm) : Nice (tMinus f) := by
  cases f with
  | crittenden =>
    refine ⟨Continuous.measurable (by unfold tMinus; fun_prop), 1, fun s hs => ?_⟩
    obtain ⟨h0, h1, h2, h3⟩ := exp_bounds (s * s / 4) (by positivity)
    have e : tMinus .crittenden s = 1 / 8 * ((s * s / 4) ^ 2 * Real.exp (-(s * s / 4))) := by
      simp only [tMinus]
      rw [neg_div]
      ring
    have h5 : 0 ≤ (s * s / 4) ^ 2 * Real.exp (-(s * s / 4)) := by positivity
    rw [e, abs_le]
    constructor <;> linarith
  | schneider =>
    refine nice_stop _ (fun t => 3 / (70 * π) * arcRoot [] [0, 0, 0, 64, 0, -48, 0, 12, 0, -1] t) ?_ ?_ ?_ ?_
    · have := arcRoot_cont [] [0, 0, 0, 64, 0, -48, 0, 12, 0, -1]
      fun_prop
    · intro t h0 h2
      simp only [tMinus, if_pos h2]
      rw [rpow_root t (by nlinarith)]
      simp [arcRoot, rpoly, Finset.sum_range_succ]
      field_simp
      ring
    · intro t h2
      simp [tMinus, not_lt.2 h2]
    · unfold tMinus
      refine Measurable.ite measurableSet_Iio ?_ measurable_const
      have : Continuous fun s : ℝ => (4 - s * s) ^ (3.5 : ℝ) :=
        Continuous.rpow_const (by fun_prop) fun _ => Or.inr (by norm_num)
      exact Continuous.measurable (by fun_prop)

theorem tCross_nice (f : MForm) : Nice (tCross f) := by
  cases f with
  | crittenden =>
    refine ⟨Continuous.measurable (by unfold tCross; fun_prop), 1, fun s hs => ?_⟩
    obtain ⟨h0, h1, h2, h3⟩ := exp_bounds (s * s / 4) (by positivity)
    have e : tCross .crittenden s = 3 / 8 * (s * s / 4 * Real.exp (-(s * s / 4))) -
        1 / 8 * ((s * s / 4) ^ 2 * Real.exp (-(s * s / 4))) := by
      simp only [tCross]
      rw [neg_div]
      ring
    have h4 : 0 ≤ s * s / 4 * Real.exp (-(s * s / 4)) := by positivity
    have h5 : 0 ≤ (s * s / 4) ^ 2 * Real.exp (-(s * s / 4)) := by positivity
    rw [e, abs_le]
    constructor <;> linarith
  | schneider =>
    refine nice_stop _ (fun t => 1 / π * arcRoot [0, 0, 18]
      [0, 0, 0, -147 / 10, 0, 111 / 20, 0, -21 / 20, 0, 3 / 40] t) ?_ ?_ ?_ ?_
    · have := arcRoot_cont [0, 0, 18] [0, 0, 0, -147 / 10, 0, 111 / 20, 0, -21 / 20, 0, 3 / 40]
      fun_prop
    · intro t _ h2
      simp only [tCross, if_pos h2, pow_two]
      simp [arcRoot, rpoly, Finset.sum_range_succ]
      field_simp
      ring
    · intro t h2
      simp [tCross, not_lt.2 h2]
    · unfold tCross
      refine Measurable.ite measurableSet_Iio ?_ measurable_const
      have := Real.continuous_arccos
      exact Continuous.measurable (by fun_prop)

theorem sPlus_nice : Nice sPlus := by
  refine nice_stop _ (fun t => 1 / π * arcRoot [0, 0, 4] [0, 0, 0, -1] t) ?_ ?_ ?_ ?_
  · have := arcRoot_cont [0, 0, 4] [0, 0, 0, -1]
    fun_prop
  · intro t _ h2
    simp only [sPlus, if_pos h2]
    simp [arcRoot, rpoly, Finset.sum_range_succ]
    field_simp
    ring
  · intro t h2
    simp [sPlus, not_lt.2 h2]
  · unfold sPlus
    refine Measurable.ite measurableSet_Iio ?_ measurable_const
    have := Real.continuous_arccos
    exact Continuous.measurable (by fun_prop)

theorem Nice.mul {T : ℝ → ℝ} (h : Nice T) (R : ℝ) (hR : 0 < R) {x : ℝ → ℝ} (hx : IntegrableOn x (Ioi 0)) :
    IntegrableOn (fun t => T (t / R) * x t) (Ioi 0) := by
  obtain ⟨hm, C, hC⟩ := h
  refine (hx.norm.const_mul C).mono' ?_ ?_
  · exact (Measurable.aestronglyMeasurable (hm.comp (measurable_id.div_const R))).mul hx.aestronglyMeasurable
  · refine (ae_restrict_iff' measurableSet_Ioi).2 (Eventually.of_forall fun t ht => ?_)
    rw [norm_mul]
    exact mul_le_mul_of_nonneg_right (hC _ (div_pos ht hR)) (norm_nonneg _)

/-- A kernel at `t / R` divided by `t`. -/
theorem scale_integrable (T : ℝ → ℝ) (R : ℝ) (hR : 0 < R) (h : IntegrableOn (fun t => T t / t) (Ioi 0)) :
    IntegrableOn (fun t => T (t / R) / t) (Ioi 0) := by
  have h1 := (integrableOn_Ioi_comp_mul_left_iff (fun t => T t / t) 0 (inv_pos.2 hR)).2 (by simpa using h)
  refine IntegrableOn.congr_fun (f := fun t => R⁻¹ * (T (R⁻¹ * t) / (R⁻¹ * t))) (h1.const_mul _) (fun t ht => ?_)
    measurableSet_Ioi
  have : t ≠ 0 := ne_of_gt ht
  rw [div_eq_inv_mul t R]
  field_simp

theorem scale_integral (g : ℝ → ℝ) (R s : ℝ) (hR : 0 < R) :
    ∫ t in Ioi s, g (t / R) / R = ∫ t in Ioi (s / R), g t := by
  have h := integral_comp_mul_left_Ioi g s (inv_pos.2 hR)
  simp only [inv_inv, smul_eq_mul] at h
  simp only [div_eq_inv_mul]
  rw [integral_const_mul, h]
  field_simp

end TreeCorr.Aperture
