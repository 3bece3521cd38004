import Verif.Model.Aperture
import Mathlib.Analysis.SpecialFunctions.Trigonometric.InverseDeriv
import Mathlib.Analysis.SpecialFunctions.Sqrt
import Mathlib.MeasureTheory.Integral.IntegralEqImproper
import Mathlib.MeasureTheory.Integral.IntervalIntegral.FundThmCalculus

/-!
Integrals of the kernels of the aperture statistics: polynomials times `exp (-t ^ 2 / 4)`, and polynomials times
`arccos (t / 2)` and `sqrt (4 - t ^ 2)`.
-/

namespace TreeCorr.Aperture

open MeasureTheory Set Filter Topology
open scoped Real

/-- The polynomial with the given coefficients. -/
def rpoly (l : List ℝ) (t : ℝ) : ℝ := ∑ j ∈ Finset.range l.length, l.getD j 0 * t ^ j

/-- Its derivative. -/
def rpolyD (l : List ℝ) (t : ℝ) : ℝ := ∑ j ∈ Finset.range l.length, l.getD j 0 * (j * t ^ (j - 1))

theorem rpoly_deriv (l : List ℝ) (t : ℝ) : HasDerivAt (rpoly l) (rpolyD l t) t := by
  unfold rpolyD
  have : rpoly l = fun t => ∑ j ∈ Finset.range l.length, l.getD j 0 * t ^ j := rfl
  rw [this]
  exact HasDerivAt.fun_sum fun j _ => (hasDerivAt_pow j t).const_mul _

theorem rpoly_cont (l : List ℝ) : Continuous (rpoly l) := by
  unfold rpoly
  fun_prop

/-- The combinations of which the kernels are made. -/
noncomputable def arcRoot (l m : List ℝ) (t : ℝ) : ℝ :=
  rpoly l t * Real.arccos (t / 2) + rpoly m t * Real.sqrt (4 - t * t)

theorem arcRoot_cont (l m : List ℝ) : Continuous (arcRoot l m) := by
  unfold arcRoot
  have := rpoly_cont l
  have := rpoly_cont m
  have := Real.continuous_arccos
  fun_prop

theorem arcRoot_two (l m : List ℝ) : arcRoot l m 2 = 0 := by
  unfold arcRoot
  norm_num

theorem arcRoot_deriv (P Q p q : List ℝ) (t : ℝ) (ht : -2 < t ∧ t < 2) (h1 : rpolyD P t = rpoly p t)
    (h2 : -rpoly P t + rpolyD Q t * (4 - t * t) - rpoly Q t * t = rpoly q t * (4 - t * t)) :
    HasDerivAt (arcRoot P Q) (arcRoot p q t) t := by
  have h4 : 0 < 4 - t * t := by nlinarith
  have hr : 0 < Real.sqrt (4 - t * t) := Real.sqrt_pos.2 h4
  have hrr : Real.sqrt (4 - t * t) * Real.sqrt (4 - t * t) = 4 - t * t := Real.mul_self_sqrt h4.le
  have ha : HasDerivAt (fun t => Real.arccos (t / 2)) (-1 / Real.sqrt (4 - t * t)) t := by
    have h := (Real.hasDerivAt_arccos (x := t / 2) (by intro h; linarith [ht.1]) (by intro h; linarith [ht.2])).comp t
      ((hasDerivAt_id t).div_const 2)
    have e : Real.sqrt (1 - (t / 2) ^ 2) = Real.sqrt (4 - t * t) / 2 := by
      rw [show 1 - (t / 2) ^ 2 = (4 - t * t) / 2 ^ 2 by ring, Real.sqrt_div h4.le,
        Real.sqrt_sq (by norm_num)]
    refine h.congr_deriv ?_
    rw [e]
    field_simp
  have hs : HasDerivAt (fun t => Real.sqrt (4 - t * t)) (-t / Real.sqrt (4 - t * t)) t := by
    have h := (((hasDerivAt_id t).mul (hasDerivAt_id t)).const_sub 4).sqrt (by simpa using h4.ne')
    refine h.congr_deriv ?_
    simp only [id, Pi.mul_apply]
    field_simp
    ring
  have h := ((rpoly_deriv P t).mul ha).add ((rpoly_deriv Q t).mul hs)
  refine h.congr_deriv ?_
  unfold arcRoot
  rw [h1]
  have h3 : rpoly q t * Real.sqrt (4 - t * t) =
      (-rpoly P t + rpolyD Q t * (4 - t * t) - rpoly Q t * t) / Real.sqrt (4 - t * t) := by
    rw [h2, eq_div_iff hr.ne', mul_assoc, hrr]
  have h5 : rpolyD Q t * Real.sqrt (4 - t * t) = rpolyD Q t * (4 - t * t) / Real.sqrt (4 - t * t) := by
    rw [eq_div_iff hr.ne', mul_assoc, hrr]
  rw [h3, h5]
  ring

theorem arcRoot_integral (P Q p q : List ℝ) (h1 : ∀ t, rpolyD P t = rpoly p t)
    (h2 : ∀ t, -rpoly P t + rpolyD Q t * (4 - t * t) - rpoly Q t * t = rpoly q t * (4 - t * t))
    (s u : ℝ) (hs : -2 ≤ s) (hsu : s ≤ u) (hu : u ≤ 2) :
    ∫ t in s..u, arcRoot p q t = arcRoot P Q u - arcRoot P Q s :=
  intervalIntegral.integral_eq_sub_of_hasDerivAt_of_le hsu (arcRoot_cont P Q).continuousOn
    (fun t ht => arcRoot_deriv P Q p q t ⟨lt_of_le_of_lt hs ht.1, lt_of_lt_of_le ht.2 hu⟩ (h1 t) (h2 t))
    ((arcRoot_cont p q).intervalIntegrable _ _)

/-- `∫ r ^ 7` -/
theorem int_r7 (s : ℝ) (hs : -2 ≤ s) (h2 : s ≤ 2) :
    ∫ t in s..2, arcRoot [] [64, 0, -48, 0, 12, 0, -1] t =
      -arcRoot [-70] [0, 93 / 2, 0, -163 / 12, 0, 25 / 12, 0, -1 / 8] s := by
  rw [arcRoot_integral [-70] [0, 93 / 2, 0, -163 / 12, 0, 25 / 12, 0, -1 / 8] _ _ _ _ s 2 hs h2 le_rfl,
    arcRoot_two, zero_sub]
  · intro t; simp [rpoly, rpolyD]
  · intro t; simp [rpoly, rpolyD, Finset.sum_range_succ]; ring

/-- `∫ t ^ 2 r ^ 7` -/
theorem int_t2r7 (s : ℝ) (hs : -2 ≤ s) (h2 : s ≤ 2) :
    ∫ t in s..2, arcRoot [] [0, 0, 64, 0, -48, 0, 12, 0, -1] t =
      -arcRoot [-28] [0, -7, 0, 121 / 6, 0, -263 / 30, 0, 31 / 20, 0, -1 / 10] s := by
  rw [arcRoot_integral [-28] [0, -7, 0, 121 / 6, 0, -263 / 30, 0, 31 / 20, 0, -1 / 10] _ _ _ _ s 2 hs h2 le_rfl,
    arcRoot_two, zero_sub]
  · intro t; simp [rpoly, rpolyD]
  · intro t; simp [rpoly, rpolyD, Finset.sum_range_succ]; ring

/-- The integral of `π Tx / t` -/
theorem int_cross (s : ℝ) (hs : -2 ≤ s) (h2 : s ≤ 2) :
    ∫ t in s..2, arcRoot [0, 18] [0, 0, -147 / 10, 0, 111 / 20, 0, -21 / 20, 0, 3 / 40] t =
      -arcRoot [-12 / 5, 0, 9] [0, -3 / 5, 0, -17 / 4, 0, 199 / 200, 0, -27 / 200, 0, 3 / 400] s := by
  rw [arcRoot_integral [-12 / 5, 0, 9] [0, -3 / 5, 0, -17 / 4, 0, 199 / 200, 0, -27 / 200, 0, 3 / 400]
    _ _ _ _ s 2 hs h2 le_rfl,
    arcRoot_two, zero_sub]
  · intro t; simp [rpoly, rpolyD, Finset.sum_range_succ]; ring
  · intro t; simp [rpoly, rpolyD, Finset.sum_range_succ]; ring

/-- The integral of `t` times the overlap of two discs. -/
theorem int_disc1 (s : ℝ) (hs : 0 ≤ s) (h2 : s ≤ 2) :
    ∫ t in (0 : ℝ)..s, arcRoot [0, 4] [0, 0, -1] t =
      arcRoot [-2, 0, 2] [0, -1 / 2, 0, -1 / 4] s + π := by
  rw [arcRoot_integral [-2, 0, 2] [0, -1 / 2, 0, -1 / 4] _ _ _ _ 0 s (by norm_num) hs h2]
  · have : arcRoot [-2, 0, 2] [0, -1 / 2, 0, -1 / 4] 0 = -π := by
      simp [arcRoot, rpoly, Finset.sum_range_succ]; ring
    rw [this]; ring
  · intro t; simp [rpoly, rpolyD, Finset.sum_range_succ]; ring
  · intro t; simp [rpoly, rpolyD, Finset.sum_range_succ]; ring

/-- The integral of `t ^ 3` times the overlap of two discs. -/
theorem int_disc3 (s : ℝ) (hs : 0 ≤ s) (h2 : s ≤ 2) :
    ∫ t in (0 : ℝ)..s, arcRoot [0, 0, 0, 4] [0, 0, 0, 0, -1] t =
      arcRoot [-2, 0, 0, 0, 1] [0, -1 / 2, 0, -1 / 12, 0, -1 / 6] s + π := by
  rw [arcRoot_integral [-2, 0, 0, 0, 1] [0, -1 / 2, 0, -1 / 12, 0, -1 / 6] _ _ _ _ 0 s (by norm_num) hs h2]
  · have : arcRoot [-2, 0, 0, 0, 1] [0, -1 / 2, 0, -1 / 12, 0, -1 / 6] 0 = -π := by
      simp [arcRoot, rpoly, Finset.sum_range_succ]; ring
    rw [this]; ring
  · intro t; simp [rpoly, rpolyD, Finset.sum_range_succ]; try ring
  · intro t; simp [rpoly, rpolyD, Finset.sum_range_succ]; try ring

/-- The kernels of 'Schneider' stop at `2`. -/
theorem int_stop (f g : ℝ → ℝ) (s : ℝ) (hs : s ≤ 2) (hg : Continuous g) (h : ∀ t, s < t → t ≤ 2 → f t = g t)
    (h0 : ∀ t, 2 < t → f t = 0) :
    IntegrableOn f (Ioi s) ∧ ∫ t in Ioi s, f t = ∫ t in s..2, g t := by
  have hsub : Ioc s 2 ⊆ Ioi s := fun t ht => ht.1
  have hz : ∀ t ∈ Ioi s \ Ioc s 2, f t = 0 := by
    intro t ht
    refine h0 t ?_
    by_contra hc
    exact ht.2 ⟨ht.1, not_lt.1 hc⟩
  have hgi : IntegrableOn g (Ioc s 2) := (intervalIntegrable_iff_integrableOn_Ioc_of_le hs).1
    (hg.intervalIntegrable _ _)
  have hfi : IntegrableOn f (Ioc s 2) :=
    hgi.congr_fun (fun t ht => (h t ht.1 ht.2).symm) measurableSet_Ioc
  refine ⟨hfi.of_forall_sdiff_eq_zero measurableSet_Ioi hz, ?_⟩
  rw [setIntegral_eq_of_subset_of_forall_sdiff_eq_zero measurableSet_Ioi hsub hz,
    intervalIntegral.integral_of_le hs]
  exact setIntegral_congr_fun measurableSet_Ioc fun t ht => h t ht.1 ht.2

theorem exp_quarter_deriv (t : ℝ) :
    HasDerivAt (fun t : ℝ => Real.exp (-(t * t) / 4)) (-(t / 2) * Real.exp (-(t * t) / 4)) t := by
  have h := ((((hasDerivAt_id t).mul (hasDerivAt_id t)).neg).div_const 4).exp
  refine h.congr_deriv ?_
  simp only [id, Pi.mul_apply, Pi.neg_apply]
  ring

theorem tendsto_quarter (n : ℕ) :
    Tendsto (fun t : ℝ => (t * t / 4) ^ n * Real.exp (-(t * t / 4))) atTop (𝓝 0) := by
  refine (Real.tendsto_pow_mul_exp_neg_atTop_nhds_zero n).comp ?_
  have h : Tendsto (fun t : ℝ => t * t) atTop atTop := tendsto_id.atTop_mul_atTop₀ tendsto_id
  exact h.atTop_div_const (by norm_num)

theorem int_gauss1 (s : ℝ) (hs : 0 ≤ s) :
    IntegrableOn (fun t : ℝ => t * Real.exp (-(t * t) / 4)) (Ioi s) ∧
    ∫ t in Ioi s, t * Real.exp (-(t * t) / 4) = 2 * Real.exp (-(s * s) / 4) := by
  have hd : ∀ t ∈ Ici s, HasDerivAt (fun t : ℝ => -2 * Real.exp (-(t * t) / 4))
      (t * Real.exp (-(t * t) / 4)) t := fun t _ =>
    ((exp_quarter_deriv t).const_mul (-2)).congr_deriv (by ring)
  have hp : ∀ t ∈ Ioi s, 0 ≤ t * Real.exp (-(t * t) / 4) := fun t ht =>
    mul_nonneg (hs.trans (le_of_lt ht)) (Real.exp_pos _).le
  have hl : Tendsto (fun t : ℝ => -2 * Real.exp (-(t * t) / 4)) atTop (𝓝 0) := by
    have h := (tendsto_quarter 0).const_mul (-2)
    simpa [neg_div] using h
  refine ⟨integrableOn_Ioi_deriv_of_nonneg' hd hp hl, ?_⟩
  rw [integral_Ioi_of_hasDerivAt_of_nonneg' hd hp hl]
  ring

theorem int_gauss3 (s : ℝ) (hs : 0 ≤ s) :
    IntegrableOn (fun t : ℝ => t ^ 3 * Real.exp (-(t * t) / 4)) (Ioi s) ∧
    ∫ t in Ioi s, t ^ 3 * Real.exp (-(t * t) / 4) = (2 * (s * s) + 8) * Real.exp (-(s * s) / 4) := by
  have hd : ∀ t ∈ Ici s, HasDerivAt (fun t : ℝ => (-2 * (t * t) - 8) * Real.exp (-(t * t) / 4))
      (t ^ 3 * Real.exp (-(t * t) / 4)) t := fun t _ => by
    have h := ((((hasDerivAt_id t).mul (hasDerivAt_id t)).const_mul (-2)).sub_const 8).mul (exp_quarter_deriv t)
    refine h.congr_deriv ?_
    simp only [id, Pi.mul_apply]
    ring
  have hp : ∀ t ∈ Ioi s, 0 ≤ t ^ 3 * Real.exp (-(t * t) / 4) := fun t ht =>
    mul_nonneg (pow_nonneg (hs.trans (le_of_lt ht)) 3) (Real.exp_pos _).le
  have hl : Tendsto (fun t : ℝ => (-2 * (t * t) - 8) * Real.exp (-(t * t) / 4)) atTop (𝓝 0) := by
    have h := ((tendsto_quarter 1).const_mul (-8)).add ((tendsto_quarter 0).const_mul (-8))
    simp only [mul_zero, add_zero] at h
    refine h.congr fun t => ?_
    rw [neg_div]
    ring
  refine ⟨integrableOn_Ioi_deriv_of_nonneg' hd hp hl, ?_⟩
  rw [integral_Ioi_of_hasDerivAt_of_nonneg' hd hp hl]
  ring

theorem rpow_root (t : ℝ) (ht : 0 ≤ 4 - t * t) :
    (4 - t * t) ^ (3.5 : ℝ) = (4 - t * t) ^ 3 * Real.sqrt (4 - t * t) := by
  rw [Real.sqrt_eq_rpow, ← Real.rpow_natCast, ← Real.rpow_add' ht (by norm_num)]
  norm_num

/-- `T+` from `T-`. -/
theorem eb_dual (f : MForm) (s : ℝ) (hs : 0 < s) :
    IntegrableOn (fun t => tMinus f t / t) (Ioi 0) ∧
    tPlus f s = tMinus f s + ∫ t in Ioi s, tMinus f t / t * (4 - 12 * s ^ 2 / t ^ 2) := by
  cases f with
  | crittenden =>
    constructor
    · refine IntegrableOn.congr_fun (f := fun t => 1 / 128 * (t ^ 3 * Real.exp (-(t * t) / 4)))
        ((int_gauss3 0 le_rfl).1.const_mul (1 / 128)) (fun t ht => ?_) measurableSet_Ioi
      have : t ≠ 0 := ne_of_gt ht
      simp only [tMinus]
      field_simp
    · have e : ∫ t in Ioi s, tMinus .crittenden t / t * (4 - 12 * s ^ 2 / t ^ 2) =
          ∫ t in Ioi s, (1 / 32 * (t ^ 3 * Real.exp (-(t * t) / 4)) -
            3 * s ^ 2 / 32 * (t * Real.exp (-(t * t) / 4))) := by
        refine setIntegral_congr_fun measurableSet_Ioi fun t ht => ?_
        have : t ≠ 0 := ne_of_gt (hs.trans ht)
        simp only [tMinus]
        field_simp
        ring
      rw [e, integral_sub ((int_gauss3 s hs.le).1.const_mul _) ((int_gauss1 s hs.le).1.const_mul _),
        integral_const_mul, integral_const_mul, (int_gauss3 s hs.le).2, (int_gauss1 s hs.le).2]
      simp only [tMinus, tPlus]
      ring
  | schneider =>
    constructor
    · refine (int_stop _ (fun t => 3 / (70 * π) * arcRoot [] [0, 0, 64, 0, -48, 0, 12, 0, -1] t) 0 (by norm_num)
        (by have := arcRoot_cont [] [0, 0, 64, 0, -48, 0, 12, 0, -1]; fun_prop) (fun t h1 h2 => ?_)
        (fun t h => ?_)).1
      · rcases h2.lt_or_eq with h2 | h2
        · simp only [tMinus, if_pos h2]
          rw [rpow_root t (by nlinarith)]
          simp [arcRoot, rpoly, Finset.sum_range_succ]
          field_simp
          ring
        · subst h2
          rw [arcRoot_two]
          simp [tMinus]
      · simp [tMinus, not_lt.2 h.le]
    · rcases lt_or_ge s 2 with h2 | h2
      · have e := (int_stop (fun t => tMinus .schneider t / t * (4 - 12 * s ^ 2 / t ^ 2))
          (fun t => 3 / (70 * π) * (4 * arcRoot [] [0, 0, 64, 0, -48, 0, 12, 0, -1] t -
            12 * s ^ 2 * arcRoot [] [64, 0, -48, 0, 12, 0, -1] t)) s h2.le
          (by have := arcRoot_cont [] [0, 0, 64, 0, -48, 0, 12, 0, -1]
              have := arcRoot_cont [] [64, 0, -48, 0, 12, 0, -1]
              fun_prop)
          (fun t h1 h2 => by
            rcases h2.lt_or_eq with h2 | h2
            · have h0 : t ≠ 0 := ne_of_gt (hs.trans h1)
              simp only [tMinus, if_pos h2]
              rw [rpow_root t (by nlinarith)]
              simp [arcRoot, rpoly, Finset.sum_range_succ]
              field_simp
              ring
            · subst h2
              rw [arcRoot_two, arcRoot_two]
              simp [tMinus])
          (fun t h => by simp [tMinus, not_lt.2 h.le])).2
        rw [e, intervalIntegral.integral_const_mul, intervalIntegral.integral_sub
          (((arcRoot_cont _ _).intervalIntegrable _ _).const_mul _)
          (((arcRoot_cont _ _).intervalIntegrable _ _).const_mul _),
          intervalIntegral.integral_const_mul, intervalIntegral.integral_const_mul,
          int_t2r7 s (by linarith) h2.le, int_r7 s (by linarith) h2.le]
        simp only [tPlus, tMinus, if_pos h2]
        rw [rpow_root s (by nlinarith)]
        simp [arcRoot, rpoly, Finset.sum_range_succ]
        field_simp
        ring
      · have e : ∫ t in Ioi s, tMinus .schneider t / t * (4 - 12 * s ^ 2 / t ^ 2) = 0 := by
          refine setIntegral_eq_zero_of_forall_eq_zero fun t ht => ?_
          simp [tMinus, not_lt.2 (h2.trans (le_of_lt ht))]
        rw [e]
        simp [tPlus, tMinus, not_lt.2 h2]

/-- `T+` from `Tx`. -/
theorem cross_dual (f : MForm) (s : ℝ) (hs : 0 < s) :
    IntegrableOn (fun t => tCross f t / t) (Ioi 0) ∧
    tPlus f s = -tCross f s + 2 * ∫ t in Ioi s, tCross f t / t := by
  cases f with
  | crittenden =>
    have e : ∀ a : ℝ, 0 ≤ a → EqOn (fun t => 3 / 32 * (t * Real.exp (-(t * t) / 4)) -
        1 / 128 * (t ^ 3 * Real.exp (-(t * t) / 4))) (fun t => tCross .crittenden t / t) (Ioi a) := by
      intro a ha t ht
      have : t ≠ 0 := ne_of_gt (lt_of_le_of_lt ha ht)
      simp only [tCross]
      field_simp
      ring
    constructor
    · exact IntegrableOn.congr_fun (((int_gauss1 0 le_rfl).1.const_mul _).sub ((int_gauss3 0 le_rfl).1.const_mul _))
        (e 0 le_rfl) measurableSet_Ioi
    · rw [← setIntegral_congr_fun measurableSet_Ioi (e s hs.le),
        integral_sub ((int_gauss1 s hs.le).1.const_mul _) ((int_gauss3 s hs.le).1.const_mul _),
        integral_const_mul, integral_const_mul, (int_gauss3 s hs.le).2, (int_gauss1 s hs.le).2]
      simp only [tCross, tPlus]
      ring
  | schneider =>
    have e : ∀ t : ℝ, 0 < t → t ≤ 2 → tCross .schneider t / t =
        1 / π * arcRoot [0, 18] [0, 0, -147 / 10, 0, 111 / 20, 0, -21 / 20, 0, 3 / 40] t := by
      intro t h0 h2
      rcases h2.lt_or_eq with h2 | h2
      · simp only [tCross, if_pos h2, pow_two]
        simp [arcRoot, rpoly, Finset.sum_range_succ]
        field_simp
        ring
      · subst h2
        rw [arcRoot_two]
        simp [tCross]
    have hc : Continuous fun t =>
        1 / π * arcRoot [0, 18] [0, 0, -147 / 10, 0, 111 / 20, 0, -21 / 20, 0, 3 / 40] t := by
      have := arcRoot_cont [0, 18] [0, 0, -147 / 10, 0, 111 / 20, 0, -21 / 20, 0, 3 / 40]
      fun_prop
    have hz : ∀ t : ℝ, 2 < t → tCross .schneider t / t = 0 := fun t h => by
      simp [tCross, not_lt.2 h.le]
    constructor
    · exact (int_stop _ _ 0 (by norm_num) hc (fun t h1 h2 => e t h1 h2) hz).1
    · rcases lt_or_ge s 2 with h2 | h2
      · rw [(int_stop _ _ s h2.le hc (fun t h1 h2 => e t (hs.trans h1) h2) hz).2,
          intervalIntegral.integral_const_mul, int_cross s (by linarith) h2.le]
        simp only [tPlus, tCross, if_pos h2, pow_two]
        simp [arcRoot, rpoly, Finset.sum_range_succ]
        field_simp
        ring
      · have e : ∫ t in Ioi s, tCross .schneider t / t = 0 :=
          setIntegral_eq_zero_of_forall_eq_zero fun t ht => hz t (lt_of_le_of_lt h2 ht)
        rw [e]
        simp [tPlus, tCross, not_lt.2 h2]

theorem sPlus_arc (t : ℝ) (h0 : 0 < t) (h2 : t ≤ 2) (n : ℕ) :
    t ^ (n + 1) * (sPlus t / t ^ 2) = 1 / π * (t ^ (n + 1) * arcRoot [4] [0, -1] t) := by
  rcases h2.lt_or_eq with h2 | h2
  · simp only [sPlus, if_pos h2]
    simp [arcRoot, rpoly, Finset.sum_range_succ]
    field_simp
    ring
  · subst h2
    rw [arcRoot_two]
    simp [sPlus]

/-- `S-` from `S+`. -/
theorem gam_dual (s : ℝ) (hs : 0 < s) :
    sMinus s / s ^ 2 = sPlus s / s ^ 2 +
      ∫ t in Ioo 0 s, t / s ^ 2 * (sPlus t / t ^ 2) * (4 - 12 * t ^ 2 / s ^ 2) := by
  have key : ∀ u : ℝ, 0 ≤ u → u ≤ 2 → ∫ t in (0 : ℝ)..u,
      t / s ^ 2 * (sPlus t / t ^ 2) * (4 - 12 * t ^ 2 / s ^ 2) =
      4 / (π * s ^ 2) * (arcRoot [-2, 0, 2] [0, -1 / 2, 0, -1 / 4] u + π) -
        12 / (π * s ^ 4) * (arcRoot [-2, 0, 0, 0, 1] [0, -1 / 2, 0, -1 / 12, 0, -1 / 6] u + π) := by
    intro u h0 h2
    rw [← int_disc1 u h0 h2, ← int_disc3 u h0 h2, ← intervalIntegral.integral_const_mul,
      ← intervalIntegral.integral_const_mul, ← intervalIntegral.integral_sub
        (((arcRoot_cont _ _).intervalIntegrable _ _).const_mul _)
        (((arcRoot_cont _ _).intervalIntegrable _ _).const_mul _)]
    rw [intervalIntegral.integral_of_le h0, intervalIntegral.integral_of_le h0]
    refine setIntegral_congr_fun measurableSet_Ioc fun t ht => ?_
    have h := sPlus_arc t ht.1 (ht.2.trans h2) 0
    have h3 := sPlus_arc t ht.1 (ht.2.trans h2) 2
    have e1 : arcRoot [0, 4] [0, 0, -1] t = t * arcRoot [4] [0, -1] t := by
      simp [arcRoot, rpoly, Finset.sum_range_succ]; ring
    have e3 : arcRoot [0, 0, 0, 4] [0, 0, 0, 0, -1] t = t ^ 3 * arcRoot [4] [0, -1] t := by
      simp [arcRoot, rpoly, Finset.sum_range_succ]; ring
    rw [e1, e3]
    have hπ := Real.pi_ne_zero
    have ht0 : t ≠ 0 := ht.1.ne'
    calc t / s ^ 2 * (sPlus t / t ^ 2) * (4 - 12 * t ^ 2 / s ^ 2)
        = 4 / s ^ 2 * (t ^ (0 + 1) * (sPlus t / t ^ 2)) - 12 / s ^ 4 * (t ^ (2 + 1) * (sPlus t / t ^ 2)) := by
          field_simp
          ring
      _ = _ := by
          rw [h, h3]
          field_simp
          ring
  have hIoo : ∫ t in Ioo 0 s, t / s ^ 2 * (sPlus t / t ^ 2) * (4 - 12 * t ^ 2 / s ^ 2) =
      ∫ t in Ioc 0 s, t / s ^ 2 * (sPlus t / t ^ 2) * (4 - 12 * t ^ 2 / s ^ 2) :=
    (integral_Ioc_eq_integral_Ioo).symm
  rw [hIoo]
  rcases lt_or_ge s 2 with h2 | h2
  · rw [← intervalIntegral.integral_of_le hs.le, key s hs.le h2.le]
    have ha : Real.arcsin (s / 2) = π / 2 - Real.arccos (s / 2) := by
      rw [Real.arccos]; ring
    simp only [sMinus, sPlus, if_pos h2]
    rw [ha]
    simp [arcRoot, rpoly, Finset.sum_range_succ]
    have hπ := Real.pi_ne_zero
    field_simp
    ring
  · have e : ∫ t in Ioc 0 s, t / s ^ 2 * (sPlus t / t ^ 2) * (4 - 12 * t ^ 2 / s ^ 2) =
        ∫ t in Ioc 0 2, t / s ^ 2 * (sPlus t / t ^ 2) * (4 - 12 * t ^ 2 / s ^ 2) := by
      refine setIntegral_eq_of_subset_of_forall_sdiff_eq_zero measurableSet_Ioc
        (Ioc_subset_Ioc_right h2) fun t ht => ?_
      have : ¬ t < 2 := fun h => ht.2 ⟨ht.1.1, h.le⟩
      simp [sPlus, this]
    rw [e, ← intervalIntegral.integral_of_le (by norm_num), key 2 (by norm_num) le_rfl, arcRoot_two, arcRoot_two]
    simp only [sMinus, sPlus, if_neg (not_lt.2 h2)]
    have hπ := Real.pi_ne_zero
    field_simp
    ring

end TreeCorr.Aperture
