import Verif.Proofs.Aperture
import Verif.Proofs.ApertureEB

/-!
C71: the aperture statistics use the weights that their definition implies, and they separate E modes from B modes.
-/

namespace TreeCorr.Aperture

open MeasureTheory Set
open scoped ComplexConjugate Real

/-- The weight that `calculateMapSq` gives to `xip` is the one that the definition of the aperture mass implies:
averaged over the places of the aperture, `⟨M conj M⟩ = ∫ d²d ⟨γ(z) conj γ(z + d)⟩ K(d)` with `2 π K = T+`. -/
theorem tPlus_filter (d : ℂ) : kernelPlus critQ d = (tPlus .crittenden ‖d‖ : ℝ) := by
  unfold kernelPlus
  rw [crit_plus]
  have : (π : ℂ) ≠ 0 := by exact_mod_cast Real.pi_ne_zero
  simp only [tPlus]
  push_cast
  field_simp
  ring

/-- The same for `xim`: the shears are projected on the line that joins them, which is the factor
`(conj d / d) ^ 2`. -/
theorem tMinus_filter (d : ℂ) (hd : d ≠ 0) :
    kernelMinus critQ d = (tMinus .crittenden ‖d‖ : ℝ) * (conj d / d) ^ 2 := by
  unfold kernelMinus
  rw [crit_minus]
  have : (π : ℂ) ≠ 0 := by exact_mod_cast Real.pi_ne_zero
  have e4 : ((‖d‖ : ℝ) : ℂ) ^ 2 = d * conj d := by rw [← sq_norm_eq]; push_cast; rfl
  have e5 : ((‖d‖ : ℝ) : ℂ) ^ 4 = (d * conj d) ^ 2 := by rw [← e4]; ring
  simp only [tMinus]
  push_cast
  field_simp
  rw [e5]
  ring

/-- The weight that `calculateNMap` gives to the mean tangential shear, which is `-γ conj d / d`. -/
theorem tCross_filter (d : ℂ) (hd : d ≠ 0) :
    kernelCross critU critQ d = (tCross .crittenden ‖d‖ : ℝ) * -(conj d / d) := by
  unfold kernelCross
  rw [crit_cross]
  have : (π : ℂ) ≠ 0 := by exact_mod_cast Real.pi_ne_zero
  have e4 : ((‖d‖ : ℝ) : ℂ) ^ 2 = d * conj d := by rw [← sq_norm_eq]; push_cast; rfl
  have e5 : ((‖d‖ : ℝ) : ℂ) ^ 4 = (d * conj d) ^ 2 := by rw [← e4]; ring
  simp only [tCross]
  push_cast
  field_simp
  linear_combination (3072 * conj d - 256 * conj d * (‖d‖ : ℂ) ^ 2) * e4

/-- The weight that `calculateNapSq` gives to the correlation of the counts. -/
theorem napSq_filter (d : ℂ) : kernelCount critU d = (tPlus .crittenden ‖d‖ : ℝ) := by
  unfold kernelCount
  rw [crit_count]
  have : (π : ℂ) ≠ 0 := by exact_mod_cast Real.pi_ne_zero
  simp only [tPlus]
  push_cast
  field_simp
  ring

/-! ### The sums over the bins -/

theorem dot_cast {α : Type} (bins : List α) (row col : α → ℝ) :
    ((dot bins row col : ℝ) : ℂ) = (bins.map fun b => (row b : ℂ) * (col b : ℂ)).sum := by
  unfold dot
  induction bins with
  | nil => simp
  | cons b bs ih =>
    simp only [List.map_cons, List.sum_cons]
    push_cast
    rw [ih]

theorem sum_map_mul {α : Type} (l : List α) (f : α → ℂ) (c : ℂ) : (l.map f).sum * c = (l.map fun b => f b * c).sum := by
  induction l with
  | nil => simp
  | cons b bs ih => simp only [List.map_cons, List.sum_cons, add_mul, ih]

theorem sum_map_add {α : Type} (l : List α) (f g : α → ℂ) :
    (l.map f).sum + (l.map g).sum = (l.map fun b => f b + g b).sum := by
  induction l with
  | nil => simp
  | cons b bs ih =>
    simp only [List.map_cons, List.sum_cons, ← ih]
    ring

theorem sum_map_sub {α : Type} (l : List α) (f g : α → ℂ) :
    (l.map f).sum - (l.map g).sum = (l.map fun b => f b - g b).sum := by
  induction l with
  | nil => simp
  | cons b bs ih =>
    simp only [List.map_cons, List.sum_cons, ← ih]
    ring

theorem kernelMinus_real (s : ℝ) : kernelMinus critQ s = (tMinus .crittenden s : ℝ) := by
  unfold kernelMinus
  rw [crit_minus]
  have : (π : ℂ) ≠ 0 := by exact_mod_cast Real.pi_ne_zero
  simp only [tMinus, Complex.norm_real, Real.norm_eq_abs, abs_mul_abs_self, Complex.conj_ofReal]
  push_cast
  field_simp
  ring

theorem kernelPlus_real (s : ℝ) : kernelPlus critQ s = (tPlus .crittenden s : ℝ) := by
  rw [tPlus_filter]
  simp only [tPlus, Complex.norm_real, Real.norm_eq_abs, abs_mul_abs_self]

theorem kernelCross_real (s : ℝ) : kernelCross critU critQ s = -(tCross .crittenden s : ℝ) := by
  unfold kernelCross
  rw [crit_cross]
  have : (π : ℂ) ≠ 0 := by exact_mod_cast Real.pi_ne_zero
  have e : ((|s| : ℝ) : ℂ) ^ 2 = (s : ℂ) ^ 2 := by rw [← Complex.ofReal_pow, sq_abs]; push_cast; rfl
  simp only [tCross, Complex.norm_real, Real.norm_eq_abs, abs_mul_abs_self, Complex.conj_ofReal]
  push_cast
  rw [e]
  field_simp
  ring

theorem kernelCount_real (s : ℝ) : kernelCount critU s = (tPlus .crittenden s : ℝ) := by
  rw [napSq_filter]
  simp only [tPlus, Complex.norm_real, Real.norm_eq_abs, abs_mul_abs_self]

theorem mForm_crit {u c : Option String} (hu : u.getD (c.getD "Crittenden") = "Crittenden") :
    mForm u c = .ok .crittenden := by
  unfold mForm
  rw [hu]
  rfl

/-- `calculateMapSq` with the default form: for each radius `R`, the sum over the logarithmic bins of
`r² Δ(log r) / (2 R²)` times the two weights that the definition of the aperture mass implies times the correlation
functions. -/
theorem mapSq_sum_partial (g : GG) (R : Option (List ℝ)) (u : Option String) (l : List MapSq)
    (hu : u.getD (g.m2Uform.getD "Crittenden") = "Crittenden") (h : calculateMapSq g R u = .ok l) :
    List.Forall₂ (fun R m =>
      ((m.mapsq : ℝ) + (m.mapsqIm : ℝ) * Complex.I : ℂ) = (g.bins.map fun b =>
        ((b.meanr / R : ℝ) : ℂ) ^ 2 * g.binSize / 2 *
          (kernelPlus critQ ((b.meanr / R : ℝ) : ℂ) * (b.xip + b.xipIm * Complex.I) +
            kernelMinus critQ ((b.meanr / R : ℝ) : ℂ) * (b.xim + b.ximIm * Complex.I))).sum ∧
      ((m.mxsq : ℝ) + (m.mxsqIm : ℝ) * Complex.I : ℂ) = (g.bins.map fun b =>
        ((b.meanr / R : ℝ) : ℂ) ^ 2 * g.binSize / 2 *
          (kernelPlus critQ ((b.meanr / R : ℝ) : ℂ) * (b.xip + b.xipIm * Complex.I) -
            kernelMinus critQ ((b.meanr / R : ℝ) : ℂ) * (b.xim + b.ximIm * Complex.I))).sum)
      (R.getD g.rnom) l := by
  unfold calculateMapSq at h
  rw [mForm_crit hu] at h
  by_cases hb : g.binType = .log
  · simp only [hb, if_true, bind, Except.bind, pure, Except.pure, Except.ok.injEq] at h
    subst h
    rw [List.forall₂_map_right_iff]
    refine List.forall₂_same.2 fun R _ => ?_
    simp only [mapSqAt, kernelPlus_real, kernelMinus_real]
    push_cast
    simp only [dot_cast, sum_map_add, sum_map_sub, sum_map_mul]
    constructor
    · refine congrArg List.sum (List.map_congr_left fun b _ => ?_)
      rw [one_div_mul_eq_div]
      push_cast
      ring
    · refine congrArg List.sum (List.map_congr_left fun b _ => ?_)
      rw [one_div_mul_eq_div]
      push_cast
      ring
  · simp only [hb, if_false, bind, Except.bind, throw, throwThe, MonadExceptOf.throw] at h
    cases h

/-- `calculateNMap` with the default form, in the same way. -/
theorem nMap_sum_partial (g : NG) (R : Option (List ℝ)) (u : Option String) (l : List NMap)
    (hu : u.getD (g.m2Uform.getD "Crittenden") = "Crittenden") (h : calculateNMap g R u = .ok l) :
    List.Forall₂ (fun R m =>
      ((m.nmap : ℝ) + (m.nmx : ℝ) * Complex.I : ℂ) = (g.bins.map fun b =>
        ((b.meanr / R : ℝ) : ℂ) ^ 2 * g.binSize *
          (kernelCross critU critQ ((b.meanr / R : ℝ) : ℂ) * -(b.xi + b.xiIm * Complex.I))).sum)
      (R.getD g.rnom) l := by
  unfold calculateNMap at h
  rw [mForm_crit hu] at h
  simp only [bind, Except.bind, pure, Except.pure, Except.ok.injEq] at h
  subst h
  rw [List.forall₂_map_right_iff]
  refine List.forall₂_same.2 fun R _ => ?_
  simp only [nMapAt, kernelCross_real]
  push_cast
  simp only [dot_cast, sum_map_add, sum_map_mul]
  refine congrArg List.sum (List.map_congr_left fun b _ => ?_)
  rw [one_div_mul_eq_div]
  push_cast
  ring

/-- `calculateNapSq` with the default form, in the same way. -/
theorem napSq_sum_partial (g : NN) (R : Option (List ℝ)) (u : Option String) (l : List NapSq)
    (hu : u.getD (g.m2Uform.getD "Crittenden") = "Crittenden") (h : calculateNapSq g R u = .ok l) :
    List.Forall₂ (fun R m =>
      ((m.nsq : ℝ) : ℂ) = (g.bins.map fun b =>
        ((b.meanr / R : ℝ) : ℂ) ^ 2 * g.binSize * (kernelCount critU ((b.meanr / R : ℝ) : ℂ) * b.xi)).sum)
      (R.getD g.rnom) l := by
  unfold calculateNapSq at h
  rw [mForm_crit hu] at h
  simp only [bind, Except.bind, pure, Except.pure, Except.ok.injEq] at h
  subst h
  rw [List.forall₂_map_right_iff]
  refine List.forall₂_same.2 fun R _ => ?_
  simp only [napSqAt, kernelCount_real]
  push_cast
  simp only [dot_cast, sum_map_mul]
  refine congrArg List.sum (List.map_congr_left fun b _ => ?_)
  rw [one_div_mul_eq_div]
  push_cast
  ring

/-! ### E modes and B modes -/

theorem eb_dual_scaled (f : MForm) (R s : ℝ) (hR : 0 < R) (hs : 0 < s) :
    tPlus f (s / R) = tMinus f (s / R) + ∫ t in Ioi s, tMinus f (t / R) / t * (4 - 12 * s ^ 2 / t ^ 2) := by
  rw [(eb_dual f (s / R) (div_pos hs hR)).2,
    ← scale_integral (fun t => tMinus f t / t * (4 - 12 * (s / R) ^ 2 / t ^ 2)) R s hR]
  congr 1
  refine setIntegral_congr_fun measurableSet_Ioi fun t ht => ?_
  have : t ≠ 0 := ne_of_gt (hs.trans ht)
  field_simp

theorem factor_bound (r t : ℝ) (h0 : 0 < t) (h : t < r) : |4 - 12 * t ^ 2 / r ^ 2| ≤ 8 := by
  have hr : 0 < r := h0.trans h
  have h1 : t ^ 2 / r ^ 2 ≤ 1 := by rw [div_le_one (by positivity)]; nlinarith
  have h2 : 0 ≤ t ^ 2 / r ^ 2 := by positivity
  rw [mul_div_assoc, abs_le]
  constructor <;> linarith

/-- The two integrals of which `⟨Map²⟩` and `⟨Mx²⟩` are the sum and the difference are equal for a pure E mode. -/
theorem eb_integrals (f : MForm) (R : ℝ) (hR : 0 < R) (xip xim : ℝ → ℝ) (hx : IntegrableOn (fun t => t * xip t) (Ioi 0))
    (hE : PureE xip xim) :
    IntegrableOn (fun r => tPlus f (r / R) * (r * xip r)) (Ioi 0) ∧
    IntegrableOn (fun r => tMinus f (r / R) * (r * xim r)) (Ioi 0) ∧
    ∫ r in Ioi 0, tMinus f (r / R) * (r * xim r) = ∫ r in Ioi 0, tPlus f (r / R) * (r * xip r) := by
  have hp := (tPlus_nice f).mul R hR hx
  have hm := (tMinus_nice f).mul R hR hx
  obtain ⟨hi, -, he⟩ := triangle_swap (fun r => tMinus f (r / R) / r) (fun t => t * xip t)
    (fun r t => 4 - 12 * t ^ 2 / r ^ 2) 8 (scale_integrable _ R hR (eb_dual f 1 one_pos).1) hx
    (by fun_prop) factor_bound
  have e : EqOn (fun r => tMinus f (r / R) * (r * xip r) + tMinus f (r / R) / r *
      ∫ t in Ioo 0 r, t * xip t * (4 - 12 * t ^ 2 / r ^ 2)) (fun r => tMinus f (r / R) * (r * xim r)) (Ioi 0) := by
    intro r hr
    have hr0 : r ≠ 0 := ne_of_gt hr
    simp only
    have e1 : ∫ t in Ioo 0 r, t / r ^ 2 * xip t * (4 - 12 * t ^ 2 / r ^ 2) =
        1 / r ^ 2 * ∫ t in Ioo 0 r, t * xip t * (4 - 12 * t ^ 2 / r ^ 2) := by
      rw [← integral_const_mul]
      refine setIntegral_congr_fun measurableSet_Ioo fun t _ => ?_
      ring
    rw [hE r hr, e1]
    generalize ∫ t in Ioo 0 r, t * xip t * (4 - 12 * t ^ 2 / r ^ 2) = J
    field_simp
  refine ⟨hp, IntegrableOn.congr_fun (hm.add hi) e measurableSet_Ioi, ?_⟩
  rw [← setIntegral_congr_fun measurableSet_Ioi e, integral_add hm hi, he, ← integral_add hm]
  · refine setIntegral_congr_fun measurableSet_Ioi fun r hr => ?_
    rw [eb_dual_scaled f R r hR hr]
    ring
  · refine IntegrableOn.congr_fun (hp.sub hm) (fun r hr => ?_) measurableSet_Ioi
    show tPlus f (r / R) * (r * xip r) - tMinus f (r / R) * (r * xip r) = _
    rw [eb_dual_scaled f R r hR hr]
    ring

/-- For a shear field without B modes the integral that `mxsq` stands for is zero, with either form and for every
radius of the aperture. -/
theorem map_pureE (f : MForm) (R : ℝ) (hR : 0 < R) (xip xim : ℝ → ℝ)
    (hx : IntegrableOn (fun t => t * xip t) (Ioi 0)) (hE : PureE xip xim) :
    IntegrableOn (fun r => r / (2 * R ^ 2) * (tPlus f (r / R) * xip r - tMinus f (r / R) * xim r)) (Ioi 0) ∧
    ∫ r in Ioi 0, r / (2 * R ^ 2) * (tPlus f (r / R) * xip r - tMinus f (r / R) * xim r) = 0 := by
  obtain ⟨h1, h2, h3⟩ := eb_integrals f R hR xip xim hx hE
  have e : (fun r => r / (2 * R ^ 2) * (tPlus f (r / R) * xip r - tMinus f (r / R) * xim r)) =
      fun r => 1 / (2 * R ^ 2) * (tPlus f (r / R) * (r * xip r) - tMinus f (r / R) * (r * xim r)) := by
    funext r
    ring
  rw [e]
  refine ⟨(h1.sub h2).const_mul _, ?_⟩
  rw [integral_const_mul, integral_sub h1 h2, h3, sub_self, mul_zero]

/-- For a shear field without E modes the integral that `mapsq` stands for is zero. -/
theorem map_pureB (f : MForm) (R : ℝ) (hR : 0 < R) (xip xim : ℝ → ℝ)
    (hx : IntegrableOn (fun t => t * xip t) (Ioi 0)) (hB : PureB xip xim) :
    IntegrableOn (fun r => r / (2 * R ^ 2) * (tPlus f (r / R) * xip r + tMinus f (r / R) * xim r)) (Ioi 0) ∧
    ∫ r in Ioi 0, r / (2 * R ^ 2) * (tPlus f (r / R) * xip r + tMinus f (r / R) * xim r) = 0 := by
  have h := map_pureE f R hR xip (fun r => -xim r) hx hB
  simpa only [mul_neg, sub_neg_eq_add] using h

/-- `⟨N Map⟩` computed from the tangential shear is the aperture statistic of the counts and the convergence. -/
theorem nMap_convergence (f : MForm) (R : ℝ) (hR : 0 < R) (w xi : ℝ → ℝ)
    (hw : IntegrableOn (fun t => t * w t) (Ioi 0)) (ht : TangentialOf w xi) :
    IntegrableOn (fun r => r / R ^ 2 * tCross f (r / R) * xi r) (Ioi 0) ∧
    ∫ r in Ioi 0, r / R ^ 2 * tCross f (r / R) * xi r = ∫ r in Ioi 0, r / R ^ 2 * tPlus f (r / R) * w r := by
  have hp := (tPlus_nice f).mul R hR hw
  have hm := (tCross_nice f).mul R hR hw
  obtain ⟨hi, -, he⟩ := triangle_swap (fun r => tCross f (r / R) / r) (fun t => t * w t)
    (fun _ _ => 2) 2 (scale_integrable _ R hR (cross_dual f 1 one_pos).1) hw
    measurable_const (fun _ _ _ _ => by norm_num)
  have hd : ∀ s > 0, tPlus f (s / R) = -tCross f (s / R) + ∫ t in Ioi s, tCross f (t / R) / t * 2 := by
    intro s hs
    rw [(cross_dual f (s / R) (div_pos hs hR)).2, ← scale_integral (fun t => tCross f t / t) R s hR,
      ← integral_const_mul]
    congr 1
    refine setIntegral_congr_fun measurableSet_Ioi fun t ht => ?_
    have : t ≠ 0 := ne_of_gt (hs.trans ht)
    field_simp
  have e : EqOn (fun r => 1 / R ^ 2 * (tCross f (r / R) / r * (∫ t in Ioo 0 r, t * w t * 2) -
      tCross f (r / R) * (r * w r))) (fun r => r / R ^ 2 * tCross f (r / R) * xi r) (Ioi 0) := by
    intro r hr
    have hr0 : r ≠ 0 := ne_of_gt hr
    simp only
    rw [ht r hr, integral_mul_const]
    field_simp
  refine ⟨IntegrableOn.congr_fun ((hi.sub hm).const_mul _) e measurableSet_Ioi, ?_⟩
  have e2 : (fun r => r / R ^ 2 * tPlus f (r / R) * w r) = fun r => 1 / R ^ 2 * (tPlus f (r / R) * (r * w r)) := by
    funext r
    ring
  rw [← setIntegral_congr_fun measurableSet_Ioi e, e2, integral_const_mul, integral_const_mul, integral_sub hi hm, he,
    ← integral_sub _ hm]
  · congr 1
    refine setIntegral_congr_fun measurableSet_Ioi fun r hr => ?_
    rw [hd r hr]
    ring
  · refine IntegrableOn.congr_fun (hp.add hm) (fun r hr => ?_) measurableSet_Ioi
    show tPlus f (r / R) * (r * w r) + tCross f (r / R) * (r * w r) = _
    rw [hd r hr]
    ring

theorem gam_dual_scaled (R r : ℝ) (hR : 0 < R) (hr : 0 < r) :
    sMinus (r / R) = sPlus (r / R) + ∫ t in Ioo 0 r, sPlus (t / R) / t * (4 - 12 * t ^ 2 / r ^ 2) := by
  have h := gam_dual (r / R) (div_pos hr hR)
  have e : ∫ t in Ioo 0 r, sPlus (t / R) / t * (4 - 12 * t ^ 2 / r ^ 2) =
      (r / R) ^ 2 * ∫ t in Ioo 0 (r / R), t / (r / R) ^ 2 * (sPlus t / t ^ 2) * (4 - 12 * t ^ 2 / (r / R) ^ 2) := by
    rw [← integral_const_mul, ← integral_Ioc_eq_integral_Ioo, ← integral_Ioc_eq_integral_Ioo,
      ← intervalIntegral.integral_of_le hr.le, ← intervalIntegral.integral_of_le (div_pos hr hR).le]
    have h2 := intervalIntegral.integral_comp_div (a := 0) (b := r)
      (fun t => (r / R) ^ 2 * (t / (r / R) ^ 2 * (sPlus t / t ^ 2) * (4 - 12 * t ^ 2 / (r / R) ^ 2))) hR.ne'
    rw [zero_div, smul_eq_mul] at h2
    rw [← mul_right_inj' hR.ne', ← h2, ← intervalIntegral.integral_const_mul,
      intervalIntegral.integral_of_le hr.le, intervalIntegral.integral_of_le hr.le]
    refine setIntegral_congr_fun measurableSet_Ioc fun t ht => ?_
    have : t ≠ 0 := ht.1.ne'
    field_simp
  have h3 : (r / R) ≠ 0 := (div_pos hr hR).ne'
  rw [e]
  generalize ∫ t in Ioo 0 (r / R), t / (r / R) ^ 2 * (sPlus t / t ^ 2) * (4 - 12 * t ^ 2 / (r / R) ^ 2) = J at h
  have h4 : (r / R) ^ 2 ≠ 0 := pow_ne_zero 2 h3
  calc sMinus (r / R) = (r / R) ^ 2 * (sMinus (r / R) / (r / R) ^ 2) := by field_simp
    _ = _ := by rw [h, mul_add, mul_div_cancel₀ _ h4]

theorem sPlus_integrable : IntegrableOn (fun t => sPlus t / t) (Ioi 0) := by
  refine (int_stop _ (fun t => 1 / π * arcRoot [0, 4] [0, 0, -1] t) 0 (by norm_num)
    (by have := arcRoot_cont [0, 4] [0, 0, -1]; fun_prop) (fun t h1 h2 => ?_) (fun t h => ?_)).1
  · rcases h2.lt_or_eq with h2 | h2
    · simp only [sPlus, if_pos h2]
      simp [arcRoot, rpoly, Finset.sum_range_succ]
      field_simp
      ring
    · subst h2
      rw [arcRoot_two]
      simp [sPlus]
  · simp [sPlus, not_lt.2 h.le]

/-- For a shear field without B modes the integral over `log r` that `gamsq_b` stands for is zero. -/
theorem gam_pureE (R : ℝ) (hR : 0 < R) (xip xim : ℝ → ℝ) (hx : IntegrableOn (fun t => xim t / t) (Ioi 0))
    (hE : PureE' xip xim) :
    IntegrableOn (fun r => (sPlus (r / R) * xip r - sMinus (r / R) * xim r) / 2 / r) (Ioi 0) ∧
    ∫ r in Ioi 0, (sPlus (r / R) * xip r - sMinus (r / R) * xim r) / 2 / r = 0 := by
  obtain ⟨hi, hj, he⟩ := triangle_swap (fun r => xim r / r) (fun t => sPlus (t / R) / t)
    (fun r t => 4 - 12 * t ^ 2 / r ^ 2) 8 hx (scale_integrable _ R hR sPlus_integrable) (by fun_prop) factor_bound
  have e : EqOn (fun r => 1 / 2 * (sPlus (r / R) / r * (∫ t in Ioi r, xim t / t * (4 - 12 * r ^ 2 / t ^ 2)) -
      xim r / r * ∫ t in Ioo 0 r, sPlus (t / R) / t * (4 - 12 * t ^ 2 / r ^ 2)))
      (fun r => (sPlus (r / R) * xip r - sMinus (r / R) * xim r) / 2 / r) (Ioi 0) := by
    intro r hr
    simp only
    rw [hE r hr, gam_dual_scaled R r hR hr]
    ring
  refine ⟨IntegrableOn.congr_fun ((hj.sub hi).const_mul _) e measurableSet_Ioi, ?_⟩
  rw [← setIntegral_congr_fun measurableSet_Ioi e, integral_const_mul, integral_sub hj hi, he, sub_self, mul_zero]

/-- The kernel of `gamsq` is that of a top hat: the weights `S+(s)` over the plane add up to one, so that a constant
`xip` is its own mean. -/
theorem gam_constant : ∫ t in Ioi 0, sPlus t / t = 1 := by
  have h := (int_stop (fun t => sPlus t / t) (fun t => 1 / π * arcRoot [0, 4] [0, 0, -1] t) 0 (by norm_num)
    (by have := arcRoot_cont [0, 4] [0, 0, -1]; fun_prop) (fun t h1 h2 => by
      rcases h2.lt_or_eq with h2 | h2
      · simp only [sPlus, if_pos h2]
        simp [arcRoot, rpoly, Finset.sum_range_succ]
        field_simp
        ring
      · subst h2
        rw [arcRoot_two]
        simp [sPlus]) (fun t h => by simp [sPlus, not_lt.2 h.le])).2
  rw [h, intervalIntegral.integral_const_mul, int_disc1 2 (by norm_num) le_rfl, arcRoot_two, zero_add]
  exact one_div_mul_cancel Real.pi_ne_zero

end TreeCorr.Aperture
