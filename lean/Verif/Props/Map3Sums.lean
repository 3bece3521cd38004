import Verif.Props.Map3
import Mathlib.Analysis.SpecialFunctions.Sqrt
import Mathlib.LinearAlgebra.Complex.FiniteDimensional
import Mathlib.Analysis.SpecialFunctions.Trigonometric.Deriv

/-!
C72: the triangles of the bins, the areas of the bins, and the sums.
-/

namespace TreeCorr.Map3

open Aperture
open scoped ComplexConjugate Real

/-! ### The triangles -/

theorem norm_sq_parts (z : ℂ) : ‖z‖ ^ 2 = z.re ^ 2 + z.im ^ 2 := by
  rw [← Complex.normSq_eq_norm_sq, Complex.normSq_apply]
  ring

/-- **C72.** The triangle that `calculateMap3` uses for a LogRUV bin is the one with these sides and this orientation: if `u`
and `v` of the bin are those of a triangle with sides `d1 ≥ d2 ≥ d3` and not on a line (`v` positive if the points are
counter-clockwise), then `s` and `t` are the vectors from point 1 to the points 3 and 2 in units of `R`, in turned coordinates,
and the bin is not excluded. -/
theorem ruv_triangle (g : GGG) (hg : g.binType = .ruv) (R : ℝ) (hR : 0 < R) (b : GGGBin) (t : Tri)
    (h1 : b.d1 = ‖t.p3 - t.p2‖) (h2 : b.d2 = ‖t.p3 - t.p1‖) (h3 : b.d3 = ‖t.p2 - t.p1‖) (h12 : b.d2 ≤ b.d1) (hn : t.turn ≠ 0)
    (hu : b.u = b.d3 / b.d2) (hv : b.v = (if 0 < t.turn then 1 else -1) * ((b.d1 - b.d2) / b.d3)) (hv0 : b.d1 = b.d2 → t.turn < 0) :
    ∃ r : ℂ, ‖r‖ = 1 ∧ (sOf R b : ℂ) = r * ((t.p3 - t.p1) / R) ∧ tOf g R b = r * ((t.p2 - t.p1) / R) ∧ ¬ bad R b ∧
      |tyOf R b| = |t.turn| / (b.d2 * R) := by
  have hRc : (R : ℂ) ≠ 0 := by exact_mod_cast hR.ne'
  set a := t.p3 - t.p1 with ha
  set c := t.p2 - t.p1 with hc
  have hturn : t.turn = (conj c * a).im := rfl
  have e1 : t.p3 - t.p2 = a - c := by
    rw [ha, hc]
    ring
  rw [e1] at h1
  have a0 : a ≠ 0 := by
    intro h
    rw [hturn, h] at hn
    simp at hn
  have c0 : c ≠ 0 := by
    intro h
    rw [hturn, h] at hn
    simp at hn
  have p2 : 0 < b.d2 := by rw [h2]; exact norm_pos_iff.2 a0
  have p3 : 0 < b.d3 := by rw [h3]; exact norm_pos_iff.2 c0
  have hac : ((b.d2 : ℝ) : ℂ) ≠ 0 := by exact_mod_cast p2.ne'
  -- the turned third side
  set r : ℂ := conj a / b.d2 with hr
  have hrn : ‖r‖ = 1 := by
    rw [hr, norm_div, RCLike.norm_conj, Complex.norm_real, Real.norm_of_nonneg p2.le, h2, div_self (norm_ne_zero_iff.2 a0)]
  have ra : r * a = b.d2 := by
    rw [hr]
    have : a * conj a = ((b.d2 : ℝ) : ℂ) ^ 2 := by rw [← sq_norm_eq, h2]; push_cast; rfl
    field_simp
    linear_combination this
  have rim : (r * c).im = -t.turn / b.d2 := by
    have : r * c = (conj a * c) / b.d2 := by rw [hr]; ring
    rw [this, Complex.div_ofReal_im, hturn]
    congr 1
    simp
    ring
  have rn : ‖r * c‖ = b.d3 := by rw [norm_mul, hrn, one_mul, h3]
  have rre : (r * c).re = (b.d2 ^ 2 + b.d3 ^ 2 - b.d1 ^ 2) / (2 * b.d2) := by
    have h4 : ‖r * c - b.d2‖ = b.d1 := by
      rw [← ra, ← mul_sub, norm_mul, hrn, one_mul, ← norm_neg, neg_sub, h1]
    have h5 := norm_sq_parts (r * c - b.d2)
    have h6 := norm_sq_parts (r * c)
    rw [h4] at h5
    rw [rn] at h6
    simp only [Complex.sub_re, Complex.sub_im, Complex.ofReal_re, Complex.ofReal_im, sub_zero] at h5
    rw [eq_div_iff (by positivity)]
    nlinarith
  have im0 : (r * c).im ≠ 0 := by
    rw [rim]
    exact div_ne_zero (neg_ne_zero.2 hn) p2.ne'
  -- tx
  have hd3 : d3Of R b = b.d3 / R := by
    rw [d3Of]
    ring
  have v2 : b.v ^ 2 = ((b.d1 - b.d2) / b.d3) ^ 2 := by
    rw [hv]
    split <;> ring
  have va : |b.v| = (b.d1 - b.d2) / b.d3 := by
    rw [hv, abs_mul]
    have : |(if 0 < t.turn then (1 : ℝ) else -1)| = 1 := by split <;> simp
    rw [this, one_mul, abs_of_nonneg (div_nonneg (by linarith) p3.le)]
  have htx : txRaw R b = (r * c).re / R := by
    rw [txRaw, v2, va, hu, hd3, rre]
    field_simp
    ring
  have hlt : (r * c).re ^ 2 < b.d3 ^ 2 := by
    have := norm_sq_parts (r * c)
    rw [rn] at this
    have := pow_pos (abs_pos.2 im0) 2
    rw [sq_abs] at this
    linarith
  have habs : |(r * c).re| < b.d3 := abs_lt_of_sq_lt_sq hlt p3.le
  have hbad : ¬ bad R b := by
    rw [bad, htx, hd3, not_or, not_le, not_le, ← neg_div]
    exact ⟨div_lt_div_of_pos_right (abs_lt.1 habs).1 hR, div_lt_div_of_pos_right (abs_lt.1 habs).2 hR⟩
  have hty : tyOf R b = (r * c).im / R := by
    have e : d3Of R b ^ 2 - txOf R b ^ 2 = ((r * c).im / R) ^ 2 := by
      rw [txOf, if_neg hbad, htx, hd3]
      have := norm_sq_parts (r * c)
      rw [rn] at this
      rw [div_pow, div_pow, this]
      ring
    rw [tyOf, e, Real.sqrt_sq_eq_abs]
    split
    · rename_i h
      have hpos : 0 < t.turn := by
        by_contra hcon
        rw [hv, if_neg hcon] at h
        have : 0 ≤ (b.d1 - b.d2) / b.d3 := div_nonneg (by linarith) p3.le
        linarith
      have : (r * c).im / R < 0 := by
        rw [rim]
        exact div_neg_of_neg_of_pos (div_neg_of_neg_of_pos (by linarith) p2) hR
      rw [abs_of_neg this]
      ring
    · rename_i h
      have hneg : t.turn < 0 := by
        rcases lt_or_gt_of_ne hn with h' | h'
        · exact h'
        · exfalso
          rw [hv, if_pos h', one_mul, gt_iff_lt, not_lt] at h
          have : b.d1 - b.d2 ≤ 0 := by
            by_contra hcon
            have := div_pos (not_le.1 hcon) p3
            linarith
          have := hv0 (by linarith)
          linarith
      have : 0 < (r * c).im / R := by
        rw [rim]
        exact div_pos (div_pos (by linarith) p2) hR
      rw [abs_of_pos this]
  refine ⟨r, hrn, ?_, ?_, hbad, ?_⟩
  · rw [mul_div_assoc', ra, sOf]
    push_cast
    ring
  · rw [tOf, if_pos hg, hty, txOf, if_neg hbad, htx, mul_div_assoc']
    apply Complex.ext
    · simp only
      rw [Complex.div_ofReal_re]
    · simp only
      rw [Complex.div_ofReal_im]
  · rw [hty, rim, abs_div, abs_div, abs_neg, abs_of_pos p2, abs_of_pos hR, div_div]

/-- **C72.** The same for a LogSAS bin: `phi` is the angle from the direction of point 3 to that of point 2, counter-clockwise. -/
theorem sas_triangle (g : GGG) (hg : g.binType = .sas) (R : ℝ) (hR : 0 < R) (b : GGGBin) (t : Tri)
    (h2 : b.d2 = ‖t.p3 - t.p1‖) (h3 : b.d3 = ‖t.p2 - t.p1‖) (h31 : t.p3 ≠ t.p1)
    (hphi : b.phi * g.phiUnits = ((t.p2 - t.p1) / (t.p3 - t.p1)).arg) :
    ∃ r : ℂ, ‖r‖ = 1 ∧ (sOf R b : ℂ) = r * ((t.p3 - t.p1) / R) ∧ tOf g R b = r * ((t.p2 - t.p1) / R) := by
  have hRc : (R : ℂ) ≠ 0 := by exact_mod_cast hR.ne'
  set a := t.p3 - t.p1 with ha
  set c := t.p2 - t.p1 with hc
  have a0 : a ≠ 0 := sub_ne_zero.2 h31
  have p2 : 0 < b.d2 := by rw [h2]; exact norm_pos_iff.2 a0
  have hac : ((b.d2 : ℝ) : ℂ) ≠ 0 := by exact_mod_cast p2.ne'
  have hr : ‖((b.d2 : ℝ) : ℂ) / a‖ = 1 := by
    rw [norm_div, Complex.norm_real, Real.norm_of_nonneg p2.le, h2, div_self (norm_ne_zero_iff.2 a0)]
  refine ⟨b.d2 / a, hr, ?_, ?_⟩
  · rw [sOf]
    push_cast
    field_simp
  · have hne : ¬ g.binType = .ruv := by rw [hg]; decide
    rw [tOf, if_neg hne, mul_assoc, ← Complex.ofReal_mul, hphi, mul_comm Complex.I, d3Of]
    have h := Complex.norm_mul_exp_arg_mul_I (c / a)
    rw [norm_div, ← h2, ← h3] at h
    push_cast at h ⊢
    have h' : (b.d3 : ℂ) * Complex.exp (((c / a).arg : ℂ) * Complex.I) = b.d2 * (c / a) := by
      generalize Complex.exp (((c / a).arg : ℂ) * Complex.I) = E at h ⊢
      rw [← h]
      field_simp
    rw [mul_assoc, h']
    field_simp

/-! ### The areas of the bins -/

/-- `t` as a function of `u` and `v`, for a fixed `s` (`ty` up to its sign). -/
noncomputable def txUV (s u v : ℝ) : ℝ := s * u * (1 / 2 * u * (1 - v ^ 2) - v)

noncomputable def tyUV (s u v : ℝ) : ℝ := Real.sqrt ((s * u) ^ 2 - txUV s u v ^ 2)

theorem txUV_deriv_u (s u v : ℝ) : HasDerivAt (fun u => txUV s u v) (s * (u * (1 - v ^ 2) - v)) u := by
  have h := ((hasDerivAt_id u).const_mul s).mul (((((hasDerivAt_id u).const_mul (1 / 2)).mul_const (1 - v ^ 2))).sub_const v)
  refine h.congr_deriv ?_
  simp
  ring

theorem txUV_deriv_v (s u v : ℝ) : HasDerivAt (fun v => txUV s u v) (-(s * u * (u * v + 1))) v := by
  have h := (((((hasDerivAt_pow 2 v).const_sub 1).const_mul (1 / 2 * u)).sub (hasDerivAt_id v)).const_mul (s * u))
  refine h.congr_deriv ?_
  simp
  ring

theorem tyUV_deriv_u (s u v : ℝ) (h0 : txUV s u v ^ 2 < (s * u) ^ 2) :
    HasDerivAt (fun u => tyUV s u v) ((s ^ 2 * u - txUV s u v * (s * (u * (1 - v ^ 2) - v))) / tyUV s u v) u := by
  have h := ((((hasDerivAt_id u).const_mul s).pow 2).sub ((txUV_deriv_u s u v).pow 2)).sqrt
    (by simp only [id, Pi.sub_apply, Pi.pow_apply]; exact (sub_pos.2 h0).ne')
  refine h.congr_deriv ?_
  simp [tyUV]
  ring

theorem tyUV_deriv_v (s u v : ℝ) (h0 : txUV s u v ^ 2 < (s * u) ^ 2) :
    HasDerivAt (fun v => tyUV s u v) (txUV s u v * (s * u * (u * v + 1)) / tyUV s u v) v := by
  have h := (((txUV_deriv_v s u v).pow 2).const_sub ((s * u) ^ 2)).sqrt
    (by simp only [Pi.pow_apply]; exact (sub_pos.2 h0).ne')
  refine h.congr_deriv ?_
  simp [tyUV]
  ring

/-- **C72.** The area of a LogRUV bin: the determinant of the derivative of `t` by `u` and `v` is `d3² d1 / ty`. -/
theorem ruv_jacobian (s u v : ℝ) (h0 : txUV s u v ^ 2 < (s * u) ^ 2) :
    deriv (fun u => txUV s u v) u * deriv (fun v => tyUV s u v) v - deriv (fun v => txUV s u v) v * deriv (fun u => tyUV s u v) u =
      (s * u) ^ 2 * (s + (s * u) * v) / tyUV s u v := by
  rw [(txUV_deriv_u s u v).deriv, (txUV_deriv_v s u v).deriv, (tyUV_deriv_u s u v h0).deriv, (tyUV_deriv_v s u v h0).deriv]
  have hy : tyUV s u v ≠ 0 := (Real.sqrt_pos.2 (sub_pos.2 h0)).ne'
  field_simp
  ring

/-- **C72.** The area of a LogSAS bin: the determinant of the derivative of `t = e^l (cos phi, sin phi)` by `l = log d3` and `phi`
is `d3²`. -/
theorem sas_jacobian (l phi : ℝ) :
    deriv (fun l => Real.exp l * Real.cos phi) l * deriv (fun p => Real.exp l * Real.sin p) phi -
      deriv (fun p => Real.exp l * Real.cos p) phi * deriv (fun l => Real.exp l * Real.sin phi) l = Real.exp l ^ 2 := by
  simp
  have := Real.sin_sq_add_cos_sq phi
  linear_combination (Real.exp l ^ 2) * this

/-! ### The sums -/

/-- The triangle in units of `R`. -/
noncomputable def Tri.scale (t : Tri) (R : ℝ) : Tri := ⟨t.p1 / R, t.p2 / R, t.p3 / R⟩

theorem centroid_scale (p1 p2 p3 : ℂ) (R : ℝ) : centroid (p1 / R) (p2 / R) (p3 / R) = centroid p1 p2 p3 / R := by
  unfold centroid
  ring

theorem Tri.scale_proper (t : Tri) (ht : t.Proper) (R : ℝ) (hR : 0 < R) : (t.scale R).Proper := by
  have hRc : (R : ℂ) ≠ 0 := by exact_mod_cast hR.ne'
  refine ⟨?_, ?_, ?_⟩ <;> simp only [Tri.scale, centroid_scale] <;> intro h
  · exact ht.n1 ((div_left_inj' hRc).1 h)
  · exact ht.n2 ((div_left_inj' hRc).1 h)
  · exact ht.n3 ((div_left_inj' hRc).1 h)

theorem relTo_scale (c p g : ℂ) (R : ℝ) (hR : 0 < R) : relTo (c / R) (p / R) g = relTo c p g := by
  have hRc : (R : ℂ) ≠ 0 := by exact_mod_cast hR.ne'
  unfold relTo
  rw [← sub_div, map_div₀, Complex.conj_ofReal, div_div_div_cancel_right₀ hRc]

theorem Tri.scale_phase (t : Tri) (R : ℝ) (hR : 0 < R) (i : Option (Fin 3)) : (t.scale R).phase i = t.phase i := by
  simp only [Tri.phase, Tri.scale, centroid_scale, relTo_scale _ _ _ _ hR]

theorem filter_scale (k R : ℝ) (hR : 0 < R) (z : ℂ) : apertureFilter k (z / R) = (R : ℂ) ^ 2 * apertureFilter (k * R) z := by
  have hRc : (R : ℂ) ≠ 0 := by exact_mod_cast hR.ne'
  unfold apertureFilter
  rw [div_div, mul_comm (R : ℂ) k]
  push_cast
  rcases eq_or_ne (k : ℂ) 0 with h | h
  · simp [h]
  · field_simp

theorem filterNo_scale (k : Fin 3 → ℝ) (j : Option (Fin 3)) (a : Fin 3) (R : ℝ) (hR : 0 < R) (z : ℂ) :
    filterNo k j a (z / R) = (R : ℂ) ^ 2 * filterNo (fun i => k i * R) j a z := by
  unfold filterNo
  split
  · simp only [conjFilter, filter_scale _ _ hR, map_mul, map_pow, Complex.conj_ofReal]
  · exact filter_scale _ _ hR _

/-- Units do not matter. -/
theorem contribution_scale (k : Fin 3 → ℝ) (j : Option (Fin 3)) (t : Tri) (Z : Option (Fin 3) → ℂ) (R : ℝ) (hR : 0 < R)
    (a b c : Fin 3) :
    contribution k j (t.scale R) Z a b c = (R : ℂ) ^ 4 * contribution (fun i => k i * R) j t Z a b c := by
  have hRc : (R : ℂ) ≠ 0 := by exact_mod_cast hR.ne'
  have key : ∀ F G : Fin 3 → ℂ → ℂ, (∀ i z, F i (z / R) = (R : ℂ) ^ 2 * G i z) →
      kernel3 (F 0) (F 1) (F 2) (t.p1 / R) (t.p2 / R) (t.p3 / R) = (R : ℂ) ^ 4 * kernel3 (G 0) (G 1) (G 2) t.p1 t.p2 t.p3 := by
    intro F G hF
    have h := MeasureTheory.Measure.integral_comp_smul (μ := (MeasureTheory.volume : MeasureTheory.Measure ℂ))
      (fun x : ℂ => F 0 (t.p1 / R - x) * F 1 (t.p2 / R - x) * F 2 (t.p3 / R - x)) R⁻¹
    have e : ∀ x : ℂ, F 0 (t.p1 / R - R⁻¹ • x) * F 1 (t.p2 / R - R⁻¹ • x) * F 2 (t.p3 / R - R⁻¹ • x) =
        (R : ℂ) ^ 6 * (G 0 (t.p1 - x) * G 1 (t.p2 - x) * G 2 (t.p3 - x)) := by
      intro x
      have : R⁻¹ • x = x / R := by
        rw [Complex.real_smul]
        push_cast
        field_simp
      rw [this, ← sub_div, ← sub_div, ← sub_div, hF, hF, hF]
      ring
    simp only [e] at h
    rw [MeasureTheory.integral_const_mul, Complex.finrank_real_complex] at h
    have h2 : |((R⁻¹ : ℝ) ^ 2)⁻¹| = R ^ 2 := by
      rw [inv_pow, inv_inv, abs_of_nonneg (by positivity)]
    rw [h2, Complex.real_smul] at h
    push_cast at h
    unfold kernel3
    have h3 : (∫ x : ℂ, F 0 (t.p1 / R - x) * F 1 (t.p2 / R - x) * F 2 (t.p3 / R - x)) =
        (R : ℂ) ^ 4 * ∫ x : ℂ, G 0 (t.p1 - x) * G 1 (t.p2 - x) * G 2 (t.p3 - x) := by
      have hR2 : (R : ℂ) ^ 2 ≠ 0 := pow_ne_zero _ hRc
      apply mul_left_cancel₀ hR2
      rw [← h]
      ring
    rw [h3]
    ring
  unfold contribution
  have := key (fun i => filterNo k j (![a, b, c] i)) (fun i => filterNo (fun i => k i * R) j (![a, b, c] i))
    (fun i z => filterNo_scale k j _ R hR z)
  simp only [Matrix.cons_val_zero, Matrix.cons_val_one, Matrix.cons_val] at this
  simp only [Tri.scale]
  rw [this]
  ring

/-- The bin holds the mean products `Z` of the shears at the points of the triangle `t`, relative to the directions to the
centroid, and its `s` and `t` are two sides of the triangle in units of `R` (`ruv_triangle`, `sas_triangle`). -/
structure Describes (g : GGG) (R : ℝ) (b : GGGBin) (t : Tri) (Z : Option (Fin 3) → ℂ) : Prop where
  proper : t.Proper
  placed : ∃ r : ℂ, ‖r‖ = 1 ∧ (sOf R b : ℂ) = r * ((t.p3 - t.p1) / R) ∧ tOf g R b = r * ((t.p2 - t.p1) / R)
  gam0 : b.gam0 = Z none * t.phase none
  gam1 : b.gam1 = Z (some 0) * t.phase (some 0)
  gam2 : b.gam2 = Z (some 1) * t.phase (some 1)
  gam3 : b.gam3 = Z (some 2) * t.phase (some 2)

theorem bin_kernel (g : GGG) (R : ℝ) (hR : 0 < R) (b : GGGBin) (t : Tri) (Z : Option (Fin 3) → ℂ) (H : Describes g R b t Z)
    (k1 k2 k3 : ℝ) (h1 : 0 < k1) (h2 : 0 < k2) (h3 : 0 < k3) :
    let T := tBin g R k1 k2 k3 b
    let F1 := apertureFilter k1
    let F2 := apertureFilter k2
    let F3 := apertureFilter k3
    let K A B C := kernel3 A B C (t.scale R).p1 (t.scale R).p2 (t.scale R).p3
    T.T0 * b.gam0 = areaOf g R b * (K F1 F2 F3 * Z none) ∧
    T.T1 * b.gam1 = areaOf g R b * (K (conjFilter F1) F2 F3 * Z (some 0)) ∧
    T.T2 * b.gam2 = areaOf g R b * (K F1 (conjFilter F2) F3 * Z (some 1)) ∧
    T.T3 * b.gam3 = areaOf g R b * (K F1 F2 (conjFilter F3) * Z (some 2)) := by
  intro T F1 F2 F3 K
  obtain ⟨r, hr, es, et⟩ := H.placed
  have hm := fun z => T_mean (t.scale R) (t.scale_proper H.proper R hR) k1 k2 k3 h1 h2 h3 r hr z
  simp only [t.scale_phase R hR] at hm
  have e3 : r * ((t.scale R).p3 - (t.scale R).p1) = (sOf R b : ℂ) := by
    rw [es]
    simp only [Tri.scale]
    ring
  have e2 : r * ((t.scale R).p2 - (t.scale R).p1) = tOf g R b := by
    rw [et]
    simp only [Tri.scale]
    ring
  simp only [e2, e3] at hm
  simp only [T, tBin, H.gam0, H.gam1, H.gam2, H.gam3, K, F1, F2, F3]
  refine ⟨?_, ?_, ?_, ?_⟩
  · rw [← (hm (Z none)).1]
    ring
  · rw [← (hm (Z (some 0))).2.1]
    ring
  · rw [← (hm (Z (some 1))).2.2.1]
    ring
  · rw [← (hm (Z (some 2))).2.2.2]
    ring

theorem sum_add3 {α : Type} (l : List α) (f h : α → ℂ) : (l.map fun b => f b + h b).sum = (l.map f).sum + (l.map h).sum := by
  induction l with
  | nil => simp
  | cons a l ih =>
    simp only [List.map_cons, List.sum_cons, ih]
    ring

/-- **C72.** What `calculateMap3` sums over the bins, with the shortcuts for equal radii and in the loops over the permutations:
the areas of the bins times the contributions of their triangles, in all the ways in which the apertures can act on the
points.  A LogSAS object counts every triangle with each of its points as the first one and with the others in one order, so that
the two orders of the others remain. -/
theorem map3_sums_partial (g : GGG) (hg : g.binType ≠ .multipole) (R k2 k3 : ℝ) (hR : 0 < R) (h2 : 0 < k2) (h3 : 0 < k3)
    (tri : GGGBin → Tri) (Z : GGGBin → Option (Fin 3) → ℂ) (H : ∀ b ∈ g.bins, Describes g R b (tri b) (Z b)) :
    let ways := if g.binType = .ruv then allWays else firstWays
    let M j := (g.bins.map fun b => ((areaOf g R b * R ^ 4 : ℝ) : ℂ) *
      ways (contribution ![R, k2 * R, k3 * R] j (tri b) (Z b))).sum
    let A := allSums g R k2 k3
    A.mmm = M none ∧ A.mc 0 = M (some 0) ∧ A.mc 1 = M (some 1) ∧ A.mc 2 = M (some 2) := by
  intro ways M A
  -- in units of R
  have hk : (fun i => ![1, k2, k3] i * R) = ![R, k2 * R, k3 * R] := by
    funext i
    fin_cases i <;> simp
  have hM : ∀ j, M j = (g.bins.map fun b => ((areaOf g R b : ℝ) : ℂ) *
      ways (contribution ![1, k2, k3] j ((tri b).scale R) (Z b))).sum := by
    intro j
    refine congrArg List.sum (List.map_congr_left fun b _ => ?_)
    have e : ∀ a c d, contribution ![1, k2, k3] j ((tri b).scale R) (Z b) a c d =
        (R : ℂ) ^ 4 * contribution ![R, k2 * R, k3 * R] j (tri b) (Z b) a c d := by
      intro a c d
      rw [contribution_scale _ _ _ _ _ hR, hk]
    simp only [ways]
    split
    · simp only [allWays, e]
      push_cast
      ring
    · simp only [firstWays, e]
      push_cast
      ring
  let K (b : GGGBin) (A B C : ℂ → ℂ) : ℂ := kernel3 A B C ((tri b).scale R).p1 ((tri b).scale R).p2 ((tri b).scale R).p3
  have hb : ∀ b ∈ g.bins, ∀ a c d : ℝ, 0 < a → 0 < c → 0 < d →
      (tBin g R a c d b).T0 * b.gam0 =
        areaOf g R b * (K b (apertureFilter a) (apertureFilter c) (apertureFilter d) * Z b none) ∧
      (tBin g R a c d b).T1 * b.gam1 =
        areaOf g R b * (K b (conjFilter (apertureFilter a)) (apertureFilter c) (apertureFilter d) * Z b (some 0)) ∧
      (tBin g R a c d b).T2 * b.gam2 =
        areaOf g R b * (K b (apertureFilter a) (conjFilter (apertureFilter c)) (apertureFilter d) * Z b (some 1)) ∧
      (tBin g R a c d b).T3 * b.gam3 =
        areaOf g R b * (K b (apertureFilter a) (apertureFilter c) (conjFilter (apertureFilter d)) * Z b (some 2)) :=
    fun b hb a c d ha hc hd => bin_kernel g R hR b (tri b) (Z b) (H b hb) a c d ha hc hd
  have d0 : ∀ a c d : ℝ, 0 < a → 0 < c → 0 < d → dot g (fun b => (tBin g R a c d b).T0) GGGBin.gam0 = (g.bins.map fun b =>
      ((areaOf g R b : ℝ) : ℂ) * (K b (apertureFilter a) (apertureFilter c) (apertureFilter d) * Z b none)).sum :=
    fun a c d ha hc hd => congrArg List.sum (List.map_congr_left fun b h => (hb b h a c d ha hc hd).1)
  have d1 : ∀ a c d : ℝ, 0 < a → 0 < c → 0 < d → dot g (fun b => (tBin g R a c d b).T1) GGGBin.gam1 = (g.bins.map fun b =>
      ((areaOf g R b : ℝ) : ℂ) * (K b (conjFilter (apertureFilter a)) (apertureFilter c) (apertureFilter d) * Z b (some 0))).sum :=
    fun a c d ha hc hd => congrArg List.sum (List.map_congr_left fun b h => (hb b h a c d ha hc hd).2.1)
  have d2 : ∀ a c d : ℝ, 0 < a → 0 < c → 0 < d → dot g (fun b => (tBin g R a c d b).T2) GGGBin.gam2 = (g.bins.map fun b =>
      ((areaOf g R b : ℝ) : ℂ) * (K b (apertureFilter a) (conjFilter (apertureFilter c)) (apertureFilter d) * Z b (some 1))).sum :=
    fun a c d ha hc hd => congrArg List.sum (List.map_congr_left fun b h => (hb b h a c d ha hc hd).2.2.1)
  have d3 : ∀ a c d : ℝ, 0 < a → 0 < c → 0 < d → dot g (fun b => (tBin g R a c d b).T3) GGGBin.gam3 = (g.bins.map fun b =>
      ((areaOf g R b : ℝ) : ℂ) * (K b (apertureFilter a) (apertureFilter c) (conjFilter (apertureFilter d)) * Z b (some 2))).sum :=
    fun a c d ha hc hd => congrArg List.sum (List.map_congr_left fun b h => (hb b h a c d ha hc hd).2.2.2)
  rw [hM, hM, hM, hM]
  simp only [A, ways, allSums]
  have o := one_pos (α := ℝ)
  split
  · simp only [allWays, mul_add, sum_add3]
    split
    · rename_i h
      obtain ⟨rfl, rfl⟩ := h
      simp [firstSums, d0, d1, d2, d3, contribution, filterNo, pointOf, K]
      refine ⟨?_, ?_, ?_, ?_⟩ <;> ring
    · simp [passSums, firstSums, d0, d1, d2, d3, contribution, filterNo, pointOf, K, h2, h3, Function.update]
  · simp only [firstWays, mul_add, sum_add3]
    split
    · rename_i h
      obtain ⟨rfl, rfl⟩ := h
      simp [firstSums, d0, d1, d2, d3, contribution, filterNo, pointOf, K]
      refine ⟨?_, ?_, ?_⟩ <;> ring
    · simp [passSums, firstSums, d0, d1, d2, d3, contribution, filterNo, pointOf, K, h2, h3, Function.update]

end TreeCorr.Map3
