import Verif.Proofs.Arc
import Verif.Props.Finalize3

/-!
C69: the units of the three-point report, chords of the sphere, bins without weight, `LogMultipole`.
-/

namespace TreeCorr
open Classical
variable {P : Type}

/-! ### Chords of the sphere -/

theorem mean3_const {f : Obj P × Obj P × Obj P → ℝ} {m : Multiset (Obj P × Obj P × Obj P)} {x : ℝ} (h : ∀ t ∈ m, f t = x)
    (hW : brute3 (fun _ => 1) m ≠ 0) : brute3 f m / brute3 (fun _ => 1) m = x := by
  rw [div_eq_iff hW]
  unfold brute3
  rw [← Multiset.sum_map_mul_left]
  refine congrArg _ (Multiset.map_congr rfl fun t ht => ?_)
  rw [h t ht]
  ring

theorem unitD_sphere {F : FinParams3} (hc : F.chord = true) (hu : 0 < F.sepUnits) {p q : EuclideanSpace ℝ (Fin 3)} (hp : ‖p‖ = 1)
    (hq : ‖q‖ = 1) : F.sepUnits * F.unitD (dist p q) = InnerProductGeometry.angle p q := by
  simp only [FinParams3.unitD, hc, if_true]
  rw [dist_eq_norm, arc_eq hp hq]
  field_simp

theorem unitLogD_sphere {F : FinParams3} (hc : F.chord = true) (hu : 0 < F.sepUnits) {x : ℝ} (hx : 0 < x) :
    F.unitLogD (Real.log x) = Real.log (F.unitD x) :=
  unitLogr_log (F := FinParams.mk (fun _ => 0) (fun _ => 0) F.sepUnits F.chord) hu hx

theorem unitPhi_sphere {F : FinParams3} (hc : F.chord = true) (hu : 0 < F.phiUnits) {p1 p2 p3 : EuclideanSpace ℝ (Fin 3)} (h1 : ‖p1‖ = 1)
    (h2 : ‖p2‖ = 1) (h3 : ‖p3‖ = 1) (h12 : p2 ≠ p1) (h12' : p2 ≠ -p1) (h13 : p3 ≠ p1) (h13' : p3 ≠ -p1)
    (hccw : spaceMetric3.ccw p1 p3 p2) :
    F.phiUnits * F.unitPhi (Real.arccos ((dist p1 p3 ^ 2 + dist p1 p2 ^ 2 - dist p2 p3 ^ 2) / (2 * dist p1 p3 * dist p1 p2)))
      (dist p1 p3) (dist p1 p2) = skyAngle p1 p3 p2 := by
  have d2 : 0 < dist p1 p3 := dist_pos.2 h13.symm
  have d3 : 0 < dist p1 p2 := dist_pos.2 h12.symm
  have t1 := dist_triangle p2 p1 p3
  have t2 := dist_triangle p1 p2 p3
  have t3 := dist_triangle p1 p3 p2
  rw [dist_comm p2 p1] at t1
  rw [dist_comm p3 p2] at t3
  have d1 : 0 ≤ dist p2 p3 := dist_nonneg
  have lt2 : ∀ q : EuclideanSpace ℝ (Fin 3), ‖q‖ = 1 → q ≠ -p1 → dist p1 q < 2 := by
    intro q hq hn
    refine lt_of_le_of_ne ?_ fun h => hn ?_
    · rw [dist_eq_norm]
      have := norm_sub_le p1 q
      linarith
    · have e := norm_sub_sq_real p1 q
      rw [← dist_eq_norm, h, h1, hq] at e
      have : (inner ℝ p1 (-q) : ℝ) = 1 := by rw [inner_neg_right]; linarith
      have := (inner_eq_one_iff_of_norm_eq_one h1 (by rwa [norm_neg])).1 this
      rw [this, neg_neg]
  have l2 := lt2 p3 h3 h13'
  have l3 := lt2 p2 h2 h12'
  have e0 : ((dist p1 p3 ^ 2 + dist p1 p2 ^ 2 - dist p2 p3 ^ 2) / (2 * dist p1 p3 * dist p1 p2) - 0.25 * dist p1 p3 * dist p1 p2)
      / Real.sqrt ((1 - dist p1 p3 ^ 2 / 4) * (1 - dist p1 p2 ^ 2 / 4)) = arcCosPhi p1 p2 p3 := by
    unfold arcCosPhi
    simp only [← dist_eq_norm]
    have a : 0 < 1 - dist p1 p3 ^ 2 / 4 := by nlinarith
    have b : 0 < 1 - dist p1 p2 ^ 2 / 4 := by nlinarith
    generalize dist p1 p3 = x at *
    generalize dist p1 p2 = y at *
    generalize dist p2 p3 = z at *
    have hs : Real.sqrt (x ^ 2 * y ^ 2 * (1 - 0.25 * x ^ 2) * (1 - 0.25 * y ^ 2)) =
        x * y * Real.sqrt ((1 - x ^ 2 / 4) * (1 - y ^ 2 / 4)) := by
      rw [show x ^ 2 * y ^ 2 * (1 - 0.25 * x ^ 2) * (1 - 0.25 * y ^ 2) = (x * y) ^ 2 * ((1 - x ^ 2 / 4) * (1 - y ^ 2 / 4)) by
        norm_num; ring, Real.sqrt_mul (by positivity), Real.sqrt_sq (by positivity)]
    rw [hs]
    have hsp : 0 < Real.sqrt ((1 - x ^ 2 / 4) * (1 - y ^ 2 / 4)) := Real.sqrt_pos.2 (mul_pos a b)
    generalize Real.sqrt ((1 - x ^ 2 / 4) * (1 - y ^ 2 / 4)) = s at *
    norm_num
    field_simp
    ring
  have hcos := arc_sas_cos h1 h2 h3 h12 h12' h13 h13'
  have hle := Real.cos_le_one (skyAngle p1 p2 p3)
  have hge := Real.neg_one_le_cos (skyAngle p1 p2 p3)
  rw [← hcos] at hle hge
  have hden : 0 < 2 * dist p1 p3 * dist p1 p2 := by positivity
  rw [← arc_sas_angle h1 h2 h3 h12 h12' h13 h13' hccw, FinParams3.unitPhi]
  simp only [hc, if_true]
  rw [Real.cos_arccos, e0, if_neg (not_lt.2 hge), if_neg (not_lt.2 hle)]
  · field_simp
  · rw [le_div_iff₀ hden]
    nlinarith
  · rw [div_le_iff₀ hden]
    nlinarith

section
variable {m : Multiset (Obj (EuclideanSpace ℝ (Fin 3)) × Obj (EuclideanSpace ℝ (Fin 3)) × Obj (EuclideanSpace ℝ (Fin 3)))}
  {A : Acc3} {k : ℤ} {F : FinParams3} {p1 p2 p3 : EuclideanSpace ℝ (Fin 3)}

/-- **C69, `LogSAS` on the sphere, partly.** In a bin whose triangles all have the sides of one triangle of points of the unit sphere (one
triangle, say) the report is that spherical triangle: `meanphi` its angle at the first point, `meand1`, … the angles its sides subtend, in
the user's units.  Missing: bins of different triangles, where the means of the chords are converted, not the chords. -/
theorem finalize_sas_sphere_partial (hc : F.chord = true) (hu : 0 < F.sepUnits) (hu' : 0 < F.phiUnits) (N : NomSas)
    {fv : Obj (EuclideanSpace ℝ (Fin 3)) × Obj (EuclideanSpace ℝ (Fin 3)) × Obj (EuclideanSpace ℝ (Fin 3)) → ℝ}
    (h1 : ‖p1‖ = 1) (h2 : ‖p2‖ = 1) (h3 : ‖p3‖ = 1) (h12 : p2 ≠ p1) (h12' : p2 ≠ -p1) (h13 : p3 ≠ p1) (h13' : p3 ≠ -p1)
    (hccw : spaceMetric3.ccw p1 p3 p2) (h : A.Holds k m triPhi fv) (hW : brute3 (fun _ => 1) m ≠ 0)
    (hm : ∀ t ∈ m, side1 t = dist p2 p3 ∧ side2 t = dist p1 p3 ∧ side3 t = dist p1 p2) :
    F.phiUnits * (finalizeSas F N A).meanu k = skyAngle p1 p3 p2 ∧
    F.sepUnits * (finalizeSas F N A).meand1 k = InnerProductGeometry.angle p2 p3 ∧
    F.sepUnits * (finalizeSas F N A).meand2 k = InnerProductGeometry.angle p1 p3 ∧
    F.sepUnits * (finalizeSas F N A).meand3 k = InnerProductGeometry.angle p1 p2 ∧
    (finalizeSas F N A).meanlogd2 k = Real.log ((finalizeSas F N A).meand2 k) ∧
    (finalizeSas F N A).meanlogd3 k = Real.log ((finalizeSas F N A).meand3 k) ∧
    (p2 ≠ p3 → (finalizeSas F N A).meanlogd1 k = Real.log ((finalizeSas F N A).meand1 k)) := by
  have hw : A.weight k ≠ 0 := by rw [h.weight]; exact hW
  have m1 : A.meand1 k / A.weight k = dist p2 p3 := by rw [h.meand1, h.weight]; exact mean3_const (fun t ht => (hm t ht).1) hW
  have m2 : A.meand2 k / A.weight k = dist p1 p3 := by rw [h.meand2, h.weight]; exact mean3_const (fun t ht => (hm t ht).2.1) hW
  have m3 : A.meand3 k / A.weight k = dist p1 p2 := by rw [h.meand3, h.weight]; exact mean3_const (fun t ht => (hm t ht).2.2) hW
  have n1 : A.meanlogd1 k / A.weight k = Real.log (dist p2 p3) := by
    rw [h.meanlogd1, h.weight]; exact mean3_const (fun t ht => by rw [(hm t ht).1]) hW
  have n2 : A.meanlogd2 k / A.weight k = Real.log (dist p1 p3) := by
    rw [h.meanlogd2, h.weight]; exact mean3_const (fun t ht => by rw [(hm t ht).2.1]) hW
  have n3 : A.meanlogd3 k / A.weight k = Real.log (dist p1 p2) := by
    rw [h.meanlogd3, h.weight]; exact mean3_const (fun t ht => by rw [(hm t ht).2.2]) hW
  have mu : A.meanu k / A.weight k =
      Real.arccos ((dist p1 p3 ^ 2 + dist p1 p2 ^ 2 - dist p2 p3 ^ 2) / (2 * dist p1 p3 * dist p1 p2)) := by
    rw [h.meanu, h.weight]
    exact mean3_const (fun t ht => by rw [triPhi, triCos, (hm t ht).1, (hm t ht).2.1, (hm t ht).2.2]) hW
  have d2 : 0 < dist p1 p3 := dist_pos.2 h13.symm
  have d3 : 0 < dist p1 p2 := dist_pos.2 h12.symm
  simp only [finalizeSas, ne_eq, hw, not_false_eq_true, if_true, m1, m2, m3, n1, n2, n3, mu]
  exact ⟨unitPhi_sphere hc hu' h1 h2 h3 h12 h12' h13 h13' hccw, unitD_sphere hc hu h2 h3, unitD_sphere hc hu h1 h3,
    unitD_sphere hc hu h1 h2, unitLogD_sphere hc hu d2, unitLogD_sphere hc hu d3, fun hn => unitLogD_sphere hc hu (dist_pos.2 hn)⟩

end

/-! ### Bins without weight -/

/-- **C69, `LogRUV`.** A bin without weight reports the nominal triangle of the bin: `d2 = exp(logr)`, `d3 = u d2`, `d1 = d2 + |v| d3`, and
the logarithms of these. -/
theorem finalize_ruv_empty (F : FinParams3) (N : NomRuv) (A : Acc3) (k : ℤ) (h : A.weight k = 0) :
    let R := finalizeRuv F N A
    R.weight k = 0 ∧ R.ntri k = A.ntri k ∧ R.zeta k = A.zeta k ∧
    R.meand2 k = Real.exp (N.logr k) ∧ R.meanu k = N.u k ∧ R.meanv k = N.v k ∧
    R.meand3 k = R.meanu k * R.meand2 k ∧ R.meand1 k = R.meand2 k + |R.meanv k| * R.meand3 k ∧
    R.meanlogd1 k = Real.log (R.meand1 k) ∧ R.meanlogd2 k = Real.log (R.meand2 k) ∧ R.meanlogd3 k = Real.log (R.meand3 k) := by
  simp only [finalizeRuv, h, ne_eq, not_true_eq_false, if_false, Real.log_exp, true_and, and_true]
  ring

/-- **C69, `LogSAS`.** A bin without weight reports the nominal sides of the bin, `d1` by the law of cosines. -/
theorem finalize_sas_empty (F : FinParams3) (N : NomSas) (A : Acc3) (k : ℤ) (h : A.weight k = 0) :
    let R := finalizeSas F N A
    R.weight k = 0 ∧ R.ntri k = A.ntri k ∧ R.zeta k = A.zeta k ∧
    R.meand2 k = Real.exp (N.logd2 k) ∧ R.meand3 k = Real.exp (N.logd3 k) ∧ 0 ≤ R.meand1 k ∧
    R.meand1 k ^ 2 = R.meand2 k ^ 2 + R.meand3 k ^ 2 - 2 * R.meand2 k * R.meand3 k * Real.cos (N.phi k) ∧
    R.meanlogd1 k = Real.log (R.meand1 k) ∧ R.meanlogd2 k = Real.log (R.meand2 k) ∧ R.meanlogd3 k = Real.log (R.meand3 k) := by
  simp only [finalizeSas, h, ne_eq, not_true_eq_false, if_false, Real.log_exp, true_and, and_true]
  refine ⟨Real.sqrt_nonneg _, Real.sq_sqrt ?_⟩
  have := Real.cos_le_one (N.phi k)
  have e2 := Real.exp_pos (N.logd2 k)
  have e3 := Real.exp_pos (N.logd3 k)
  nlinarith [sq_nonneg (Real.exp (N.logd2 k) - Real.exp (N.logd3 k)), mul_pos e2 e3]

/-! ### LogMultipole -/

/-- **C69, `LogMultipole`.** For every multipole `n` the report has the number of triangles and the means of the pair of bins: those
accumulated at the place `max_n` of `n = 0`. -/
theorem finalize_mp (F : FinParams3) (hc : F.chord = false) (logd2 logd3 : ℤ → ℤ → ℤ → ℝ) (maxn : ℤ) (A : AccMp) (i j n : ℤ) :
    let R := finalizeMp F logd2 logd3 maxn A
    let W := A.weightr i j maxn
    R.weightr i j n = A.weightr i j n ∧ R.ntri i j n = A.ntri i j maxn ∧
    (W ≠ 0 → R.meand2 i j n = A.meand2 i j maxn / W / F.sepUnits ∧ R.meand3 i j n = A.meand3 i j maxn / W / F.sepUnits ∧
      R.meanlogd2 i j n = A.meanlogd2 i j maxn / W - Real.log F.sepUnits ∧
      R.meanlogd3 i j n = A.meanlogd3 i j maxn / W - Real.log F.sepUnits) ∧
    (W = 0 → R.meand2 i j n = Real.exp (logd2 i j maxn) ∧ R.meand3 i j n = Real.exp (logd3 i j maxn) ∧
      R.meanlogd2 i j n = logd2 i j maxn ∧ R.meanlogd3 i j n = logd3 i j maxn) := by
  refine ⟨rfl, rfl, fun h => ?_, fun h => ?_⟩
  · simp only [finalizeMp, ne_eq, h, not_false_eq_true, if_true, FinParams3.unitD, FinParams3.unitLogD, hc, Bool.false_eq_true, if_false,
      and_self]
  · simp only [finalizeMp, h, ne_eq, not_true_eq_false, if_false, and_self]

/-! ### Cases -/

noncomputable section

/-- Separations in units of 2, angles in degrees. -/
def exFin3 : FinParams3 := { chord := false, sepUnits := 2, phiUnits := Real.pi / 180 }

/-- The nominal values of the bins of `exRuv`: what matters here is only that there are some. -/
def exNomRuv : NomRuv := { logr := fun _ => 1 / 2, u := fun _ => 1 / 2, v := fun _ => 1 / 2 }

/-- The nominal angles of the bins of `exSas`: `phi1d`, in radians. -/
def exNomSas : NomSas := { logd2 := fun _ => 1 / 2, logd3 := fun _ => 1 / 2, phi := fun k => (k % 2 + 1 / 2) * (Real.pi / 2) }

theorem brute3_one (f : Obj P × Obj P × Obj P → ℝ) (t : Obj P × Obj P × Obj P) :
    brute3 f {t} = t.1.w * t.2.1.w * t.2.2.w * f t := by
  simp [brute3]

theorem ex345_sas_filter : (orderedTriples [ob 0 0 0, ob 0 3 1, ob 4 0 2]).filter (inSas exSas flatMetric3.ccw 9) =
    {(ob 0 0 0, ob 0 3 1, ob 4 0 2)} := by
  have e : orderedTriples [ob 0 0 0, ob 0 3 1, ob 4 0 2] = orders6 (ob 0 0 0, ob 0 3 1, ob 4 0 2) := by
    simp [orderedTriples, autoTriples, autoPairs]
  have key : ∀ t ∈ orderedTriples [ob 0 0 0, ob 0 3 1, ob 4 0 2],
      (inSas exSas flatMetric3.ccw 9 t ↔ t = (ob 0 0 0, ob 0 3 1, ob 4 0 2)) :=
    fun t ht => ⟨ex345_sas_out ht, by rintro rfl; exact ex345_sas_in⟩
  rw [Multiset.filter_congr key, e]
  have hne1 : ob 0 0 0 ≠ ob 0 3 1 := fun h => by simpa [ob] using congrArg Obj.idx h
  have hne2 : ob 0 0 0 ≠ ob 4 0 2 := fun h => by simpa [ob] using congrArg Obj.idx h
  have hne3 : ob 0 3 1 ≠ ob 4 0 2 := fun h => by simpa [ob] using congrArg Obj.idx h
  simp [orders6, Multiset.filter_add, Multiset.filter_singleton, hne1, hne2, hne3, hne1.symm, hne2.symm, hne3.symm]

/-- C69, `LogRUV`: the triangle with sides 5, 4, 3, in units of 2. -/
example : ∃ es, processAuto3 (binRUV exRuv flatMetric3) flatMetric3 exRuv.minsep
      (buildField (sortAlg _ 0) (euclidGeom 2) exFp [ob 0 0 0, ob 0 3 1, ob 4 0 2]).cells = some es ∧
    (finalizeRuv exFin3 exNomRuv (accumulate3 Acc3.zero es)).meand1 29 = 5 / 2 ∧
    (finalizeRuv exFin3 exNomRuv (accumulate3 Acc3.zero es)).meanu 29 = 3 / 4 := by
  obtain ⟨es, h, hk⟩ := auto_ruv_report_partial (sortAlg _ 0) (euclidGeom 2) (euclidGeom_dominates 2) exFp rfl exRuv_ok rfl (Or.inl rfl) rfl rfl
    flatMetric3_of (F := exFin3) rfl exNomRuv [ob 0 0 0, ob 0 3 1, ob 4 0 2] (by simp [ob_valid]) (fun t ht e => ex345_tie ht e)
  have := hk 29
  rw [ex345_filter, brute3_one] at this
  obtain ⟨a, b, -⟩ := this (by simp [ob])
  refine ⟨es, h, ?_, ?_⟩
  · rw [a.meand1, mean3, brute3_one, brute3_one]
    simp [ob_w, side1, d_345, exFin3]
  · rw [b, mean3, brute3_one, brute3_one]
    simp [ob_w, triU, side2, side3, d_origin_3, d_origin_4]

/-- C69, the same run: bin 29 has weight, and contains its own report. -/
example : ∃ es, processAuto3 (binRUV exRuv flatMetric3) flatMetric3 exRuv.minsep
      (buildField (sortAlg _ 0) (euclidGeom 2) exFp [ob 0 0 0, ob 0 3 1, ob 4 0 2]).cells = some es ∧
    (finalizeRuv exFin3 exNomRuv (accumulate3 Acc3.zero es)).weight 29 = 1 ∧
    RuvInBin exRuv exFin3 (finalizeRuv exFin3 exNomRuv (accumulate3 Acc3.zero es)) := by
  obtain ⟨es, h, hk⟩ := auto_ruv_exact_partial (sortAlg _ 0) (euclidGeom 2) (euclidGeom_dominates 2) exFp rfl exRuv_ok rfl (Or.inl rfl) rfl rfl
    flatMetric3_of [ob 0 0 0, ob 0 3 1, ob 4 0 2] (by simp [ob_valid]) (fun t ht e => ex345_tie ht e)
  obtain ⟨es', h', hb⟩ := auto_ruv_in_bin (sortAlg _ 0) (euclidGeom 2) exFp [ob 0 0 0, ob 0 3 1, ob 4 0 2] exRuv_ok flatMetric3_of
    exNomRuv (euclidGeom_dominates 2) le_rfl (F := exFin3) rfl (by norm_num [exFin3]) (by simp [ob_valid])
  rw [h, Option.some.injEq] at h'
  subst h'
  refine ⟨es, h, ?_, hb⟩
  show (accumulate3 Acc3.zero es).weight 29 = 1
  rw [(hk 29).weight, ex345_filter, brute3_one]
  norm_num [ob_w]

/-- C69, `LogSAS`: bin 9 has weight, and contains its own report. -/
example : ∃ es, processAuto3 (binSAS exSas flatMetric3) flatMetric3 exSas.minsep
      (buildField (sortAlg _ 0) (euclidGeom 2) exFp [ob 0 0 0, ob 0 3 1, ob 4 0 2]).cells = some es ∧
    (finalizeSas exFin3 exNomSas (accumulate3 Acc3.zero es)).weight 9 = 1 ∧
    SasInBin exSas exFin3 (finalizeSas exFin3 exNomSas (accumulate3 Acc3.zero es)) := by
  obtain ⟨es, h, hk⟩ := auto_sas_exact_partial (sortAlg _ 0) (euclidGeom 2) (euclidGeom_dominates 2) exFp rfl exSas_ok rfl rfl rfl
    flatMetric3_of flatMetric3_oriented [ob 0 0 0, ob 0 3 1, ob 4 0 2] (by simp [ob_valid]) (fun t ht _ => ex345_line ht)
  obtain ⟨es', h', hb⟩ := auto_sas_in_bin (sortAlg _ 0) (euclidGeom 2) exFp [ob 0 0 0, ob 0 3 1, ob 4 0 2] (M := flatMetric3) exSas_ok
    exNomSas (euclidGeom_dominates 2) le_rfl (F := exFin3) rfl (by norm_num [exFin3]) (by norm_num [exFin3, Real.pi_pos])
    (by simp [ob_valid])
  rw [h, Option.some.injEq] at h'
  subst h'
  refine ⟨es, h, ?_, hb⟩
  show (accumulate3 Acc3.zero es).weight 9 = 1
  rw [(hk 9).weight, ex345_sas_filter, brute3_one]
  norm_num [ob_w]

/-- **C69, the units of the angle, negation.** `phi_units` is the unit of the reported `meanphi` — in bins with weight.  In bins without
weight the nominal angle is reported in radians: of the three rows (0,0), (0,3), (4,0) with `phi_units='deg'`, bin 9 with its right angle
reports 90, bin 0 of the angles between 0 and 90 degrees, which is empty, reports 0.785… -/
theorem sas_empty_phi_wrong : ∃ es, processAuto3 (binSAS exSas flatMetric3) flatMetric3 exSas.minsep
      (buildField (sortAlg _ 0) (euclidGeom 2) exFp [ob 0 0 0, ob 0 3 1, ob 4 0 2]).cells = some es ∧
    (finalizeSas exFin3 exNomSas (accumulate3 Acc3.zero es)).meanu 9 = 90 ∧
    (finalizeSas exFin3 exNomSas (accumulate3 Acc3.zero es)).weight 0 = 0 ∧
    exNomSas.phi 0 = 45 * exFin3.phiUnits ∧
    (finalizeSas exFin3 exNomSas (accumulate3 Acc3.zero es)).meanu 0 = Real.pi / 4 := by
  obtain ⟨es, h, hk⟩ := auto_sas_exact_partial (sortAlg _ 0) (euclidGeom 2) (euclidGeom_dominates 2) exFp rfl exSas_ok rfl rfl rfl
    flatMetric3_of flatMetric3_oriented [ob 0 0 0, ob 0 3 1, ob 4 0 2] (by simp [ob_valid]) (fun t ht _ => ex345_line ht)
  have h9 := hk 9
  rw [ex345_sas_filter] at h9
  have hpi := Real.pi_pos
  have h0 : (accumulate3 Acc3.zero es).weight 0 = 0 := by
    rw [(hk 0).weight]
    have e : (orderedTriples [ob 0 0 0, ob 0 3 1, ob 4 0 2]).filter (inSas exSas flatMetric3.ccw 0) = 0 := by
      rw [Multiset.filter_eq_nil]
      rintro t ht ⟨k2, k3, kp, ⟨⟨a0, -, -, a3⟩, ⟨b0, b1, -⟩, c0, c1, -⟩, -, hk⟩
      simp only [sasPlace, exSas] at hk b1 c1
      have hk2 : k2 = 0 := by omega
      subst hk2
      have hlt : side2 t < 3 := by
        refine a3.trans ?_
        norm_num [logEdge, exSas]
        have := Real.exp_one_lt_d9
        linarith
      have e : orderedTriples [ob 0 0 0, ob 0 3 1, ob 4 0 2] = orders6 (ob 0 0 0, ob 0 3 1, ob 4 0 2) := by
        simp [orderedTriples, autoTriples, autoPairs]
      rw [e] at ht
      have e1 := d_origin_3
      have e2 := d_origin_4
      have e3 := d_345
      have e4 := (dist_comm _ _).trans e1
      have e5 := (dist_comm _ _).trans e2
      have e6 := (dist_comm _ _).trans e3
      simp only [orders6, Multiset.mem_add, Multiset.mem_singleton] at ht
      rcases ht with ((((rfl | rfl) | rfl) | rfl) | rfl) | rfl <;> simp only [side2, ob_pos] at hlt <;>
        first | rw [e1] at hlt | rw [e2] at hlt | rw [e3] at hlt | rw [e4] at hlt | rw [e5] at hlt | rw [e6] at hlt
      all_goals norm_num at hlt
    rw [e]
    simp [brute3]
  refine ⟨es, h, ?_, h0, ?_, ?_⟩
  · obtain ⟨-, b⟩ := finalize_sas_means (F := exFin3) rfl exNomSas h9 (by rw [brute3_one]; simp [ob_w])
    have e : triPhi (ob 0 0 0, ob 0 3 1, ob 4 0 2) = Real.pi / 2 := by
      have e : triCos (ob 0 0 0, ob 0 3 1, ob 4 0 2) = 0 := by
        norm_num [triCos, side1, side2, side3, d_origin_3, d_origin_4, d_345]
      rw [triPhi, e, Real.arccos_zero]
    rw [b, mean3, brute3_one, brute3_one, e]
    simp only [ob_w, exFin3]
    field_simp
    norm_num
  · norm_num [exNomSas, exFin3]
    ring
  · simp only [finalizeSas, h0, ne_eq, not_true_eq_false, if_false]
    norm_num [exNomSas]
    ring

/-- C69, `LogSAS` on the sphere: the octant, in degrees, has three sides and an angle of 90 degrees. -/
example (N : NomSas) {A : Acc3} {fv : Obj (EuclideanSpace ℝ (Fin 3)) × Obj (EuclideanSpace ℝ (Fin 3)) × Obj (EuclideanSpace ℝ (Fin 3)) → ℝ}
    (h : A.Holds 0 {(⟨pt3 1 0 0, 1, 1, 0, 0⟩, ⟨pt3 0 1 0, 1, 1, 1, 0⟩, ⟨pt3 0 0 1, 1, 1, 2, 0⟩)} triPhi fv) :
    (finalizeSas ⟨true, Real.pi / 180, Real.pi / 180⟩ N A).meanu 0 = 90 ∧
    (finalizeSas ⟨true, Real.pi / 180, Real.pi / 180⟩ N A).meand1 0 = 90 := by
  have hpi := Real.pi_pos
  have ne : ∀ x y z x' y' z' : ℝ, x ≠ x' → pt3 x y z ≠ pt3 x' y' z' := by
    intro x y z x' y' z' hn he
    exact hn (by simpa [pt3] using congrFun (congrArg WithLp.ofLp he) 0)
  have neg : ∀ x y z : ℝ, -pt3 x y z = pt3 (-x) (-y) (-z) := by
    intro x y z
    ext i
    fin_cases i <;> simp [pt3]
  obtain ⟨a, b, -⟩ := finalize_sas_sphere_partial (F := ⟨true, Real.pi / 180, Real.pi / 180⟩) (p1 := pt3 1 0 0) (p2 := pt3 0 1 0)
    (p3 := pt3 0 0 1) rfl (by positivity) (by positivity) N (by simp [norm_pt3]) (by simp [norm_pt3]) (by simp [norm_pt3])
    (ne _ _ _ _ _ _ (by norm_num)) (by rw [neg]; exact ne _ _ _ _ _ _ (by norm_num))
    (ne _ _ _ _ _ _ (by norm_num)) (by rw [neg]; exact ne _ _ _ _ _ _ (by norm_num)) (by simp [spaceMetric3, pt3]) h
    (by rw [brute3_one]; norm_num) (by simp [side1, side2, side3])
  constructor
  · have e : skyAngle (pt3 1 0 0) (pt3 0 0 1) (pt3 0 1 0) = Real.pi / 2 := by
      have : (⟨inner ℝ (pt3 0 0 1) (pt3 0 1 0) - inner ℝ (pt3 1 0 0) (pt3 0 0 1) * inner ℝ (pt3 1 0 0) (pt3 0 1 0),
          -det3 (pt3 1 0 0) (pt3 0 0 1) (pt3 0 1 0)⟩ : ℂ) = Complex.I := by
        apply Complex.ext <;> simp [pt3, det3, PiLp.inner_apply, Fin.sum_univ_three]
      rw [skyAngle, this, Complex.arg_I]
    rw [e] at a
    field_simp at a
    linarith
  · have e : InnerProductGeometry.angle (pt3 0 1 0) (pt3 0 0 1) = Real.pi / 2 := by
      rw [← InnerProductGeometry.inner_eq_zero_iff_angle_eq_pi_div_two]
      simp [pt3, PiLp.inner_apply, Fin.sum_univ_three]
    rw [e] at b
    field_simp at b
    linarith

/-- **C69, `LogRUV` on the sphere, negation.** The sides are converted from chords to angles and `u` is not: the points at 90 and 60 degrees
from the first one have `meand3/meand2 = 2/3` and `meanu = 1/√2`. -/
theorem ruv_sphere_u_wrong : ∃ p1 p2 p3 : EuclideanSpace ℝ (Fin 3), ‖p1‖ = 1 ∧ ‖p2‖ = 1 ∧ ‖p3‖ = 1 ∧
    InnerProductGeometry.angle p1 p3 = Real.pi / 2 ∧ InnerProductGeometry.angle p1 p2 = Real.pi / 3 ∧
    dist p1 p2 < dist p1 p3 ∧ dist p1 p3 < dist p2 p3 ∧
    ∀ (N : NomRuv) (A : Acc3) (k : ℤ) (fv : Obj (EuclideanSpace ℝ (Fin 3)) × Obj (EuclideanSpace ℝ (Fin 3)) × Obj (EuclideanSpace ℝ (Fin 3)) → ℝ),
      A.Holds k {(⟨p1, 1, 1, 0, 0⟩, ⟨p2, 1, 1, 1, 0⟩, ⟨p3, 1, 1, 2, 0⟩)} triU fv →
      (finalizeRuv ⟨true, 1, 1⟩ N A).meand3 k / (finalizeRuv ⟨true, 1, 1⟩ N A).meand2 k = 2 / 3 ∧
      (finalizeRuv ⟨true, 1, 1⟩ N A).meanu k ≠ 2 / 3 := by
  have s2 : Real.sqrt 2 ^ 2 = 2 := Real.sq_sqrt (by norm_num)
  have s2p : 0 < Real.sqrt 2 := Real.sqrt_pos.2 (by norm_num)
  have n1 : ‖pt3 1 0 0‖ = 1 := by simp [norm_pt3]
  have n3 : ‖pt3 0 1 0‖ = 1 := by simp [norm_pt3]
  have n2 : ‖pt3 (1 / 2) (-1 / 2) (Real.sqrt 2 / 2)‖ = 1 := by
    rw [norm_pt3, Real.sqrt_eq_one]
    linarith
  have d13 : dist (pt3 1 0 0) (pt3 0 1 0) = Real.sqrt 2 := by
    rw [dist_pt3]
    norm_num
  have d12 : dist (pt3 1 0 0) (pt3 (1 / 2) (-1 / 2) (Real.sqrt 2 / 2)) = 1 := by
    rw [dist_pt3, Real.sqrt_eq_one]
    linarith
  have d23 : dist (pt3 (1 / 2) (-1 / 2) (Real.sqrt 2 / 2)) (pt3 0 1 0) = Real.sqrt 3 := by
    rw [dist_pt3]
    congr 1
    linarith
  have a13 : InnerProductGeometry.angle (pt3 1 0 0) (pt3 0 1 0) = Real.pi / 2 := by
    rw [← InnerProductGeometry.inner_eq_zero_iff_angle_eq_pi_div_two]
    simp [pt3, PiLp.inner_apply, Fin.sum_univ_three]
  have a12 : InnerProductGeometry.angle (pt3 1 0 0) (pt3 (1 / 2) (-1 / 2) (Real.sqrt 2 / 2)) = Real.pi / 3 := by
    have : (inner ℝ (pt3 1 0 0) (pt3 (1 / 2) (-1 / 2) (Real.sqrt 2 / 2)) : ℝ) = Real.cos (Real.pi / 3) := by
      simp [pt3, PiLp.inner_apply, Fin.sum_univ_three]
    have hpi := Real.pi_pos
    rw [InnerProductGeometry.angle, n1, n2, this, mul_one, div_one, Real.arccos_cos (by positivity) (by linarith)]
  refine ⟨pt3 1 0 0, pt3 (1 / 2) (-1 / 2) (Real.sqrt 2 / 2), pt3 0 1 0, n1, n2, n3, a13, a12, ?_, ?_, ?_⟩
  · rw [d12, d13]
    nlinarith
  · rw [d13, d23]
    exact Real.sqrt_lt_sqrt (by norm_num) (by norm_num)
  · intro N A k fv h
    have hw : A.weight k = 1 := by
      rw [h.weight, brute3_one]
      norm_num
    have m2 : A.meand2 k = dist (pt3 1 0 0) (pt3 0 1 0) := by
      rw [h.meand2, brute3_one]
      simp [side2]
    have m3 : A.meand3 k = dist (pt3 1 0 0) (pt3 (1 / 2) (-1 / 2) (Real.sqrt 2 / 2)) := by
      rw [h.meand3, brute3_one]
      simp [side3]
    have mu : A.meanu k = 1 / Real.sqrt 2 := by
      rw [h.meanu, brute3_one]
      simp only [triU, side2, side3, d12, d13]
      norm_num
    have u2 := unitD_sphere (F := ⟨true, 1, 1⟩) rfl one_pos n1 n3
    have u3 := unitD_sphere (F := ⟨true, 1, 1⟩) rfl one_pos n1 n2
    rw [one_mul, a13] at u2
    rw [one_mul, a12] at u3
    simp only [finalizeRuv, hw, ne_eq, one_ne_zero, not_false_eq_true, if_true, div_one, m2, m3, mu, u2, u3]
    have hpi := Real.pi_pos
    constructor
    · field_simp
    · intro he
      rw [div_eq_iff s2p.ne'] at he
      nlinarith

end
end TreeCorr
