import Verif.Props.Map3Sums

/-!
C72: areas, variances, errors and examples.
-/

namespace TreeCorr.Map3

open Aperture
open scoped ComplexConjugate Real

/-- **C72.** The area of a LogSAS bin around a pair of sides: `d2 Δd2` (`= d2² Δ log d2`) times `d3 Δd3 Δphi` over `2 π`, whatever
the radius. -/
theorem area_sas (g : GGG) (hg : g.binType = .sas) (R : ℝ) (hR : 0 < R) (b : GGGBin) :
    areaOf g R b * R ^ 4 = b.d2 ^ 2 * g.binSize * (b.d3 ^ 2 * g.binSize * g.phiBinSize) / (2 * π) := by
  have hne : ¬ g.binType = .ruv := by rw [hg]; decide
  rw [areaOf, d2tOf, if_neg hne, sOf, d3Of]
  field_simp

/-- **C72.** The area of a LogRUV bin: `d2 Δd2` times the area of the `t` of the bin (`ruv_jacobian`) over `2 π`.  The height of the
triangle is twice its area over `d2`. -/
theorem area_ruv (g : GGG) (hg : g.binType = .ruv) (R : ℝ) (hR : 0 < R) (b : GGGBin) (t : Tri) (h1 : 0 ≤ b.d1) (h2 : 0 < b.d2)
    (hb : ¬ bad R b) (hy : |tyOf R b| = |t.turn| / (b.d2 * R)) (hn : t.turn ≠ 0) :
    areaOf g R b * R ^ 4 =
      b.d2 ^ 2 * g.binSize * (b.d3 ^ 2 * b.d1 / (|t.turn| / b.d2) * g.ubinSize * g.vbinSize) / (2 * π) := by
  have hn' : |t.turn| ≠ 0 := abs_ne_zero.2 hn
  have e : |d3Of R b * d3Of R b * (1 / R * b.d1) / tyOf R b| = d3Of R b * d3Of R b * (1 / R * b.d1) / (|t.turn| / (b.d2 * R)) := by
    rw [abs_div, hy, abs_of_nonneg]
    have := mul_self_nonneg (d3Of R b)
    positivity
  rw [areaOf, d2tOf, if_pos hg, if_neg hb, e, sOf, d3Of]
  field_simp

/-- **C72.** The eight returned values are the products of `Map` and `Mx` from the means of the products of the three aperture
masses that the bins give. -/
theorem map3_values_partial (g : GGG) (hg : g.binType ≠ .multipole) (R k2 k3 : ℝ) (hR : 0 < R) (h2 : 0 < k2) (h3 : 0 < k3)
    (tri : GGGBin → Tri) (Z : GGGBin → Option (Fin 3) → ℂ) (H : ∀ b ∈ g.bins, Describes g R b (tri b) (Z b)) :
    let ways := if g.binType = .ruv then allWays else firstWays
    let M j := (g.bins.map fun b => ((areaOf g R b * R ^ 4 : ℝ) : ℂ) *
      ways (contribution ![R, k2 * R, k3 * R] j (tri b) (Z b))).sum
    ∃ v, calculateMap3 g (some [R]) k2 k3 = .ok [eight (M none) (M (some 0)) (M (some 1)) (M (some 2)) v] := by
  intro ways M
  obtain ⟨e0, e1, e2, e3⟩ := map3_sums_partial g hg R k2 k3 hR h2 h3 tri Z H
  refine ⟨varOf g (allSums g R k2 k3), ?_⟩
  simp only [calculateMap3, if_neg hg, Option.getD_some, List.map_cons, List.map_nil, map3At]
  rw [e0, e1, e2, e3]

/-! ### Variances -/

theorem sum_div3 {α : Type} (l : List α) (f : α → ℂ) (c : ℂ) : (l.map f).sum * c = (l.map fun b => f b * c).sum := by
  induction l with
  | nil => simp
  | cons a l ih => simp only [List.map_cons, List.sum_cons, add_mul, ih]

theorem sum_re {α : Type} (l : List α) (f : α → ℂ) : (l.map f).sum.re = (l.map fun b => (f b).re).sum := by
  induction l with
  | nil => simp
  | cons a l ih => simp only [List.map_cons, List.sum_cons, Complex.add_re, ih]

theorem sum_im {α : Type} (l : List α) (f : α → ℂ) : (l.map f).sum.im = (l.map fun b => (f b).im).sum := by
  induction l with
  | nil => simp
  | cons a l ih => simp only [List.map_cons, List.sum_cons, Complex.add_im, ih]

theorem allSums_linear (g : GGG) (R k2 k3 : ℝ) :
    let A := allSums g R k2 k3
    A.mmm = (g.bins.map fun b => A.var0 b * b.gam0).sum ∧
    A.mc 0 + A.mc 1 + A.mc 2 = (g.bins.map fun b => A.var1 b * b.gam1).sum + (g.bins.map fun b => A.var2 b * b.gam2).sum +
      (g.bins.map fun b => A.var3 b * b.gam3).sum := by
  intro A
  have e6 : ∀ (f h : GGGBin → ℂ) (c : ℂ), (g.bins.map fun b => f b * c * h b).sum = (g.bins.map fun b => f b * h b).sum * c := by
    intro f h c
    rw [sum_div3]
    refine congrArg List.sum (List.map_congr_left fun b _ => by ring)
  simp only [A, allSums]
  split <;> split
  · simp only [firstSums, e6, dot, Matrix.cons_val_zero, Matrix.cons_val_one, Matrix.cons_val]
    exact ⟨trivial, by ring⟩
  · simp [passSums, firstSums, dot, add_mul, Function.update]
    ring
  · simp only [firstSums, e6, dot, Matrix.cons_val_zero, Matrix.cons_val_one, Matrix.cons_val]
    exact ⟨trivial, by ring⟩
  · simp [passSums, firstSums, dot, add_mul, Function.update]
    ring

/-- **C72.** The returned variance is the one of `map3` and of `mx3` for correlations without covariance: both are linear in the
real and imaginary parts of the correlations, and the variance is the sum of the squares of the coefficients times the
variance per component. -/
theorem map3_variance (g : GGG) (R k2 k3 : ℝ) :
    ∃ c0 c1 c2 c3 : GGGBin → ℂ,
      (map3At g k2 k3 R).map3 = (g.bins.map fun b => (c0 b * b.gam0 + c1 b * b.gam1 + c2 b * b.gam2 + c3 b * b.gam3).re).sum ∧
      (map3At g k2 k3 R).mx3 = (g.bins.map fun b => (-(c0 b * b.gam0) + c1 b * b.gam1 + c2 b * b.gam2 + c3 b * b.gam3).im).sum ∧
      (map3At g k2 k3 R).var = (g.bins.map fun b => ((c0 b).re ^ 2 + (c0 b).im ^ 2) * b.var0 +
        ((c1 b).re ^ 2 + (c1 b).im ^ 2) * b.var1 + ((c2 b).re ^ 2 + (c2 b).im ^ 2) * b.var2 +
        ((c3 b).re ^ 2 + (c3 b).im ^ 2) * b.var3).sum := by
  obtain ⟨e0, e1⟩ := allSums_linear g R k2 k3
  set A := allSums g R k2 k3 with hA
  refine ⟨fun b => A.var0 b / 4, fun b => A.var1 b / 4, fun b => A.var2 b / 4, fun b => A.var3 b / 4, ?_, ?_, ?_⟩
  · rw [← sum_re]
    have : (g.bins.map fun b => A.var0 b / 4 * b.gam0 + A.var1 b / 4 * b.gam1 + A.var2 b / 4 * b.gam2 + A.var3 b / 4 * b.gam3).sum =
        (A.mc 0 + A.mc 1 + A.mc 2 + A.mmm) * (1 / 4 : ℝ) := by
      rw [e1, e0, ← sum_add3, ← sum_add3, ← sum_add3, sum_div3]
      refine congrArg List.sum (List.map_congr_left fun b _ => ?_)
      push_cast
      ring
    rw [this, Complex.re_mul_ofReal]
    simp only [map3At, eight, ← hA]
    ring
  · rw [← sum_im]
    have : (g.bins.map fun b => -(A.var0 b / 4 * b.gam0) + A.var1 b / 4 * b.gam1 + A.var2 b / 4 * b.gam2 + A.var3 b / 4 * b.gam3).sum =
        (A.mc 0 + A.mc 1 + A.mc 2 + A.mmm * (-1)) * (1 / 4 : ℝ) := by
      rw [e1, e0, sum_div3, ← sum_add3, ← sum_add3, ← sum_add3, sum_div3]
      refine congrArg List.sum (List.map_congr_left fun b _ => ?_)
      push_cast
      ring
    rw [this, Complex.im_mul_ofReal]
    simp only [map3At, eight, ← hA]
    rw [mul_neg_one, ← sub_eq_add_neg]
    ring
  · have add : ∀ f h : GGGBin → ℝ, (g.bins.map f).sum + (g.bins.map h).sum = (g.bins.map fun b => f b + h b).sum := by
      intro f h
      induction g.bins with
      | nil => simp
      | cons a l ih =>
        simp only [List.map_cons, List.sum_cons, ← ih]
        ring
    simp only [map3At, eight, varOf, ← hA, add, norm_pow, norm_sq_parts]

/-- A LogRUV object with one bin, which holds the triangle with sides 15, 12, 9. -/
noncomputable def exRuv (g1 : ℂ) : GGG where
  binType := .ruv
  binSize := 1
  ubinSize := 1
  vbinSize := 1
  phiBinSize := 0
  phiUnits := 1
  rnom1d := [1, 2]
  bins := [⟨15, 12, 9, 3 / 4, 1 / 3, 0, 0, g1, 0, 0, 0, 1, 0, 0⟩]

theorem exRuv_tx (g1 : ℂ) : ∀ b ∈ (exRuv g1).bins, txRaw 1 b = 0 ∧ ¬ bad 1 b ∧ txOf 1 b = 0 ∧ tyOf 1 b = -9 := by
  intro b hb
  simp only [exRuv, List.mem_singleton] at hb
  subst hb
  have e : txRaw 1 ⟨15, 12, 9, 3 / 4, 1 / 3, 0, 0, g1, 0, 0, 0, 1, 0, 0⟩ = 0 := by
    simp only [txRaw, d3Of]
    rw [abs_of_pos (by norm_num)]
    norm_num
  have e' : ¬ bad 1 ⟨15, 12, 9, 3 / 4, 1 / 3, 0, 0, g1, 0, 0, 0, 1, 0, 0⟩ := by
    rw [bad, e]
    simp only [d3Of]
    norm_num
  have e2 : txOf 1 ⟨15, 12, 9, 3 / 4, 1 / 3, 0, 0, g1, 0, 0, 0, 1, 0, 0⟩ = 0 := by rw [txOf, if_neg e', e]
  refine ⟨e, e', e2, ?_⟩
  simp only [tyOf, e2, d3Of]
  rw [if_pos (by norm_num), show ((1 : ℝ) / 1 * 9) ^ 2 - 0 ^ 2 = 9 ^ 2 by norm_num, Real.sqrt_sq (by norm_num)]
  norm_num

theorem exRuv_T1 : (calcTOne 12 ⟨0, -9⟩).T1 ≠ 0 := by
  have q1 : ((12 : ℂ) + ⟨0, -9⟩) / 3 = ⟨4, -3⟩ := by
    rw [div_eq_iff (by norm_num)]
    apply Complex.ext <;> simp <;> norm_num
  have q2 : (⟨4, -3⟩ : ℂ) - ⟨0, -9⟩ = ⟨4, 6⟩ := by apply Complex.ext <;> simp; norm_num
  have q3 : (⟨4, -3⟩ : ℂ) - 12 = ⟨-8, -3⟩ := by apply Complex.ext <;> simp; norm_num
  have b1 : conj (⟨4, -3⟩ : ℂ) ^ 2 * ⟨4, 6⟩ * ⟨-8, -3⟩ = ⟨1342, -756⟩ := by
    apply Complex.ext <;> simp [pow_two] <;> norm_num
  simp only [calcTOne, q1, q2, q3, b1, norm_sq_parts]
  refine mul_ne_zero ?_ ?_
  · exact Complex.ofReal_ne_zero.2 (neg_ne_zero.2 (Real.exp_ne_zero _))
  · intro h
    norm_num at h
    have := congrArg Complex.im h
    simp [pow_two, Complex.div_im, Complex.normSq] at this
    norm_num at this

theorem allSums_one (g : GGG) (hg : g.binType = .ruv) (R : ℝ) :
    allSums g R 1 1 =
      let A := firstSums g R 1 1
      let m := (A.mc 0 + A.mc 1 + A.mc 2) * 2
      ⟨A.mmm * 6, ![m, m, m], fun b => A.var0 b * 6, fun b => A.var1 b * 6, fun b => A.var2 b * 6, fun b => A.var3 b * 6⟩ := by
  simp only [allSums, if_pos hg, and_self, if_true]

/-- **C72 (wrong documentation).** "The estimated variance (which is equal for each)" does not hold: in this object
`mapmapmx` is `Im (c γ1)` with a fixed `c`, so that its variance is `|c|²` times the variance per component of `γ1`, which is 1;
the returned variance is nine times as large. -/
theorem mixed_variance_wrong : ∃ c : ℂ, c ≠ 0 ∧ ∀ γ : ℂ, ∃ st, calculateMap3 (exRuv γ) (some [1]) 1 1 = .ok [st] ∧
    st.mapmapmx = (c * γ).im ∧ st.var = 9 * (‖c‖ ^ 2 * 1) := by
  have key : ∀ γ, ∀ b ∈ (exRuv γ).bins, tOf (exRuv γ) 1 b = ⟨0, -9⟩ ∧ areaOf (exRuv γ) 1 b = 12 * 12 * (81 * 15 / 9 / (2 * π)) := by
    intro γ b hb
    obtain ⟨-, hbad, h1, h2⟩ := exRuv_tx γ b hb
    have hg : (exRuv γ).binType = .ruv := rfl
    refine ⟨by rw [tOf, if_pos hg, h1, h2], ?_⟩
    rw [areaOf, d2tOf, if_pos hg, if_neg hbad, h2]
    simp only [exRuv, List.mem_singleton] at hb
    subst hb
    simp only [sOf, d3Of, exRuv]
    norm_num
  set a : ℝ := 12 * 12 * (81 * 15 / 9 / (2 * π)) with ha
  have ha0 : (a : ℂ) ≠ 0 := Complex.ofReal_ne_zero.2 (by positivity)
  refine ⟨(calcTOne 12 ⟨0, -9⟩).T1 * a / 2, div_ne_zero (mul_ne_zero exRuv_T1 ha0) two_ne_zero, fun γ => ⟨_, rfl, ?_⟩⟩
  obtain ⟨h1, h2⟩ := key γ _ (List.mem_singleton.2 rfl)
  have ht : (tBin (exRuv γ) 1 1 1 1 ⟨15, 12, 9, 3 / 4, 1 / 3, 0, 0, γ, 0, 0, 0, 1, 0, 0⟩).T1 = (calcTOne 12 ⟨0, -9⟩).T1 * a := by
    have hs : ((sOf 1 ⟨15, 12, 9, 3 / 4, 1 / 3, 0, 0, γ, 0, 0, 0, 1, 0, 0⟩ : ℝ) : ℂ) = 12 := by
      simp [sOf]
    simp only [tBin]
    rw [h1, h2, hs, calcT, if_pos ⟨rfl, rfl, rfl⟩]
  have hb : (exRuv γ).bins = [⟨15, 12, 9, 3 / 4, 1 / 3, 0, 0, γ, 0, 0, 0, 1, 0, 0⟩] := rfl
  generalize (calcTOne 12 ⟨0, -9⟩).T1 * a = c at ht ⊢
  constructor
  · simp only [map3At, eight, allSums_one (exRuv γ) rfl, firstSums, dot, hb, List.map_cons, List.map_nil, List.sum_cons, List.sum_nil,
      Matrix.cons_val_zero, Matrix.cons_val_one, Matrix.cons_val, mul_zero, zero_mul, zero_add, add_zero, ht]
    rw [show c * γ * 2 + c * γ * 2 - c * γ * 2 = (c / 2 * γ) * ((4 : ℝ) : ℂ) by push_cast; ring, Complex.im_mul_ofReal]
    ring
  · simp only [map3At, eight, varOf, allSums_one (exRuv γ) rfl, firstSums, hb, List.map_cons, List.map_nil, List.sum_cons,
      List.sum_nil, mul_zero, add_zero, zero_add, ht]
    rw [show c * 6 / 4 = (3 : ℂ) * (c / 2) by ring, norm_pow, norm_mul]
    norm_num
    ring

/-! ### Errors and the file -/

/-- **C72.** A LogMultipole object raises an error; the others give one row per radius, by default the nominal distances. -/
theorem map3_rows (g : GGG) (R : Option (List ℝ)) (k2 k3 : ℝ) :
    (g.binType = .multipole → calculateMap3 g R k2 k3 = .error .assertion) ∧
    (g.binType ≠ .multipole → ∃ l, calculateMap3 g R k2 k3 = .ok l ∧ l.length = (R.getD g.rnom1d).length ∧
      ∀ (i : ℕ) (r : ℝ), (R.getD g.rnom1d)[i]? = some r → calculateMap3 g (some [r]) k2 k3 = .ok (l[i]?).toList) := by
  refine ⟨fun h => if_pos h, fun h => ⟨_, if_neg h, by simp, fun i r hr => ?_⟩⟩
  rw [calculateMap3, if_neg h]
  simp [hr]

/-- **C72.** The file has one row per radius with the statistics of `calculateMap3` for one common radius. -/
theorem writeMap3_rows (g : GGG) (R : Option (List ℝ)) (hg : g.binType ≠ .multipole) :
    ∃ rows, writeMap3 g R = .ok rows ∧ rows.map Map3Row.R = R.getD g.rnom1d ∧
      ∀ row ∈ rows, ∃ st, calculateMap3 g (some [row.R]) 1 1 = .ok [st] ∧ row.map3 = st.map3 ∧ row.map2mx = st.mapmapmx ∧
        row.mapmx2 = st.mxmxmap ∧ row.mx3 = st.mx3 ∧ row.sig = Real.sqrt st.var := by
  refine ⟨((R.getD g.rnom1d).zip ((R.getD g.rnom1d).map (map3At g 1 1))).map fun x =>
    ⟨x.1, x.2.map3, x.2.mapmapmx, x.2.mxmxmap, x.2.mx3, Real.sqrt x.2.var⟩, ?_, ?_, ?_⟩
  · simp only [writeMap3, calculateMap3, if_neg hg]
    rfl
  · rw [List.map_map]
    exact List.map_fst_zip (by simp)
  · intro row hrow
    obtain ⟨⟨x, st⟩, hx, rfl⟩ := List.mem_map.1 hrow
    refine ⟨map3At g 1 1 x, by simp [calculateMap3, hg], ?_⟩
    have hst : st = map3At g 1 1 x := by
      rw [← List.map_id (R.getD g.rnom1d), List.map_map, List.zip_map'] at hx
      obtain ⟨y, -, hy⟩ := List.mem_map.1 hx
      simp only [id, Function.comp, Prod.mk.injEq] at hy
      rw [← hy.2, hy.1]
    simp [hst]

/-! ### Examples -/

/-- The triangle of `exRuv`: counter-clockwise, with a right angle at the first point. -/
noncomputable def exTri : Tri := ⟨0, ⟨0, -9⟩, 12⟩

theorem exTri_proper : exTri.Proper := by
  constructor <;> intro h <;> replace h := congrArg Complex.im h <;> simp [exTri, centroid] at h <;> norm_num at h

theorem exTri_turn : exTri.turn = 108 := by
  simp [Tri.turn, exTri]
  norm_num

theorem exTri_norms : ‖exTri.p3 - exTri.p2‖ = 15 ∧ ‖exTri.p3 - exTri.p1‖ = 12 ∧ ‖exTri.p2 - exTri.p1‖ = 9 := by
  refine ⟨?_, ?_, ?_⟩
  · rw [← sq_eq_sq₀ (norm_nonneg _) (by norm_num), norm_sq_parts]
    simp [exTri]
    norm_num
  · rw [← sq_eq_sq₀ (norm_nonneg _) (by norm_num), norm_sq_parts]
    simp [exTri]
  · rw [← sq_eq_sq₀ (norm_nonneg _) (by norm_num), norm_sq_parts]
    simp [exTri]

/-- The hypotheses of `ruv_triangle`, `area_ruv` and `map3_values_partial` hold for the triangle with sides 15, 12, 9. -/
theorem exRuv_describes : ∀ b ∈ (exRuv (exTri.phase (some 0))).bins,
    Describes (exRuv (exTri.phase (some 0))) 1 b exTri (fun i => if i = some 0 then 1 else 0) ∧
    areaOf (exRuv (exTri.phase (some 0))) 1 b * 1 ^ 4 =
      b.d2 ^ 2 * 1 * (b.d3 ^ 2 * b.d1 / (|exTri.turn| / b.d2) * 1 * 1) / (2 * π) := by
  intro b hb
  obtain ⟨n1, n2, n3⟩ := exTri_norms
  simp only [exRuv, List.mem_singleton] at hb
  have h := ruv_triangle (exRuv (exTri.phase (some 0))) rfl 1 one_pos b exTri (by rw [hb, n1]) (by rw [hb, n2]) (by rw [hb, n3])
    (by rw [hb]; norm_num) (by rw [exTri_turn]; norm_num) (by rw [hb]; norm_num)
    (by rw [hb, exTri_turn, if_pos (by norm_num)]; norm_num) (by rw [hb]; norm_num)
  obtain ⟨r, hr, e1, e2, hbad, hy⟩ := h
  refine ⟨⟨exTri_proper, ⟨r, hr, e1, e2⟩, ?_, ?_, ?_, ?_⟩, ?_⟩
  · simp [hb]
  · simp [hb]
  · simp [hb]
  · simp [hb]
  · exact area_ruv (exRuv (exTri.phase (some 0))) rfl 1 one_pos b exTri (by rw [hb]; norm_num) (by rw [hb]; norm_num) hbad hy
      (by rw [exTri_turn]; norm_num)

example (k2 k3 : ℝ) (h2 : 0 < k2) (h3 : 0 < k3) : ∃ st, calculateMap3 (exRuv (exTri.phase (some 0))) (some [1]) k2 k3 = .ok [st] := by
  obtain ⟨v, hv⟩ := map3_values_partial (exRuv (exTri.phase (some 0))) (by decide) 1 k2 k3 one_pos h2 h3 (fun _ => exTri)
    (fun _ i => if i = some 0 then 1 else 0) fun b hb => (exRuv_describes b hb).1
  exact ⟨_, hv⟩

/-- A LogSAS object with one bin, with a right angle between two sides of length 1. -/
noncomputable def exSas (γ : Fin 4 → ℂ) : GGG where
  binType := .sas
  binSize := 1 / 10
  ubinSize := 0
  vbinSize := 0
  phiBinSize := 1 / 5
  phiUnits := 1
  rnom1d := [1]
  bins := [⟨1, 1, 1, 0, 0, π / 2, γ 0, γ 1, γ 2, γ 3, 1, 1, 1, 1⟩]

noncomputable def exTri2 : Tri := ⟨0, Complex.I, 1⟩

theorem exTri2_proper : exTri2.Proper := by
  constructor <;> intro h <;> replace h := congrArg Complex.im h <;> simp [exTri2, centroid] at h

/-- The hypotheses of `sas_triangle` and `map3_values_partial` hold for a right triangle and any mean products of the shears. -/
example (Z : Option (Fin 3) → ℂ) (k2 k3 : ℝ) (h2 : 0 < k2) (h3 : 0 < k3) :
    ∃ st, calculateMap3 (exSas ![Z none * exTri2.phase none, Z (some 0) * exTri2.phase (some 0), Z (some 1) * exTri2.phase (some 1),
      Z (some 2) * exTri2.phase (some 2)]) (some [2]) k2 k3 = .ok [st] := by
  obtain ⟨v, hv⟩ := map3_values_partial (exSas ![Z none * exTri2.phase none, Z (some 0) * exTri2.phase (some 0),
      Z (some 1) * exTri2.phase (some 1), Z (some 2) * exTri2.phase (some 2)]) (by simp [exSas]) 2 k2 k3 two_pos h2 h3 (fun _ => exTri2)
    (fun _ => Z) (by
      intro b hb
      simp only [exSas, List.mem_singleton] at hb
      refine ⟨exTri2_proper, ?_, by rw [hb]; rfl, by rw [hb]; rfl, by rw [hb]; rfl, by rw [hb]; rfl⟩
      exact sas_triangle _ rfl 2 two_pos b exTri2 (by rw [hb]; simp [exTri2]) (by rw [hb]; simp [exTri2]) (by simp [exTri2])
        (by rw [hb]; simp [exTri2, exSas]))
  exact ⟨_, hv⟩

/-- `T_filter` applies to this triangle. -/
example : kernel3 (apertureFilter 1) (apertureFilter 2) (apertureFilter 3) 0 Complex.I 1 * (1 * 1 * 1) =
    (calcT 1 Complex.I 1 2 3).T0 * (relTo (centroid 0 Complex.I 1) 0 1 * relTo (centroid 0 Complex.I 1) Complex.I 1 *
      relTo (centroid 0 Complex.I 1) 1 1) := by
  have h := (T_filter 0 Complex.I 1 1 1 1 1 2 3 one_pos two_pos three_pos 1 (by simp) exTri2_proper.n1 exTri2_proper.n2
    exTri2_proper.n3).1
  simpa using h

example : ∃ rows, writeMap3 (exRuv 1) none = .ok rows ∧ rows.map Map3Row.R = [1, 2] := by
  obtain ⟨rows, h, h', -⟩ := writeMap3_rows (exRuv 1) none (by decide)
  exact ⟨rows, h, h'⟩

end TreeCorr.Map3
