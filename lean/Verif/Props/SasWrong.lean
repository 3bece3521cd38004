import Verif.Props.Sas3
import Verif.Proofs.Witness3
import Mathlib.Analysis.Real.Pi.Bounds

/-!
C55 with limits on the angle, and in space: triangles that belong to a bin and are never counted.
-/

namespace TreeCorr
open Classical
noncomputable section

/-- **C55, negation for `min_phi > 1` (radians).** The pair of cells is thrown away when twice the size of the second is less than
`min_phi * min_sep`, but the side opposite an angle `phi` of sides `min_sep` is only `2 sin(phi/2) min_sep`.  With `min_phi = π/2` the
triangle (0,0), (1,0), (-1/20,1), of angle 93 degrees, is in the bin and is not counted. -/
theorem sas_minphi_wrong : ∃ (p : Prm3) (l1 l2 : List (Obj (EuclideanSpace ℝ (Fin 2)))) (t : Obj _ × Obj _ × Obj _) (es : List (Emit3 _)),
    SasParams p ∧ p.b = 0 ∧ p.maxu = Real.pi ∧ (∀ o ∈ l1, o.Valid ∧ o.w = 1) ∧ (∀ o ∈ l2, o.Valid ∧ o.w = 1) ∧
    t ∈ cross12Triples l1 l2 ∧ inSas p flatMetric3.ccw 0 t ∧
    processCross12 (binSAS p flatMetric3) flatMetric3 .first (buildField (sortAlg _ 0) (euclidGeom 2) exFp l1).cells
      (buildField (sortAlg _ 0) (euclidGeom 2) exFp l2).cells = some es ∧ ∀ k, (accumulate3 Acc3.zero es).ntri k = 0 := by
  have hpi := Real.pi_pos
  have hpi3 := Real.pi_gt_d2
  refine ⟨sasBin (Real.pi / 2) Real.pi, [ob 0 0 0], [ob 1 0 1, ob (-1 / 20) 1 2], (ob 0 0 0, ob (-1 / 20) 1 2, ob 1 0 1), [],
    sasBin_ok (by linarith) (by linarith) le_rfl, rfl, rfl, by simp [ob_valid], by simp [ob_valid], ?_, ?_, ?_, fun k => rfl⟩
  · simp [cross12Triples, orderedPairs, autoPairs]
  · have e1 : dist (pt (-1 / 20) 1) (pt 1 0) ^ 2 = 841 / 400 := by
      rw [dist_pt, Real.sq_sqrt (by positivity)]; norm_num
    have e2 : dist (pt 0 0) (pt 1 0) = 1 := by
      rw [dist_pt]; norm_num
    have e3 : dist (pt 0 0) (pt (-1 / 20) 1) ^ 2 = 401 / 400 := by
      rw [dist_pt, Real.sq_sqrt (by positivity)]; norm_num
    have h3 : 1 ≤ dist (pt 0 0) (pt (-1 / 20) 1) := by nlinarith [dist_nonneg (x := pt 0 0) (y := pt (-1 / 20) 1)]
    have h3' : dist (pt 0 0) (pt (-1 / 20) 1) < 2 := by nlinarith [dist_nonneg (x := pt 0 0) (y := pt (-1 / 20) 1)]
    have hc : triCos (ob 0 0 0, ob (-1 / 20) 1 2, ob 1 0 1) = (-1 / 20) / dist (pt 0 0) (pt (-1 / 20) 1) := by
      simp only [triCos, side1, side2, side3, ob_pos]
      rw [e1, e2, e3, div_eq_div_iff (by positivity) (by positivity)]
      ring
    refine sasBin_in ?_ ?_ ?_ ?_ ?_ ?_ ?_
    · simp only [side2, ob_pos]; linarith
    · simp only [side2, ob_pos]; linarith
    · simpa [side3] using h3
    · simp only [side3, ob_pos]; linarith
    · refine le_arccos_of (by linarith) (by linarith) ?_
      rw [hc, Real.cos_pi_div_two]
      exact div_nonpos_of_nonpos_of_nonneg (by norm_num) dist_nonneg
    · refine arccos_lt_of hpi.le le_rfl ?_ ?_
      · rw [hc, div_le_one (by linarith)]
        linarith
      · rw [hc, Real.cos_pi, lt_div_iff₀ (by linarith)]
        linarith
    · norm_num [flatMetric3, pt]
  · obtain ⟨l, r, -, -, -, -, -, h2⟩ := field_two (sortAlg _ 0) exFp 1 (-1 / 20) 0 1 1 2 (by norm_num [exFp]) (by norm_num [exFp])
      (by norm_num [exFp])
    rw [cells_one, h2]
    refine cross12_skip _ _ _ _ _ (Or.inr (Or.inr (Or.inl (Or.inr ?_))))
    simp only [Cell.size, sasBin]
    rw [Real.sqrt_lt' (by positivity)]
    nlinarith

/-- **C55, negation for `max_phi < π/3`.** The centre of the cell of the first point sees an angle of 74 degrees, more than `max_phi = π/4`,
and the code concludes that no point of the cell sees less than `max_phi`, as `phi - dphi < 0` is not taken care of.  The triangle
(-75/17,0), (4,3), (4,-3), of angle 39 degrees, is in the bin and is not counted. -/
theorem sas_maxphi_wrong : ∃ (p : Prm3) (l1 l2 l3 : List (Obj (EuclideanSpace ℝ (Fin 2)))) (t : Obj _ × Obj _ × Obj _)
    (es : List (Emit3 _)), SasParams p ∧ p.b = 0 ∧ p.minu = 0 ∧ (∀ o ∈ l1 ++ l2 ++ l3, o.Valid ∧ o.w = 1) ∧
    t ∈ crossTriples l1 l2 l3 ∧ inSas p flatMetric3.ccw 0 t ∧
    processCross123 (binSAS p flatMetric3) flatMetric3 .fixed (buildField (sortAlg _ 0) (euclidGeom 2) exFp l1).cells
      (buildField (sortAlg _ 0) (euclidGeom 2) exFp l2).cells (buildField (sortAlg _ 0) (euclidGeom 2) exFp l3).cells = some es ∧
    ∀ k, (accumulate3 Acc3.zero es).ntri k = 0 := by
  have hpi := Real.pi_pos
  have s2 : Real.sqrt 2 ^ 2 = 2 := Real.sq_sqrt (by norm_num)
  have s2p := Real.sqrt_nonneg 2
  have s2a : 1.4 < Real.sqrt 2 := Real.lt_sqrt_of_sq_lt (by norm_num)
  have s2b : Real.sqrt 2 < 1.42 := by rw [Real.sqrt_lt' (by norm_num)]; norm_num
  refine ⟨sasBin 0 (Real.pi / 4), [ob (-75 / 17) 0 0, ob (75 / 17) 0 1], [ob 4 3 2], [ob 4 (-3) 3],
    (ob (-75 / 17) 0 0, ob 4 3 2, ob 4 (-3) 3), [],
    sasBin_ok le_rfl (by linarith) (by linarith), rfl, rfl, by simp [ob_valid], ?_, ?_, ?_, fun k => rfl⟩
  · simp [crossTriples]
  · have e1 : dist (pt 4 3) (pt 4 (-3)) ^ 2 = 36 := by
      rw [dist_pt, Real.sq_sqrt (by positivity)]; norm_num
    have e2 : dist (pt (-75 / 17) 0) (pt 4 (-3)) ^ 2 = 23050 / 289 := by
      rw [dist_pt, Real.sq_sqrt (by positivity)]; norm_num
    have e3 : dist (pt (-75 / 17) 0) (pt 4 3) = dist (pt (-75 / 17) 0) (pt 4 (-3)) := by
      rw [dist_pt, dist_pt]; norm_num
    have h0 : 0 ≤ dist (pt (-75 / 17) 0) (pt 4 (-3)) := dist_nonneg
    have h3 : 1 ≤ dist (pt (-75 / 17) 0) (pt 4 (-3)) := by nlinarith
    have h3' : dist (pt (-75 / 17) 0) (pt 4 (-3)) < 10 := by nlinarith
    have hc : triCos (ob (-75 / 17) 0 0, ob 4 3 2, ob 4 (-3) 3) = 35696 / 46100 := by
      simp only [triCos, side1, side2, side3, ob_pos]
      rw [e3, e1, mul_assoc, ← sq, e2]
      norm_num
    refine sasBin_in ?_ ?_ ?_ ?_ (Real.arccos_nonneg _) ?_ ?_
    · simpa [side2] using h3
    · simp only [side2, ob_pos]; linarith
    · simpa [side3, e3] using h3
    · simp only [side3, ob_pos, e3]; linarith
    · refine arccos_lt_of (by linarith) (by linarith) ?_ ?_
      · rw [hc]; norm_num
      · rw [hc, Real.cos_pi_div_four]
        linarith
    · norm_num [flatMetric3, pt]
  · obtain ⟨l, r, -, -, -, -, -, h1⟩ := field_two (sortAlg _ 0) exFp (-75 / 17) (75 / 17) 0 0 0 1 (by norm_num [exFp])
      (by norm_num [exFp]) (by norm_num [exFp])
    have hs : Real.sqrt (((75 / 17 - -75 / 17) / 2) ^ 2 + ((0 - 0) / 2) ^ 2) = 75 / 17 := by
      rw [show ((75 / 17 - -75 / 17) / 2 : ℝ) ^ 2 + ((0 - 0) / 2) ^ 2 = (75 / 17) ^ 2 by norm_num, Real.sqrt_sq (by norm_num)]
    rw [cells_one, cells_one, h1]
    refine cross123_drop _ _ _ _ _ (sasAct_stop ?_)
    have d1 : ‖pt 4 3 - pt 4 (-3)‖ ^ 2 = 36 := by
      rw [← dist_eq_norm, dist_pt, Real.sq_sqrt (by positivity)]; norm_num
    have d2 : ‖pt 0 0 - pt 4 (-3)‖ ^ 2 = 5 ^ 2 := by
      rw [← dist_eq_norm, dist_pt, Real.sq_sqrt (by positivity)]; norm_num
    have d3 : ‖pt 0 0 - pt 4 3‖ ^ 2 = 5 ^ 2 := by
      rw [← dist_eq_norm, dist_pt, Real.sq_sqrt (by positivity)]; norm_num
    have z : pt ((-75 / 17 + 75 / 17) / 2) ((0 + 0) / 2) = pt 0 0 := by norm_num
    simp only [sasOut, Cell.pos, Cell.data, Cell.size, z, hs, flatMetric3, ob_pos, d1, d2, d3]
    have e5 : Real.sqrt (5 ^ 2) = 5 := Real.sqrt_sq (by norm_num)
    refine stop_maxphi (by norm_num [pt]) (by rw [e5]; norm_num) (by rw [e5]; norm_num) (by norm_num) le_rfl ?_
    rw [e5]
    have hcos : cosPhi 36 (5 ^ 2) (5 ^ 2) 5 5 = 7 / 25 := by norm_num [cosPhi]
    have hmin : (sasBin 0 (Real.pi / 4)).minCos = Real.sqrt 2 / 2 := by
      rw [sasBin_minCos (by linarith), Real.cos_zero, Real.cos_pi_div_four, min_eq_right (by linarith)]
    have hsp : Real.sqrt (1 - 7 / 25 * (7 / 25)) = 24 / 25 := by
      rw [show (1 - 7 / 25 * (7 / 25) : ℝ) = (24 / 25) ^ 2 by norm_num, Real.sqrt_sq (by norm_num)]
    have hcd : Real.sqrt (1 - ((75 / 17 + 0) / 5) ^ 2) = 8 / 17 := by
      rw [show (1 - ((75 / 17 + 0) / 5) ^ 2 : ℝ) = (8 / 17) ^ 2 by norm_num, Real.sqrt_sq (by norm_num)]
    have hsq : signedSq (sasBin 0 (Real.pi / 4)).minCos = 1 / 2 := by
      rw [hmin, signedSq, if_neg (not_lt.2 (by positivity))]
      nlinarith
    refine sasMaxPhi_true (by show Real.pi / 4 < Real.pi; linarith) (by rw [hcos, hmin]; linarith) (by norm_num) (by norm_num)
      (by rw [hsq]; norm_num) (by rw [hsq]; norm_num) (by rw [hcd, hmin]; norm_num; linarith) ?_
    rw [hcos, hsp, hcd, hmin]
    norm_num
    linarith

/-- **C55, negation for `min_phi > 2π/3`.** The centre of the cell of the first point sees an angle just under `min_phi = 3π/4` and the code
concludes that no point sees more, because `cos(phi + dphi)` grows again when `phi + dphi > π`.  The triangle (9.6,4), (-12,5), (12,5), of
angle 155 degrees, is in the bin and is not counted. -/
theorem sas_minphi_wide_wrong : ∃ (p : Prm3) (l1 l2 l3 : List (Obj (EuclideanSpace ℝ (Fin 2)))) (t : Obj _ × Obj _ × Obj _)
    (es : List (Emit3 _)), SasParams p ∧ p.b = 0 ∧ p.maxu = Real.pi ∧ (∀ o ∈ l1 ++ l2 ++ l3, o.Valid ∧ o.w = 1) ∧
    t ∈ crossTriples l1 l2 l3 ∧ inSas p flatMetric3.ccw 0 t ∧
    processCross123 (binSAS p flatMetric3) flatMetric3 .fixed (buildField (sortAlg _ 0) (euclidGeom 2) exFp l1).cells
      (buildField (sortAlg _ 0) (euclidGeom 2) exFp l2).cells (buildField (sortAlg _ 0) (euclidGeom 2) exFp l3).cells = some es ∧
    ∀ k, (accumulate3 Acc3.zero es).ntri k = 0 := by
  have hpi := Real.pi_pos
  have s2 : Real.sqrt 2 ^ 2 = 2 := Real.sq_sqrt (by norm_num)
  have s2p := Real.sqrt_nonneg 2
  have s2a : 1.414 < Real.sqrt 2 := Real.lt_sqrt_of_sq_lt (by norm_num)
  have s2b : Real.sqrt 2 < 1.415 := by rw [Real.sqrt_lt' (by norm_num)]; norm_num
  have hc34 : Real.cos (3 * Real.pi / 4) = -(Real.sqrt 2 / 2) := by
    rw [show 3 * Real.pi / 4 = Real.pi - Real.pi / 4 by ring, Real.cos_pi_sub, Real.cos_pi_div_four]
  refine ⟨sasBin (3 * Real.pi / 4) Real.pi, [ob (48 / 5) 4 0, ob (-48 / 5) (-4) 1], [ob (-12) 5 2], [ob 12 5 3],
    (ob (48 / 5) 4 0, ob (-12) 5 2, ob 12 5 3), [],
    sasBin_ok (by linarith) (by linarith) le_rfl, rfl, rfl, by simp [ob_valid], ?_, ?_, ?_, fun k => rfl⟩
  · simp [crossTriples]
  · have e1 : dist (pt (-12) 5) (pt 12 5) ^ 2 = 576 := by
      rw [dist_pt, Real.sq_sqrt (by positivity)]; norm_num
    have e2 : dist (pt (48 / 5) 4) (pt 12 5) = 13 / 5 := by
      rw [dist_pt, show ((48 / 5 - 12 : ℝ)) ^ 2 + (4 - 5) ^ 2 = (13 / 5) ^ 2 by norm_num, Real.sqrt_sq (by norm_num)]
    have e3 : dist (pt (48 / 5) 4) (pt (-12) 5) ^ 2 = 11689 / 25 := by
      rw [dist_pt, Real.sq_sqrt (by positivity)]; norm_num
    have h0 : 0 ≤ dist (pt (48 / 5) 4) (pt (-12) 5) := dist_nonneg
    have h3 : 21 < dist (pt (48 / 5) 4) (pt (-12) 5) := by nlinarith
    have h3' : dist (pt (48 / 5) 4) (pt (-12) 5) < 22 := by nlinarith
    have hc : triCos (ob (48 / 5) 4 0, ob (-12) 5 2, ob 12 5 3) = (-1271 / 65) / dist (pt (48 / 5) 4) (pt (-12) 5) := by
      simp only [triCos, side1, side2, side3, ob_pos]
      rw [e2, e1, e3, div_eq_div_iff (by positivity) (by positivity)]
      ring
    refine sasBin_in ?_ ?_ ?_ ?_ ?_ ?_ ?_
    · simp only [side2, ob_pos, e2]; norm_num
    · simp only [side2, ob_pos, e2]; norm_num
    · simp only [side3, ob_pos]; linarith
    · simp only [side3, ob_pos]; linarith
    · refine le_arccos_of (show 0 ≤ 3 * Real.pi / 4 by linarith) (by linarith) ?_
      rw [hc, hc34, div_le_iff₀ (by linarith)]
      nlinarith
    · refine arccos_lt_of hpi.le le_rfl ?_ ?_
      · rw [hc, div_le_one (by linarith)]
        linarith
      · rw [hc, Real.cos_pi, lt_div_iff₀ (by linarith)]
        linarith
    · norm_num [flatMetric3, pt]
  · obtain ⟨l, r, -, -, -, -, -, h1⟩ := field_two (sortAlg _ 0) exFp (48 / 5) (-48 / 5) 4 (-4) 0 1 (by norm_num [exFp])
      (by norm_num [exFp]) (by norm_num [exFp])
    have hs : Real.sqrt (((-48 / 5 - 48 / 5) / 2) ^ 2 + ((-4 - 4) / 2) ^ 2) = 52 / 5 := by
      rw [show ((-48 / 5 - 48 / 5) / 2 : ℝ) ^ 2 + ((-4 - 4) / 2) ^ 2 = (52 / 5) ^ 2 by norm_num, Real.sqrt_sq (by norm_num)]
    rw [cells_one, cells_one, h1]
    refine cross123_drop _ _ _ _ _ (sasAct_stop ?_)
    have d1 : ‖pt (-12) 5 - pt 12 5‖ ^ 2 = 576 := by
      rw [← dist_eq_norm, dist_pt, Real.sq_sqrt (by positivity)]; norm_num
    have d2 : ‖pt 0 0 - pt 12 5‖ ^ 2 = 13 ^ 2 := by
      rw [← dist_eq_norm, dist_pt, Real.sq_sqrt (by positivity)]; norm_num
    have d3 : ‖pt 0 0 - pt (-12) 5‖ ^ 2 = 13 ^ 2 := by
      rw [← dist_eq_norm, dist_pt, Real.sq_sqrt (by positivity)]; norm_num
    have z : pt ((48 / 5 + -48 / 5) / 2) ((4 + -4) / 2) = pt 0 0 := by norm_num
    simp only [sasOut, Cell.pos, Cell.data, Cell.size, z, hs, flatMetric3, ob_pos, d1, d2, d3]
    have e5 : Real.sqrt (13 ^ 2) = 13 := Real.sqrt_sq (by norm_num)
    refine stop_minphi (by norm_num [pt]) (by rw [e5]; norm_num) (by rw [e5]; norm_num) ?_
    rw [e5]
    have hcos : cosPhi 576 (13 ^ 2) (13 ^ 2) 13 13 = -119 / 169 := by norm_num [cosPhi]
    have hmax : (sasBin (3 * Real.pi / 4) Real.pi).maxCos = -(Real.sqrt 2 / 2) := by
      rw [sasBin_maxCos (by linarith), Real.cos_pi, hc34, max_eq_left (by linarith)]
    have hsp : Real.sqrt (1 - -119 / 169 * (-119 / 169)) = 120 / 169 := by
      rw [show (1 - -119 / 169 * (-119 / 169) : ℝ) = (120 / 169) ^ 2 by norm_num, Real.sqrt_sq (by norm_num)]
    have hcd : Real.sqrt (1 - ((52 / 5 + 0) / 13) ^ 2) = 3 / 5 := by
      rw [show (1 - ((52 / 5 + 0) / 13) ^ 2 : ℝ) = (3 / 5) ^ 2 by norm_num, Real.sqrt_sq (by norm_num)]
    have hsq : signedSq (sasBin (3 * Real.pi / 4) Real.pi).maxCos = -1 / 2 := by
      rw [hmax, signedSq, if_pos (by linarith)]
      nlinarith
    refine sasMinPhi_true (by show 0 < 3 * Real.pi / 4; linarith) (by rw [hcos, hmax]; linarith) (by norm_num) (by norm_num)
      (by norm_num) (by rw [hsq]; norm_num) (by rw [hsq]; norm_num) (by rw [hcd, hmax]; norm_num; linarith) ?_
    rw [hcos, hsp, hcd, hmax]
    norm_num
    linarith

/-! ### In space -/

/-- A point in space. -/
def spt (x y z : ℝ) : EuclideanSpace ℝ (Fin 3) := !₂[x, y, z]

/-- A row in space with weight 1. -/
def sob (x y z : ℝ) (i : ℕ) : Obj (EuclideanSpace ℝ (Fin 3)) := { pos := spt x y z, w := 1, wk := 0, idx := i }

@[simp] theorem sob_pos (x y z : ℝ) (i : ℕ) : (sob x y z i).pos = spt x y z := rfl
theorem spt_0 (x y z : ℝ) : spt x y z 0 = x := rfl
theorem spt_1 (x y z : ℝ) : spt x y z 1 = y := rfl
theorem spt_2 (x y z : ℝ) : spt x y z 2 = z := rfl

theorem sob_valid (x y z : ℝ) (i : ℕ) : (sob x y z i).Valid := by simp [sob, Obj.Valid]

theorem dist_spt (x y z x' y' z' : ℝ) :
    dist (spt x y z) (spt x' y' z') = Real.sqrt ((x - x') ^ 2 + (y - y') ^ 2 + (z - z') ^ 2) := by
  rw [EuclideanSpace.dist_eq]
  simp [spt, Fin.sum_univ_three, Real.dist_eq, sq_abs]

theorem norm_spt (x y z x' y' z' : ℝ) :
    ‖spt x y z - spt x' y' z'‖ ^ 2 = (x - x') ^ 2 + (y - y') ^ 2 + (z - z') ^ 2 := by
  rw [← dist_eq_norm, dist_spt, Real.sq_sqrt (by positivity)]

theorem smean_two (x1 x2 y1 y2 z1 z2 : ℝ) (i j : ℕ) :
    (euclidGeom 3).mean [sob x1 y1 z1 i, sob x2 y2 z2 j] = spt ((x1 + x2) / 2) ((y1 + y2) / 2) ((z1 + z2) / 2) := by
  ext k
  fin_cases k <;> simp [euclidGeom, wmean, sob, spt] <;> ring

/-- **C55, negation in space with a given order.** For a correlation of three catalogues with `ordered=True` the code throws away cells
whose centres have the wrong orientation when the directions from the first cannot turn enough to change it; but in space the three
rows can have the right orientation without that, the orientation being judged from the origin.  With the catalogues {(0,0,10)},
{(1,0,10)}, {(0,-0.3,11), (0,0.1,11)} the triangle with the last row has the right orientation, is in the bin, and is not counted. -/
theorem sas_space_wrong : ∃ (p : Prm3) (l1 l2 l3 : List (Obj (EuclideanSpace ℝ (Fin 3)))) (t : Obj _ × Obj _ × Obj _)
    (es : List (Emit3 _)), SasParams p ∧ p.b = 0 ∧ p.minu = 0 ∧ p.maxu = Real.pi ∧ (∀ o ∈ l1 ++ l2 ++ l3, o.Valid ∧ o.w = 1) ∧
    t ∈ crossTriples l1 l2 l3 ∧ inSas p spaceMetric3.ccw 0 t ∧
    processCross123 (binSAS p spaceMetric3) spaceMetric3 .fixed (buildField (sortAlg _ 0) (euclidGeom 3) exFp l1).cells
      (buildField (sortAlg _ 0) (euclidGeom 3) exFp l2).cells (buildField (sortAlg _ 0) (euclidGeom 3) exFp l3).cells = some es ∧
    ∀ k, (accumulate3 Acc3.zero es).ntri k = 0 := by
  have hpi := Real.pi_pos
  refine ⟨sasBin 0 Real.pi, [sob 0 0 10 0], [sob 1 0 10 1], [sob 0 (-3 / 10) 11 2, sob 0 (1 / 10) 11 3],
    (sob 0 0 10 0, sob 1 0 10 1, sob 0 (1 / 10) 11 3), [], sasBin_ok le_rfl hpi le_rfl, rfl, rfl, rfl, ?_, ?_, ?_, ?_, fun k => rfl⟩
  · intro o ho
    simp only [List.cons_append, List.nil_append, List.mem_cons, List.not_mem_nil, or_false] at ho
    rcases ho with rfl | rfl | rfl | rfl <;> exact ⟨sob_valid _ _ _ _, rfl⟩
  · simp [crossTriples]
  · have e1 : dist (spt 1 0 10) (spt 0 (1 / 10) 11) ^ 2 = 201 / 100 := by
      rw [dist_eq_norm, norm_spt]; norm_num
    have e2 : dist (spt 0 0 10) (spt 0 (1 / 10) 11) ^ 2 = 101 / 100 := by
      rw [dist_eq_norm, norm_spt]; norm_num
    have e3 : dist (spt 0 0 10) (spt 1 0 10) = 1 := by
      rw [dist_spt]; norm_num
    have h0 : 0 ≤ dist (spt 0 0 10) (spt 0 (1 / 10) 11) := dist_nonneg
    have hc : triPhi (sob 0 0 10 0, sob 1 0 10 1, sob 0 (1 / 10) 11 3) = Real.pi / 2 := by
      have : triCos (sob 0 0 10 0, sob 1 0 10 1, sob 0 (1 / 10) 11 3) = 0 := by
        simp only [triCos, side1, side2, side3, sob_pos]
        rw [e1, e2, e3]
        norm_num
      rw [triPhi, this, Real.arccos_zero]
    refine sasBin_in ?_ ?_ ?_ ?_ ?_ ?_ ?_
    · simp only [side2, sob_pos]; nlinarith
    · simp only [side2, sob_pos]; nlinarith
    · simp only [side3, sob_pos, e3]; norm_num
    · simp only [side3, sob_pos, e3]; norm_num
    · rw [hc]; linarith
    · rw [hc]; linarith
    · norm_num [spaceMetric3, spt_0, spt_1, spt_2]
  · have hmean : (euclidGeom 3).mean [sob 0 (-3 / 10) 11 2, sob 0 (1 / 10) 11 3] = spt 0 (-1 / 10) 11 := by
      rw [smean_two]; norm_num
    have hq : calcSizeSq (euclidGeom 3) ((euclidGeom 3).mean [sob 0 (-3 / 10) 11 2, sob 0 (1 / 10) 11 3])
        [sob 0 (-3 / 10) 11 2, sob 0 (1 / 10) 11 3] = (1 / 5) ^ 2 := by
      rw [hmean]
      simp only [calcSizeSq, List.foldl, euclidGeom, sob_pos, norm_spt]
      norm_num
    obtain ⟨l, r, h3⟩ := cells_two (sortAlg _ 0) (euclidGeom 3) exFp _ _ _ hq (by norm_num [exFp]) (by norm_num [exFp])
      (by norm_num [exFp])
    rw [cells_one, cells_one, h3]
    refine cross123_drop _ _ _ _ _ (sasAct_stop ?_)
    have hpos : (cellData (euclidGeom 3) [sob 0 (-3 / 10) 11 2, sob 0 (1 / 10) 11 3]).pos = spt 0 (-1 / 10) 11 := hmean
    simp only [sasOut, Cell.pos, Cell.data, Cell.size, hpos, Real.sqrt_sq (show (0 : ℝ) ≤ 1 / 5 by norm_num), spaceMetric3, sob_pos, norm_spt]
    have hs : (1 : ℝ) ≤ Real.sqrt ((0 - 0) ^ 2 + (0 - -1 / 10) ^ 2 + (10 - 11) ^ 2) := Real.le_sqrt_of_sq_le (by norm_num)
    have hs1 : Real.sqrt ((0 - 1) ^ 2 + (0 - 0) ^ 2 + (10 - 10) ^ 2) = (1 : ℝ) := by norm_num
    refine stop_wrongside (by norm_num [spt_0, spt_1, spt_2]) (by rw [hs1]; norm_num) (by linarith) ?_
    have hcos : ∀ x y, cosPhi ((1 - 0) ^ 2 + (0 - -1 / 10) ^ 2 + (10 - 11) ^ 2) ((0 - 0) ^ 2 + (0 - -1 / 10) ^ 2 + (10 - 11) ^ 2)
        ((0 - 1) ^ 2 + (0 - 0) ^ 2 + (10 - 10) ^ 2) x y = 0 := by
      intro x y
      norm_num [cosPhi]
    rw [hcos]
    refine ⟨fun h => ?_, fun h => ?_, fun h => ?_⟩
    · norm_num at h
    · have h2 := h.2
      rw [if_pos (by norm_num), if_pos (by norm_num)] at h2
      have : ((0 + 1 / 5) / Real.sqrt ((0 - 0) ^ 2 + (0 - -1 / 10) ^ 2 + (10 - 11) ^ 2)) ^ 2 ≤ (1 : ℝ) ^ 2 :=
        pow_le_pow_left₀ (by positivity) ((div_le_one (by linarith)).2 (by linarith)) 2
      norm_num at h2 this
      linarith
    · have := h.1.1
      norm_num at this

end
end TreeCorr
