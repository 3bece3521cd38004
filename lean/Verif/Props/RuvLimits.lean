import Verif.Props.Corr3
import Verif.Proofs.Witness3

/-!
C53: limits on `v` in `LogRUV` bins.  The theorems of `Verif.Props.Corr3` allow `max_v < 1` in a space with Ptolemy's inequality, and
`min_v > 0` as well with three catalogues and `ordered=True`.  Here: cases that meet the
hypotheses, and the triangles that `min_v > 0` loses when the order is not fixed.
-/

namespace TreeCorr
open Classical
noncomputable section

/-! ### The theorems with limits on `v` -/

/-- The bins of `exRuv` with `|v|` between `x` and `y`, in one bin. -/
def ruvBetween (x y : ℝ) : Prm3 := { exRuv with minv := x, maxv := y, nvbins := 1, vbinsize := y - x }

theorem ruvBetween_ok {x y : ℝ} (h0 : 0 ≤ x) (h : x < y) (h1 : y ≤ 1) : RuvParams (ruvBetween x y) := by
  have := exRuv_ok
  constructor <;> norm_num [ruvBetween, exRuv] <;> linarith

/-- The triangle with sides 5, 4, 3 has `|v| = 1/3`. -/
theorem ex345_between {x y : ℝ} (h0 : x ≤ 1 / 3) (h1 : 1 / 3 < y) :
    inRuv (ruvBetween x y) flatMetric3.ccw 14 (ob 0 0 0, ob 0 3 1, ob 4 0 2) := by
  refine ⟨1, 3, 0, ⟨?_, ?_, ?_, ?_, ?_, ?_⟩, ?_⟩
  · norm_num [side1, side2, d_345, d_origin_4]
  · norm_num [side3, side2, d_origin_3, d_origin_4]
  · simp [side3, d_origin_3]
  · simpa [side2, d_origin_4, exRuv, ruvBetween] using inLog1 4 (by norm_num) le_rfl
  · simp [InLinBin, linEdge, triU, side3, side2, d_origin_3, d_origin_4, exRuv, ruvBetween]
    norm_num
  · have e : triV (ob 0 0 0, ob 0 3 1, ob 4 0 2) = 1 / 3 := by
      simp [triV, side1, side3, side2, d_origin_3, d_origin_4, d_345]; norm_num
    rw [e]
    simp only [InLinBin, linEdge, ruvBetween]
    refine ⟨le_rfl, by norm_num, ?_, ?_⟩ <;> push_cast <;> linarith
  · have : ¬ flatMetric3.ccw (pt 0 0) (pt 0 3) (pt 4 0) := by
      simp [flatMetric3, pt]
    show 14 = ruvPlace (ruvBetween x y) 1 3 0 (flatMetric3.ccw (pt 0 0) (pt 0 3) (pt 4 0))
    rw [ruvPlace, if_neg this]
    norm_num [exRuv, ruvBetween]

/-- C53 with `max_v = 1/2`, one catalogue with the rows (0,0), (0,3), (4,0): the triangle is in range and is counted. -/
example : ∃ es, processAuto3 (binRUV (ruvBetween 0 (1 / 2)) flatMetric3) flatMetric3 (ruvBetween 0 (1 / 2)).minsep
    (buildField (sortAlg _ 0) (euclidGeom 2) exFp [ob 0 0 0, ob 0 3 1, ob 4 0 2]).cells = some es ∧
    1 ≤ (accumulate3 Acc3.zero es).ntri 14 := by
  obtain ⟨es, h, hk⟩ := auto_ruv_exact_partial (sortAlg _ 0) (euclidGeom 2) (euclidGeom_dominates 2) exFp rfl
    (ruvBetween_ok (x := 0) (y := 1 / 2) le_rfl (by norm_num) (by norm_num)) rfl (Or.inr (euclid_ptolemaic 2)) rfl
    rfl flatMetric3_of [ob 0 0 0, ob 0 3 1, ob 4 0 2] (by simp [ob_valid]) (by
      rintro t ht e k ⟨_, _, _, hin, _⟩
      have := ex345_out ht hin.1 hin.2.1
      subst this
      simp [side1, side2, d_345, d_origin_4] at e)
  refine ⟨es, h, ?_⟩
  have hmem : (ob 0 0 0, ob 0 3 1, ob 4 0 2) ∈ (orderedTriples [ob 0 0 0, ob 0 3 1, ob 4 0 2]).filter
      (inRuv (ruvBetween 0 (1 / 2)) flatMetric3.ccw 14) := by
    refine Multiset.mem_filter.2 ⟨?_, ex345_between (by norm_num) (by norm_num)⟩
    simp [orderedTriples, autoTriples, autoPairs, orders6]
  have hw : ∀ t ∈ (orderedTriples [ob 0 0 0, ob 0 3 1, ob 4 0 2]).filter
      (inRuv (ruvBetween 0 (1 / 2)) flatMetric3.ccw 14), t = (ob 0 0 0, ob 0 3 1, ob 4 0 2) := by
    intro t ht
    obtain ⟨ht, _, _, _, hin, _⟩ := Multiset.mem_filter.1 ht
    exact ex345_out ht hin.1 hin.2.1
  rw [(hk 14).ntri (by
    intro t ht
    rw [hw t ht]
    simp [ob])]
  simp only [brute3N]
  have := Multiset.card_pos_iff_exists_mem.2 ⟨_, hmem⟩
  exact_mod_cast this

/-- C53 with `min_v = 1/4`, `max_v = 1/2`, three catalogues with `ordered=True`. -/
example : ∃ es, processCross123 (binRUV (ruvBetween (1 / 4) (1 / 2)) flatMetric3) flatMetric3 .fixed
    (buildField (sortAlg _ 0) (euclidGeom 2) exFp [ob 0 0 0]).cells (buildField (sortAlg _ 0) (euclidGeom 2) exFp [ob 0 3 1]).cells
    (buildField (sortAlg _ 0) (euclidGeom 2) exFp [ob 4 0 2]).cells = some es ∧
    (accumulate3 Acc3.zero es).ntri 14 = 1 := by
  obtain ⟨es, h, hk⟩ := cross123_ruv_exact_partial (sortAlg _ 0) (sortAlg _ 0) (sortAlg _ 0) (euclidGeom 2) (euclidGeom_dominates 2)
    exFp exFp exFp rfl rfl rfl (ruvBetween_ok (x := 1 / 4) (y := 1 / 2) (by norm_num) (by norm_num) (by norm_num))
    (Or.inr (euclid_ptolemaic 2)) rfl rfl flatMetric3_of [ob 0 0 0] [ob 0 3 1] [ob 4 0 2] (by simp [ob_valid]) (by simp [ob_valid])
    (by simp [ob_valid])
  refine ⟨es, h, ?_⟩
  have e : (crossTriples [ob 0 0 0] [ob 0 3 1] [ob 4 0 2]).filter (inRuv (ruvBetween (1 / 4) (1 / 2)) flatMetric3.ccw 14) =
      {(ob 0 0 0, ob 0 3 1, ob 4 0 2)} := by
    have e : crossTriples [ob 0 0 0] [ob 0 3 1] [ob 4 0 2] = {(ob 0 0 0, ob 0 3 1, ob 4 0 2)} := by
      simp [crossTriples]
    rw [e, Multiset.filter_singleton, if_pos (ex345_between (by norm_num) (by norm_num))]
  rw [(hk 14).ntri (by rw [e]; simp [ob]), e]
  simp [brute3N]

/-! ### `min_v > 0` when the order is not fixed -/

/-- Three cells whose triple is dropped at once, when a single order is tried. -/
theorem cross123_drop1 {P : Type} (B : Bin3 P) (M : Metric3 P) (O O' : Ord3) (σ : Perm3) (c1 c2 c3 : Cell P)
    (ha : arrange M B.sort B.swap23 O c1.pos c2.pos c3.pos = [(O', σ)])
    (h : B.act O' (σ.apply c1 c2 c3).1 (σ.apply c1 c2 c3).2.1 (σ.apply c1 c2 c3).2.2 = .drop) :
    processCross123 B M O [c1] [c2] [c3] = some [] := by
  have hn : c1.nodes + c2.nodes + c3.nodes = (c1.nodes + c2.nodes + c3.nodes - 1) + 1 := by
    have := c1.nodes_pos
    omega
  have e : process111 B M O c1 c2 c3 = some [] := by
    unfold process111
    rw [hn, process111N]
    split
    · rfl
    · rw [ha]
      simp [concatM, h]
  simp [processCross123, concatM, loop111, e]

/-- The test with `min_v` ends the search. -/
theorem ruvAct_minv {P : Type} {p : Prm3} {M : Metric3 P} {O : Ord3} {c1 c2 c3 : Cell P} (h0 : 0 < p.minv)
    (h1 : (c1.size + c2.size) ^ 2 < M.distSq c1.pos c2.pos) (h2 : Real.sqrt (M.distSq c1.pos c3.pos) ≠ 0)
    (h3 : ((M.distSq c2.pos c3.pos - M.distSq c1.pos c3.pos) / (2 * Real.sqrt (M.distSq c1.pos c3.pos)) +
      (c1.size + c2.size + c3.size) + p.minv * (c1.size + c2.size)) ^ 2 < p.minv * p.minv * M.distSq c1.pos c2.pos) :
    ruvAct p M O c1 c2 c3 = .drop := by
  unfold ruvAct
  simp only
  rw [if_pos]
  unfold ruvStop
  exact Or.inr (Or.inr (Or.inr (Or.inr (Or.inr (Or.inr (Or.inl ⟨h0, h1, h2, h3⟩))))))

/-- `d2` from 1 to `exp 6` in one bin, `u` from 0 to 1 in one bin, `|v|` from `x` to 1 in one bin, no slop. -/
def minvBin (x : ℝ) : Prm3 :=
  { minsep := 1, maxsep := Real.exp 6, nbins := 1, binsize := 6, b := 0, a := 1 / 10, minu := 0, maxu := 1, nubins := 1,
    ubinsize := 1, bu := 0, minv := x, maxv := 1, nvbins := 1, vbinsize := 1 - x, bv := 0 }

theorem minvBin_ok {x : ℝ} (h0 : 0 ≤ x) (h : x < 1) : RuvParams (minvBin x) := by
  constructor <;> norm_num [minvBin] <;> linarith

def minvFp : FieldParams := { exFp with maxsize := 200 }

theorem minvBin_log {x d : ℝ} (h1 : 1 ≤ d) (h2 : d ≤ 111) : InLogBin (minvBin x).minsep (minvBin x).binsize (minvBin x).nbins 0 d := by
  have h4 := exp4_gt
  have h := Real.exp_one_gt_d9
  have e : Real.exp 6 = Real.exp 4 * (Real.exp 1 * Real.exp 1) := by rw [← Real.exp_add, ← Real.exp_add]; norm_num
  have h6 : 111 < Real.exp 6 := by
    have : (2.7 : ℝ) * 2.7 ≤ Real.exp 1 * Real.exp 1 := mul_le_mul (by linarith) (by linarith) (by norm_num) (by linarith)
    rw [e]
    nlinarith
  refine ⟨le_rfl, by norm_num [minvBin], by simpa [logEdge, minvBin] using h1, ?_⟩
  simp only [logEdge, minvBin]
  norm_num
  linarith

/-- **C53, negation for `min_v > 0` with `ordered=False`.** Catalogues (0,0), (154,0) and {(63,60), (91,208)}, `min_v = 1/2`: the triangle
of (63,60), (0,0), (154,0) has sides 154, 109, 87, so `v = 45/87` is in range; it is not counted, because the pair of the third
catalogue as a whole looks equally far from both other points.  The comment in the code says it is fine if the sides change roles. -/
theorem ruv_minv_unordered_wrong : ∃ (p : Prm3) (l1 l2 l3 : List (Obj (EuclideanSpace ℝ (Fin 2)))),
    RuvParams p ∧ p.b = 0 ∧ p.bu = 0 ∧ p.bv = 0 ∧ (∀ o ∈ l1 ++ l2 ++ l3, o.Valid) ∧
    (∃ t ∈ mixed3Triples l1 l2 l3, inRuv p flatMetric3.ccw 1 t) ∧
    processCross123 (binRUV p flatMetric3) flatMetric3 .any (buildField (sortAlg _ 0) (euclidGeom 2) minvFp l1).cells
      (buildField (sortAlg _ 0) (euclidGeom 2) minvFp l2).cells (buildField (sortAlg _ 0) (euclidGeom 2) minvFp l3).cells = some [] := by
  have e1 : dist (pt 0 0) (pt 154 0) = 154 := by
    rw [dist_pt, show ((0 : ℝ) - 154) ^ 2 + (0 - 0) ^ 2 = 154 ^ 2 by norm_num, Real.sqrt_sq (by norm_num)]
  have e2 : dist (pt 63 60) (pt 154 0) = 109 := by
    rw [dist_pt, show ((63 : ℝ) - 154) ^ 2 + (60 - 0) ^ 2 = 109 ^ 2 by norm_num, Real.sqrt_sq (by norm_num)]
  have e3 : dist (pt 63 60) (pt 0 0) = 87 := by
    rw [dist_pt, show ((63 : ℝ) - 0) ^ 2 + (60 - 0) ^ 2 = 87 ^ 2 by norm_num, Real.sqrt_sq (by norm_num)]
  refine ⟨minvBin (1 / 2), [ob 0 0 0], [ob 154 0 0], [ob 63 60 0, ob 91 208 1], minvBin_ok (by norm_num) (by norm_num), rfl, rfl, rfl,
    by simp [ob_valid], ⟨(ob 63 60 0, ob 0 0 0, ob 154 0 0), ?_, 0, 0, 0, ⟨?_, ?_, ?_, ?_, ?_, ?_⟩, ?_⟩, ?_⟩
  · refine Multiset.mem_bind.2 ⟨(ob 0 0 0, ob 154 0 0, ob 63 60 0), ?_, ?_⟩
    · simp [crossTriples]
    · simp [orders6]
  · simp only [side1, side2, ob_pos, e1, e2]; norm_num
  · simp only [side3, side2, ob_pos, e3, e2]; norm_num
  · simp only [side3, ob_pos, e3]; norm_num
  · simp only [side2, ob_pos, e2]
    exact minvBin_log (by norm_num) (by norm_num)
  · simp only [InLinBin, linEdge, triU, side3, side2, ob_pos, e2, e3, minvBin]; norm_num
  · simp only [InLinBin, linEdge, triV, side1, side3, side2, ob_pos, e1, e2, e3, minvBin]; norm_num
  · have : flatMetric3.ccw (pt 63 60) (pt 0 0) (pt 154 0) := by norm_num [flatMetric3, pt]
    show 1 = ruvPlace _ 0 0 0 (flatMetric3.ccw (pt 63 60) (pt 0 0) (pt 154 0))
    rw [ruvPlace, if_pos this]
    norm_num [minvBin]
  · obtain ⟨l, r, -, -, -, -, -, h1⟩ := field_two (sortAlg _ 0) minvFp 63 91 60 208 0 1 (by norm_num [minvFp, exFp])
      (by norm_num [minvFp, exFp]) (by norm_num [minvFp, exFp])
    rw [cells_one, cells_one, h1]
    have d1 : ‖pt 154 0 - pt 77 134‖ ^ 2 = 23885 := by
      rw [← dist_eq_norm, dist_pt, Real.sq_sqrt (by positivity)]; norm_num
    have d2 : ‖pt 0 0 - pt 77 134‖ ^ 2 = 23885 := by
      rw [← dist_eq_norm, dist_pt, Real.sq_sqrt (by positivity)]; norm_num
    have d3 : ‖pt 0 0 - pt 154 0‖ ^ 2 = 154 ^ 2 := by
      rw [← dist_eq_norm, e1]
    have z : pt ((63 + 91) / 2) ((60 + 208) / 2) = pt 77 134 := by norm_num
    refine cross123_drop1 _ _ _ .any .p213 _ _ _ ?_ ?_
    · simp only [arrange, binRUV, Cell.pos, Cell.data, z, flatMetric3, ob_pos, d1, d2, d3]
      norm_num
    · have d2' : ‖pt 154 0 - pt 0 0‖ ^ 2 = 154 ^ 2 := by rw [norm_sub_rev, d3]
      refine ruvAct_minv (by norm_num [minvBin]) ?_ ?_ ?_ <;>
        simp only [Perm3.apply, Cell.pos, Cell.data, Cell.size, z, flatMetric3, ob_pos, d1, d2, d2', minvBin]
      · norm_num
      · positivity
      · have hs : Real.sqrt (((91 - 63) / 2) ^ 2 + ((208 - 60) / 2) ^ 2) ^ 2 = 5672 := by
          rw [Real.sq_sqrt (by positivity)]; norm_num
        have e : ((23885 - 23885) / (2 * Real.sqrt 23885) + (0 + 0 + Real.sqrt (((91 - 63) / 2) ^ 2 + ((208 - 60) / 2) ^ 2)) +
            1 / 2 * (0 + 0)) = Real.sqrt (((91 - 63) / 2) ^ 2 + ((208 - 60) / 2) ^ 2) := by
          rw [sub_self, zero_div]; ring
        rw [e, hs]
        norm_num

/-- **C53, negation for `min_v > 0` with `ordered=1`.** The first catalogue fixed as point 1, the other two in any order: (0,0), (92,0) and
{(-20,15), (206,-15)}, `min_v = 4/5`.  The triangle of (0,0), (-20,15), (92,0) has sides 113, 92, 25, so `v = 21/25`; it is not counted. -/
theorem ruv_minv_first_wrong : ∃ (p : Prm3) (l1 l2 l3 : List (Obj (EuclideanSpace ℝ (Fin 2)))),
    RuvParams p ∧ p.b = 0 ∧ p.bu = 0 ∧ p.bv = 0 ∧ (∀ o ∈ l1 ++ l2 ++ l3, o.Valid) ∧
    (∃ t ∈ crossTriples l1 l3 l2, inRuv p flatMetric3.ccw 0 t) ∧
    processCross123 (binRUV p flatMetric3) flatMetric3 .first (buildField (sortAlg _ 0) (euclidGeom 2) minvFp l1).cells
      (buildField (sortAlg _ 0) (euclidGeom 2) minvFp l2).cells (buildField (sortAlg _ 0) (euclidGeom 2) minvFp l3).cells = some [] := by
  have e1 : dist (pt (-20) 15) (pt 92 0) = 113 := by
    rw [dist_pt, show ((-20 : ℝ) - 92) ^ 2 + (15 - 0) ^ 2 = 113 ^ 2 by norm_num, Real.sqrt_sq (by norm_num)]
  have e2 : dist (pt 0 0) (pt 92 0) = 92 := by
    rw [dist_pt, show ((0 : ℝ) - 92) ^ 2 + (0 - 0) ^ 2 = 92 ^ 2 by norm_num, Real.sqrt_sq (by norm_num)]
  have e3 : dist (pt 0 0) (pt (-20) 15) = 25 := by
    rw [dist_pt, show ((0 : ℝ) - -20) ^ 2 + (0 - 15) ^ 2 = 25 ^ 2 by norm_num, Real.sqrt_sq (by norm_num)]
  refine ⟨minvBin (4 / 5), [ob 0 0 0], [ob 92 0 0], [ob (-20) 15 0, ob 206 (-15) 1], minvBin_ok (by norm_num) (by norm_num), rfl, rfl, rfl,
    by simp [ob_valid], ⟨(ob 0 0 0, ob (-20) 15 0, ob 92 0 0), ?_, 0, 0, 0, ⟨?_, ?_, ?_, ?_, ?_, ?_⟩, ?_⟩, ?_⟩
  · simp [crossTriples]
  · simp only [side1, side2, ob_pos, e1, e2]; norm_num
  · simp only [side3, side2, ob_pos, e3, e2]; norm_num
  · simp only [side3, ob_pos, e3]; norm_num
  · simp only [side2, ob_pos, e2]
    exact minvBin_log (by norm_num) (by norm_num)
  · simp only [InLinBin, linEdge, triU, side3, side2, ob_pos, e2, e3, minvBin]; norm_num
  · simp only [InLinBin, linEdge, triV, side1, side3, side2, ob_pos, e1, e2, e3, minvBin]; norm_num
  · have : ¬ flatMetric3.ccw (pt 0 0) (pt (-20) 15) (pt 92 0) := by norm_num [flatMetric3, pt]
    show 0 = ruvPlace _ 0 0 0 (flatMetric3.ccw (pt 0 0) (pt (-20) 15) (pt 92 0))
    rw [ruvPlace, if_neg this]
    norm_num [minvBin]
  · obtain ⟨l, r, -, -, -, -, -, h1⟩ := field_two (sortAlg _ 0) minvFp (-20) 206 15 (-15) 0 1 (by norm_num [minvFp, exFp])
      (by norm_num [minvFp, exFp]) (by norm_num [minvFp, exFp])
    rw [cells_one, cells_one, h1]
    have d1 : ‖pt 92 0 - pt 93 0‖ ^ 2 = 1 := by
      rw [← dist_eq_norm, dist_pt, Real.sq_sqrt (by positivity)]; norm_num
    have d2 : ‖pt 0 0 - pt 93 0‖ ^ 2 = 93 ^ 2 := by
      rw [← dist_eq_norm, dist_pt, Real.sq_sqrt (by positivity)]; norm_num
    have d3 : ‖pt 0 0 - pt 92 0‖ ^ 2 = 92 ^ 2 := by
      rw [← dist_eq_norm, e2]
    have z : pt ((-20 + 206) / 2) ((15 + -15) / 2) = pt 93 0 := by norm_num
    refine cross123_drop1 _ _ _ .first .p123 _ _ _ ?_ ?_
    · simp only [arrange, binRUV, Cell.pos, Cell.data, z, flatMetric3, ob_pos, d2, d3]
      norm_num
    · have e93 : Real.sqrt (93 ^ 2) = 93 := Real.sqrt_sq (by norm_num)
      refine ruvAct_minv (by norm_num [minvBin]) ?_ ?_ ?_ <;>
        simp only [Perm3.apply, Cell.pos, Cell.data, Cell.size, z, flatMetric3, ob_pos, d1, d2, d3, minvBin, e93]
      · norm_num
      · norm_num
      · have hs : Real.sqrt (((206 - -20) / 2) ^ 2 + ((-15 - 15) / 2) ^ 2) ≤ 114 := by
          rw [Real.sqrt_le_left (by norm_num)]
          norm_num
        have hs0 : 113 ≤ Real.sqrt (((206 - -20) / 2) ^ 2 + ((-15 - 15) / 2) ^ 2) := Real.le_sqrt_of_sq_le (by norm_num)
        generalize Real.sqrt (((206 - -20) / 2) ^ 2 + ((-15 - 15) / 2) ^ 2) = s at hs hs0
        refine (sq_lt_sq₀ (by linarith) (by norm_num : (0:ℝ) ≤ 4 / 5 * 92)).2 (by linarith) |>.trans_eq (by norm_num)

end
end TreeCorr
