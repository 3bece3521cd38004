import Verif.Props.Patch3
import Verif.Props.Periodic
import Verif.Props.Arc

/-!
C58–C60: cases that meet the hypotheses, and cases in which the claims fail.
-/

namespace TreeCorr
open Classical
noncomputable section

/-- The tree code with the bins of `exRuv`. -/
def triEx (nn : Bool) : Kit3 Acc3 (List (Obj (EuclideanSpace ℝ (Fin 2)))) :=
  triKit (sortAlg _ 0) (euclidGeom 2) exFp (binRUV exRuv flatMetric3) flatMetric3 exRuv (fun a b => a = b) nn

theorem triEx_good (nn : Bool) : (triEx nn).Good Acc3.Good :=
  triKit_good (euclidGeom_dominates 2) (by norm_num [exFp]) (ruv_rows3 exRuv flatMetric3_of) rfl exRuv_ok.minsep

/-- The three rows of the triangle with sides 3, 4, 5, each in its own patch. -/
def threePatches : List (ℕ × List (Obj (EuclideanSpace ℝ (Fin 2)))) := [(0, [ob 0 0 0]), (1, [ob 0 3 1]), (2, [ob 4 0 2])]

theorem ex345_tie {t : Obj (EuclideanSpace ℝ (Fin 2)) × Obj _ × Obj _} (ht : t ∈ orderedTriples [ob 0 0 0, ob 0 3 1, ob 4 0 2])
    (e : side1 t = side2 t) (k : ℤ) : ¬ inRuv exRuv flatMetric3.ccw k t := by
  rintro ⟨_, _, _, hin, _⟩
  have := ex345_out ht hin.1 hin.2.1
  subst this
  simp [side1, side2, d_345, d_origin_4] at e

theorem ex345_filter : (orderedTriples [ob 0 0 0, ob 0 3 1, ob 4 0 2]).filter (inRuv exRuv flatMetric3.ccw 29) =
    {(ob 0 0 0, ob 0 3 1, ob 4 0 2)} := by
  have e : orderedTriples [ob 0 0 0, ob 0 3 1, ob 4 0 2] = orders6 (ob 0 0 0, ob 0 3 1, ob 4 0 2) := by
    simp [orderedTriples, autoTriples, autoPairs]
  have key : ∀ t ∈ orderedTriples [ob 0 0 0, ob 0 3 1, ob 4 0 2],
      (inRuv exRuv flatMetric3.ccw 29 t ↔ t = (ob 0 0 0, ob 0 3 1, ob 4 0 2)) := by
    intro t ht
    constructor
    · rintro ⟨_, _, _, hin, _⟩
      exact ex345_out ht hin.1 hin.2.1
    · rintro rfl
      exact ex345_in
  rw [Multiset.filter_congr key, e]
  have hne1 : ob 0 0 0 ≠ ob 0 3 1 := fun h => by simpa [ob] using congrArg Obj.idx h
  have hne2 : ob 0 0 0 ≠ ob 4 0 2 := fun h => by simpa [ob] using congrArg Obj.idx h
  have hne3 : ob 0 3 1 ≠ ob 4 0 2 := fun h => by simpa [ob] using congrArg Obj.idx h
  simp [orders6, Multiset.filter_add, Multiset.filter_singleton, hne1, hne2, hne3, hne1.symm, hne2.symm, hne3.symm]

/-- C58: the triangle between the three patches is counted once. -/
theorem threePatches_count (nn : Bool) (S : TriCorr Acc3) : ((triEx nn).processAuto true threePatches S).self.acc.ntri 29 = 1 := by
  have ef : threePatches.flatMap Prod.snd = [ob 0 0 0, ob 0 3 1, ob 4 0 2] := rfl
  have h := patched_auto_ruv_partial (sortAlg _ 0) (euclidGeom 2) (euclidGeom_dominates 2) exFp rfl (fun a b => a = b) nn
    (cats := threePatches) (by simp [threePatches]) (by rw [ef]; simp [ob_valid]) S 29 exRuv_ok rfl rfl rfl flatMetric3_of
    (by rw [ef]; exact fun t ht e => ex345_tie ht e)
  rw [ef, ex345_filter] at h
  exact (h.ntri (by simp [ob])).trans (by simp [brute3N])

/-- C58, two divisions of the three rows: three patches, or the first row against the other two. -/
example (S : TriCorr Acc3) : ((triEx true).processAuto true threePatches S).self.acc.SameAt
    ((triEx true).processAuto true [(0, [ob 0 3 1, ob 4 0 2]), (1, [ob 0 0 0])] S).self.acc 29 := by
  have ef : threePatches.flatMap Prod.snd = [ob 0 0 0, ob 0 3 1, ob 4 0 2] := rfl
  refine patched_auto_ruv_same_partial (sortAlg _ 0) (euclidGeom 2) (euclidGeom_dominates 2) exFp rfl (fun a b => a = b) true
    (by simp [threePatches]) (by simp) S 29 exRuv_ok rfl rfl rfl flatMetric3_of ?_ (by rw [ef]; simp [ob])
    (by rw [ef]; exact fun t ht e => ex345_tie ht e)
  rw [ef]
  show [ob 0 0 0, ob 0 3 1, ob 4 0 2].Perm [ob 0 3 1, ob 4 0 2, ob 0 0 0]
  exact (List.perm_append_comm (l₁ := [ob 0 0 0]) (l₂ := [ob 0 3 1, ob 4 0 2]))

/-- C58, LogSAS: the right angle between the three patches. -/
example (S : TriCorr Acc3) : ((triKit (sortAlg _ 0) (euclidGeom 2) exFp (binSAS exSas flatMetric3) flatMetric3 exSas (fun a b => a = b)
    true).processAuto true threePatches S).self.acc.ntri 9 = 1 := by
  have ef : threePatches.flatMap Prod.snd = [ob 0 0 0, ob 0 3 1, ob 4 0 2] := rfl
  have h := patched_auto_sas_partial (sortAlg _ 0) (euclidGeom 2) (euclidGeom_dominates 2) exFp rfl (fun a b => a = b) true
    (cats := threePatches) (by simp [threePatches]) (by rw [ef]; simp [ob_valid]) S 9 exSas_ok rfl rfl rfl flatMetric3_of
    flatMetric3_oriented (by rw [ef]; exact fun t ht _ => ex345_line ht)
  have e : (orderedTriples [ob 0 0 0, ob 0 3 1, ob 4 0 2]).filter (inSas exSas flatMetric3.ccw 9) =
      {(ob 0 0 0, ob 0 3 1, ob 4 0 2)} := by
    have e : orderedTriples [ob 0 0 0, ob 0 3 1, ob 4 0 2] = orders6 (ob 0 0 0, ob 0 3 1, ob 4 0 2) := by
      simp [orderedTriples, autoTriples, autoPairs]
    have key : ∀ t ∈ orderedTriples [ob 0 0 0, ob 0 3 1, ob 4 0 2],
        (inSas exSas flatMetric3.ccw 9 t ↔ t = (ob 0 0 0, ob 0 3 1, ob 4 0 2)) :=
      fun t ht => ⟨ex345_sas_out ht, by rintro rfl; exact ex345_sas_in⟩
    rw [Multiset.filter_congr key, e]
    have hne1 : ob 0 0 0 ≠ ob 0 3 1 := fun h => by simpa [ob] using congrArg Obj.idx h
    have hne2 : ob 0 0 0 ≠ ob 4 0 2 := fun h => by simpa [ob] using congrArg Obj.idx h
    have hne3 : ob 0 3 1 ≠ ob 4 0 2 := fun h => by simpa [ob] using congrArg Obj.idx h
    simp [orders6, Multiset.filter_add, Multiset.filter_singleton, hne1, hne2, hne3, hne1.symm, hne2.symm, hne3.symm]
  rw [ef, e] at h
  exact (h.ntri (by simp [ob])).trans (by simp [brute3N])

/-- C58, the other kinds of calls: the three rows as three catalogues, the last of which is divided. -/
example (S : TriCorr Acc3) : ((triEx true).processCross true true [(0, [ob 0 0 0])] [(0, [ob 0 3 1])] [(0, [ob 50 0 3]), (1, [ob 4 0 2])]
    S).self.acc.Holds 29 ((crossTriples [ob 0 0 0] [ob 0 3 1] [ob 50 0 3, ob 4 0 2]).filter (inRuv exRuv flatMetric3.ccw 29))
    triU (triVs flatMetric3.ccw) :=
  patched_cross_ruv_partial (sortAlg _ 0) (euclidGeom 2) (euclidGeom_dominates 2) exFp rfl (fun a b => a = b) true
    (by simp) (by simp) (by simp) (by simp [ob_valid]) (by simp [ob_valid]) (by simp [ob_valid]) S 29 exRuv_ok rfl rfl rfl flatMetric3_of

/-- C59: three processes, five patches, job (1,3,4): process 0 owns patch 0 only, 1 owns 1 and 2, 2 owns 3 and 4. -/
example : myAutoJob3 5 3 2 1 3 4 ∧ ¬ myAutoJob3 5 3 1 1 3 4 := by
  constructor <;> norm_num [myAutoJob3, myIndex]

/-- C59 and C60: the count and the total of the three patches under four processes. -/
example (S : TriCorr Acc3) : ∃ R, (triEx true).mpiAuto 4 true threePatches S = some R ∧ R.self.acc.ntri 29 = 1 ∧ R.self.tot = 9 / 2 := by
  obtain ⟨R, h1, h2, _⟩ := mpi3_auto_same_partial (triEx_good true) (show 0 < 4 by norm_num) threePatches (by simp [threePatches])
    (by simp [threePatches]) S
  refine ⟨R, h1, by rw [h2]; exact threePatches_count true S, ?_⟩
  rw [h2, patched3_auto_tot (triEx_good true) rfl _ (by simp [threePatches])]
  · norm_num [threePatches, triEx, triKit, ob]
  · have hne1 : ob 0 0 0 ≠ ob 0 3 1 := fun h => by simpa [ob] using congrArg Obj.idx h
    have hne2 : ob 0 0 0 ≠ ob 4 0 2 := fun h => by simpa [ob] using congrArg Obj.idx h
    have hne3 : ob 0 3 1 ≠ ob 4 0 2 := fun h => by simpa [ob] using congrArg Obj.idx h
    simp [threePatches, triEx, triKit, hne1, hne2, hne3, hne1.symm, hne2.symm, hne3.symm]

/-- C60: two calls on the three patches, the second without `initialize`. -/
example : ((triEx false).processAuto false threePatches ((triEx false).processAuto true threePatches TriCorr.clear)).self
    = (((triEx false).processAuto false threePatches ((triEx false).processAuto true threePatches
        TriCorr.clear)).results.map Prod.snd).sum := by
  have h := results3_sum_history_partial (triEx_good false) rfl [.auto true threePatches, .auto false threePatches]
  simp only [List.foldl_cons, List.foldl_nil, TriCall.run] at h
  exact h

/-! ### Metrics other than the plain distance -/

section lost
variable {d : ℕ} (A : StdAlg (EuclideanSpace ℝ (Fin d))) (g : Geom (EuclideanSpace ℝ (Fin d))) (fp : FieldParams) {p : Prm3}
  (M : Metric3 (EuclideanSpace ℝ (Fin d))) (same : List (Obj (EuclideanSpace ℝ (Fin d))) → List (Obj (EuclideanSpace ℝ (Fin d))) → Prop)
  (nn : Bool)

theorem triKit_auto_one (hm : 0 < p.minsep) (o : Obj (EuclideanSpace ℝ (Fin d))) :
    (triKit A g fp (binRUV p M) M p same nn).auto [o] = 0 := by
  show runAcc3 (processAuto3 _ M p.minsep (buildField A g fp [o]).cells) = 0
  rw [cells_one]
  have h : process3 (binRUV p M) M p.minsep (.leaf ⟨o.pos, 1, o.w, o.wk⟩ [o]) = some [] := by
    rw [process3, if_pos (show 0 < 0.5 * p.minsep by linarith), ite_self]
  simp only [processAuto3, h, autoLoop2]
  rfl

theorem triKit_cross12_one (b : Bool) (o o' : Obj (EuclideanSpace ℝ (Fin d))) :
    (triKit A g fp (binRUV p M) M p same nn).cross12 b [o] [o'] = 0 := by
  show runAcc3 (TreeCorr.processCross12 _ M _ (buildField A g fp [o]).cells (buildField A g fp [o']).cells) = 0
  rw [cells_one, cells_one]
  simp [TreeCorr.processCross12, concatM, cross12Loop2, process12, skip12, binRUV, Cell.size, loop111, runAcc3, accumulate3]
  rfl

theorem jobs_acc_zero {V C : Type} [AddCommMonoid V] {K : Kit3 V C} (h0 : ¬ K.nz 0) (js : List (Job3 V)) (hj : ∀ J ∈ js, J.temp.acc = 0)
    (S : TriCorr V) : (js.foldl (Job3.run K) S).self.acc = S.self.acc := by
  induction js generalizing S with
  | nil => rfl
  | cons J t ih =>
    rw [List.foldl_cons, ih fun J' h => hj J' (by simp [h])]
    have hJ := hj J (by simp)
    unfold Job3.run
    split
    · show (K.iadd S.self J.temp).acc = _
      rw [Kit3.iadd, hJ, if_neg h0]
    · split <;> rfl

theorem three_patches_zero {V C : Type} [AddCommMonoid V] {K : Kit3 V C} (h0 : ¬ K.nz 0) (a b c : C) (ea : K.auto a = 0)
    (eb : K.auto b = 0) (ec : K.auto c = 0) (e12 : ∀ x y, x = a ∨ x = b ∨ x = c → y = a ∨ y = b ∨ y = c → K.cross12 false x y = 0)
    (ht : K.triv a b c) (S : TriCorr V) : (K.processAuto true [(0, a), (1, b), (2, c)] S).self.acc = 0 := by
  have j12 : ∀ key gate x y, x = a ∨ x = b ∨ x = c → y = a ∨ y = b ∨ y = c →
      (job12 K false false key gate x y).temp.acc = 0 := by
    intro key gate x y hx hy
    simp only [job12]
    split
    · rfl
    · exact e12 x y hx hy
  have j123 : (job123 K false .any (0, a) (1, b) (2, c)).temp.acc = 0 := by
    simp only [job123]
    rw [if_pos ht]
    rfl
  have := jobs_acc_zero h0 (autoJobs3 K [(0, a), (1, b), (2, c)]) (by
    intro J hJ
    simp [autoJobs3, autoRowJobs3, autoPairJobs3] at hJ
    rcases hJ with rfl | rfl | rfl | rfl | rfl | rfl | rfl | rfl | rfl | rfl
    · exact ea
    all_goals first | exact j123 | exact eb | exact ec | exact j12 _ _ _ _ (by simp) (by simp)) TriCorr.clear
  rw [← serial_filter3 (autoJobs3 _ _), ← allAuto3_eq] at this
  exact this

/-- Three patches of one row each, trivially zero: nothing is counted. -/
theorem three_rows_lost (hm : 0 < p.minsep) (a b c : Obj (EuclideanSpace ℝ (Fin d))) (h : trivZero3 p.maxsep [a] [b] [c])
    (S : TriCorr Acc3) (k : ℤ) :
    ((triKit A g fp (binRUV p M) M p same nn).processAuto true [(0, [a]), (1, [b]), (2, [c])] S).self.acc.ntri k = 0 := by
  have h0 : ¬ (triKit A g fp (binRUV p M) M p same nn).nz 0 := by
    rintro ⟨k, hk⟩
    exact hk rfl
  have e1 := triKit_auto_one A g fp M same nn hm
  have e2 := triKit_cross12_one (p := p) A g fp M same nn false
  rw [three_patches_zero h0 [a] [b] [c] (e1 a) (e1 b) (e1 c) (by
    rintro x y (rfl | rfl | rfl) (rfl | rfl | rfl) <;> exact e2 _ _) h S]
  rfl

end lost

theorem centerSize_row {d : ℕ} (o : Obj (EuclideanSpace ℝ (Fin d))) : centerSize [o] = (o.pos, 0) := by
  have c : (centerSize [o]).1 = o.pos := by simp [centerSize]
  have s : (centerSize [o]).2 = 0 := by
    have : (centerSize [o]).2 = Real.sqrt (calcSizeSq (euclidGeom d) (centerSize [o]).1 [o]) := rfl
    rw [this, c]
    simp [calcSizeSq, euclidGeom]
  exact Prod.ext c s

theorem trivZero3_rows {d : ℕ} {r : ℝ} {a b c : Obj (EuclideanSpace ℝ (Fin d))} :
    trivZero3 r [a] [b] [c] ↔ 2 * r < middle (dist b.pos c.pos) (dist c.pos a.pos) (dist a.pos b.pos) := by
  simp [trivZero3, centerSize_row]

/-- A square with periods 100. -/
def bigPer : Fin 2 → ℝ := fun _ => 100

theorem bigPer_dist (x y x' y' : ℝ) (hx : |x' - x| ≤ 100) (hy : |y' - y| ≤ 100) : perDist bigPer (pt x y) (pt x' y') =
    Real.sqrt (min |x' - x| (100 - |x' - x|) ^ 2 + min |y' - y| (100 - |y' - y|) ^ 2) := by
  rw [(perDist_eq (L := bigPer) (fun _ => by norm_num [bigPer]) _ _).1, Fin.sum_univ_two]
  have w1 := wrap_formula (L := 100) (x1 := x) (x2 := x') (by norm_num) hx
  have w2 := wrap_formula (L := 100) (x1 := y) (x2 := y') (by norm_num) hy
  rw [← w1, ← w2, sq_abs, sq_abs]
  rfl

/-- The distance of the `Periodic` metric is that to the nearest image. -/
theorem perMetric3_dist {L : Fin 2 → ℝ} (hL : ∀ i, 0 < L i) (p q : EuclideanSpace ℝ (Fin 2)) :
    (perMetric3 L).distSq p q = perDist L p q ^ 2 := by
  rw [(perDist_eq hL p q).1, Real.sq_sqrt (Finset.sum_nonneg fun i _ => sq_nonneg _)]
  rfl

/-- **C58, negation for the `Periodic` metric.** Periods 100, rows at (0,0), (0,3), (96,0), each in a patch of its own.  Across the
boundary they form a triangle with sides 3, 4, 5, in range, but `_trivially_zero` takes the third patch to be 96 away and the triangle is
not counted. -/
theorem patched_periodic_wrong (A : StdAlg (EuclideanSpace ℝ (Fin 2))) (g : Geom (EuclideanSpace ℝ (Fin 2))) (fp : FieldParams) (nn : Bool)
    (S : TriCorr Acc3) :
    let t := (ob 0 0 0, ob 0 3 1, ob 96 0 2)
    ∃ k, inRuv (P := PerSpace bigPer) exRuv (perMetric3 bigPer).ccw k t ∧
      ((triKit A g fp (binRUV exRuv (perMetric3 bigPer)) (perMetric3 bigPer) exRuv (fun a b => a = b) nn).processAuto true
        [(0, [t.1]), (1, [t.2.1]), (2, [t.2.2])] S).self.acc.ntri k = 0 := by
  intro t
  have d3 : side3 (P := PerSpace bigPer) t = 3 := by
    show perDist bigPer (pt 0 0) (pt 0 3) = 3
    rw [bigPer_dist _ _ _ _ (by norm_num) (by norm_num)]
    norm_num
    rw [show (9 : ℝ) = 3 ^ 2 by norm_num, Real.sqrt_sq (by norm_num)]
  have d2 : side2 (P := PerSpace bigPer) t = 4 := by
    show perDist bigPer (pt 0 0) (pt 96 0) = 4
    rw [bigPer_dist _ _ _ _ (by norm_num) (by norm_num), abs_of_pos (by norm_num), min_eq_right (by norm_num)]
    norm_num
    rw [show (16 : ℝ) = 4 ^ 2 by norm_num, Real.sqrt_sq (by norm_num)]
  have d1 : side1 (P := PerSpace bigPer) t = 5 := by
    show perDist bigPer (pt 0 3) (pt 96 0) = 5
    rw [bigPer_dist _ _ _ _ (by norm_num) (by norm_num)]
    norm_num
    rw [show (25 : ℝ) = 5 ^ 2 by norm_num, Real.sqrt_sq (by norm_num)]
  refine ⟨ruvPlace exRuv 1 3 0 _, ⟨1, 3, 0, ⟨?_, ?_, ?_, ?_, ?_, ?_⟩, rfl⟩, three_rows_lost A g fp _ _ nn exRuv_ok.minsep _ _ _ ?_ S _⟩
  · rw [d1, d2]; norm_num
  · rw [d2, d3]; norm_num
  · rw [d3]; norm_num
  · rw [d2]; exact inLog1 4 (by norm_num) le_rfl
  · show InLinBin _ _ _ _ (side3 (P := PerSpace bigPer) t / side2 (P := PerSpace bigPer) t)
    rw [d2, d3]
    norm_num [InLinBin, linEdge, exRuv]
  · show InLinBin _ _ _ _
      ((side1 (P := PerSpace bigPer) t - side2 (P := PerSpace bigPer) t) / side3 (P := PerSpace bigPer) t)
    rw [d1, d2, d3]
    norm_num [InLinBin, linEdge, exRuv]
  · rw [trivZero3_rows]
    have h1 : dist (pt 0 3) (pt 96 0) = Real.sqrt 9225 := by rw [dist_pt]; norm_num
    have h2 : dist (pt 96 0) (pt 0 0) = 96 := by
      rw [dist_pt, show ((96 : ℝ) - 0) ^ 2 + (0 - 0) ^ 2 = 96 ^ 2 by norm_num, Real.sqrt_sq (by norm_num)]
    show 2 * Real.exp 3 < middle (dist (pt 0 3) (pt 96 0)) (dist (pt 96 0) (pt 0 0)) _
    have h3 : (96 : ℝ) ≤ Real.sqrt 9225 := Real.le_sqrt_of_sq_le (by norm_num)
    rw [h1, h2]
    have := exp3_lt
    exact lt_max_of_lt_left (lt_min (by linarith) (by linarith))

/-- One bin in each of the three quantities, sides in radians. -/
def exArc : Prm3 :=
  { minsep := 1, maxsep := Real.exp 1, nbins := 1, binsize := 1, b := 0, a := 1 / 10, minu := 0, maxu := 1, nubins := 1,
    ubinsize := 1, bu := 0, minv := 0, maxv := 1, nvbins := 1, vbinsize := 1, bv := 0 }

theorem exArc_ok : RuvParams exArc := by
  constructor <;> norm_num [exArc]

open InnerProductGeometry in
/-- **C58, negation for the `Arc` metric with distances.** Rows at (100,0,0), (100,100,0) and (0,100,100), each in a patch of its own.  Seen
from the origin the sides are 45°, 60° and 90°, and 60° is between `min_sep` = 1 and `max_sep` = e radians.  But
`_trivially_zero` compares the distances of the patches in space, 100 and more, with `2*max_sep`, and the triangle is not counted. -/
theorem patched_arc_wrong (A : StdAlg (EuclideanSpace ℝ (Fin 3))) (g : Geom (EuclideanSpace ℝ (Fin 3))) (fp : FieldParams) (nn : Bool)
    (S : TriCorr Acc3) :
    let p1 := ob3 100 100 0 0
    let p2 := ob3 100 0 0 1
    let p3 := ob3 0 100 100 2
    angle p2.pos p3.pos = Real.pi / 2 ∧ angle p1.pos p3.pos = Real.pi / 3 ∧ angle p1.pos p2.pos = Real.pi / 4 ∧
      InLogBin exArc.minsep exArc.binsize exArc.nbins 0 (Real.pi / 3) ∧
      InLinBin exArc.minu exArc.ubinsize exArc.nubins 0 (Real.pi / 4 / (Real.pi / 3)) ∧
      InLinBin exArc.minv exArc.vbinsize exArc.nvbins 0 ((Real.pi / 2 - Real.pi / 3) / (Real.pi / 4)) ∧
      ∀ k, ((triKit A g fp (binRUV exArc arc3Metric3) arc3Metric3 exArc (fun a b => a = b) nn).processAuto true
        [(0, [p1]), (1, [p2]), (2, [p3])] S).self.acc.ntri k = 0 := by
  intro p1 p2 p3
  have hn : ∀ x y z : ℝ, ‖pt3 x y z‖ = Real.sqrt (x ^ 2 + y ^ 2 + z ^ 2) := norm_pt3
  have hi : ∀ x y z x' y' z' : ℝ, inner ℝ (pt3 x y z) (pt3 x' y' z') = x * x' + y * y' + z * z' := by
    intro x y z x' y' z'
    simp [pt3, PiLp.inner_apply, Fin.sum_univ_three]
    ring
  have hp := Real.pi_pos
  refine ⟨?_, ?_, ?_, ?_, ?_, ?_, fun k => three_rows_lost A g fp _ _ nn exArc_ok.minsep _ _ _ ?_ S k⟩
  · show angle (pt3 100 0 0) (pt3 0 100 100) = _
    rw [← inner_eq_zero_iff_angle_eq_pi_div_two, hi]
    norm_num
  · show angle (pt3 100 100 0) (pt3 0 100 100) = _
    rw [angle, hi, hn, hn, ← Real.arccos_cos (x := Real.pi / 3) (by linarith) (by linarith), Real.cos_pi_div_three]
    congr 1
    norm_num
  · show angle (pt3 100 100 0) (pt3 100 0 0) = _
    rw [angle, hi, hn, hn, ← Real.arccos_cos (x := Real.pi / 4) (by linarith) (by linarith), Real.cos_pi_div_four]
    congr 1
    have e1 : Real.sqrt (100 ^ 2 + 100 ^ 2 + 0 ^ 2) = 100 * Real.sqrt 2 := by
      rw [show (100 ^ 2 + 100 ^ 2 + 0 ^ 2 : ℝ) = 100 ^ 2 * 2 by norm_num, Real.sqrt_mul (by norm_num), Real.sqrt_sq (by norm_num)]
    have e2 : Real.sqrt (100 ^ 2 + 0 ^ 2 + 0 ^ 2) = 100 := by
      rw [show (100 ^ 2 + 0 ^ 2 + 0 ^ 2 : ℝ) = 100 ^ 2 by norm_num, Real.sqrt_sq (by norm_num)]
    rw [e1, e2]
    have h2 := Real.mul_self_sqrt (show (0 : ℝ) ≤ 2 by norm_num)
    have h0 : 0 < Real.sqrt 2 := Real.sqrt_pos.2 (by norm_num)
    field_simp
    nlinarith
  · have h1 := Real.pi_gt_three
    have h2 := Real.pi_lt_four
    have h3 := Real.exp_one_gt_d9
    refine ⟨by norm_num, by norm_num [exArc], ?_, ?_⟩
    · simp [logEdge, exArc]; linarith
    · simp [logEdge, exArc]; linarith
  · rw [show Real.pi / 4 / (Real.pi / 3) = 3 / 4 by field_simp]
    norm_num [InLinBin, linEdge, exArc]
  · rw [show (Real.pi / 2 - Real.pi / 3) / (Real.pi / 4) = 2 / 3 by field_simp; norm_num]
    norm_num [InLinBin, linEdge, exArc]
  · rw [trivZero3_rows]
    have h1 : 100 < dist (pt3 100 0 0) (pt3 0 100 100) := by
      rw [dist_pt3]; exact Real.lt_sqrt_of_sq_lt (by norm_num)
    have h2 : 100 < dist (pt3 0 100 100) (pt3 100 100 0) := by
      rw [dist_pt3]; exact Real.lt_sqrt_of_sq_lt (by norm_num)
    have h3 := Real.exp_one_lt_three
    show 2 * Real.exp 1 < middle (dist (pt3 100 0 0) (pt3 0 100 100)) (dist (pt3 0 100 100) (pt3 100 100 0)) _
    exact lt_max_of_lt_left (lt_min (by linarith) (by linarith))

/-! ### `tot` -/

section tots
variable {V C : Type} [AddCommMonoid V] {K : Kit3 V C} {G : V → Prop}

theorem job12_tot_zero {c1 c2 : C} (hn : K.triv c1 c2 c2) (o : Bool) (key gate : ℕ × ℕ × ℕ) :
    ((job12 K true o key gate c1 c2).val K).tot = 0 := by
  simp [Job3.val, job12, hn]

theorem job123_tot_zero {c1 c2 c3 : ℕ × C} (hn : K.triv c1.2 c2.2 c3.2) (O : Ord3) :
    ((job123 K true O c1 c2 c3).val K).tot = 0 := by
  simp [Job3.val, job123, hn]

theorem job123_tot_half (hnn : K.nn = true) {c1 c2 c3 : ℕ × C} (hn : K.triv c1.2 c2.2 c3.2) (hs : K.same c2.2 c3.2) (h0 : ¬ K.nz 0)
    (O : Ord3) : ((job123 K false O c1 c2 c3).val K).tot = K.sumw c1.2 * K.sumw c2.2 * K.sumw c3.2 / 2 := by
  simp [Job3.val, job123, hn, hs, hnn, h0]

theorem cross12_tot_dropped (hK : K.Good G) (hnn : K.nn = true) (o : Bool) {a b c : C} (h1 : ¬ K.triv a b b) (h2 : K.triv a c c)
    (hs : ¬ K.same b c) (S : TriCorr V) : (K.processCross12 true o [(0, a)] [(0, b), (1, c)] S).self.tot
      = 0.5 * K.sumw a * K.sumw b ^ 2 + K.sumw a * K.sumw b * K.sumw c := by
  rw [processCross12_jobs hK o (by simp) (by simp)]
  show ((cross12Jobs K o _ _ _ _).map (Job3.val K)).sum.tot = _
  simp only [cross12Jobs, cross12Row, Res3.sum_tot, List.map_map]
  simp only [List.flatMap_cons, List.flatMap_nil, List.reverse_cons, List.reverse_nil, List.nil_append, List.cons_append, List.length_cons,
    List.length_nil]
  have e1 := job12_tot hnn true o (0, 0, 0) (0, 0, 0) a b (fun _ => h1) hK.nz_zero
  have e2 := job123_tot hnn false (ord12 o) (0, a) (0, b) (1, c) (by simp) hs hK.nz_zero
  have e3 := job12_tot_zero h2 o (0, 1, 1) (0, 1, 1)
  simp [e1, e2, e3]

theorem cross_tot_dropped (hK : K.Good G) (hnn : K.nn = true) (o : Bool) {a b c c' : C} (h1 : ¬ K.triv a b c) (h2 : K.triv a b c')
    (hs : ¬ K.same b c) (S : TriCorr V) : (K.processCross true o [(0, a)] [(0, b)] [(0, c), (1, c')] S).self.tot
      = K.sumw a * K.sumw b * K.sumw c := by
  rw [processCross123_jobs hK o (by simp) (by simp) (by simp)]
  show ((cross123Jobs K o _ _ _ _ _ _).map (Job3.val K)).sum.tot = _
  simp only [cross123Jobs, Res3.sum_tot, List.map_map]
  have e2 := job123_tot hnn true (ord123 o) (0, a) (0, b) (0, c) (fun _ => h1) hs hK.nz_zero
  have e3 := job123_tot_zero (c1 := (0, a)) (c2 := (0, b)) (c3 := (1, c')) h2 (ord123 o)
  simp [e2, e3]

/-- The jobs (0,1,1) and (1,0,0) of `process(cat1, cat2, cat2)` on two patches each, if trivially zero. -/
theorem cross_tot_repeated (hK : K.Good G) (hnn : K.nn = true) (o : Bool) {a a' b b' : C} (hs : K.same b b) (hs' : K.same b' b')
    (hn : ¬ K.same b b') (hn' : ¬ K.same b' b) (h1 : ¬ K.triv a b b) (h2 : ¬ K.triv a' b' b') (h3 : K.triv a b' b') (h4 : K.triv a' b b)
    (S : TriCorr V) :
    (K.processCross true o [(0, a), (1, a')] [(0, b), (1, b')] [(0, b), (1, b')] S).self.tot
      = (K.sumw a + K.sumw a') * (K.sumw b + K.sumw b') ^ 2 - K.sumw a * K.sumw b' ^ 2 / 2 - K.sumw a' * K.sumw b ^ 2 / 2 := by
  rw [processCross123_jobs hK o (by simp) (by simp) (by simp)]
  show ((cross123Jobs K o _ _ _ _ _ _).map (Job3.val K)).sum.tot = _
  simp only [cross123Jobs, Res3.sum_tot, List.map_map]
  have z := hK.nz_zero
  have f1 : ((job123 K true (ord123 o) (0, a) (0, b) (0, b)).val K).tot = K.sumw a * K.sumw b * K.sumw b := by
    simp [Job3.val, job123, h1, Kit3.crossRes, hnn]
  have f2 : ((job123 K true (ord123 o) (1, a') (1, b') (1, b')).val K).tot = K.sumw a' * K.sumw b' * K.sumw b' := by
    simp [Job3.val, job123, h2, Kit3.crossRes, hnn]
  have e1 := job123_tot hnn false (ord123 o) (0, a) (0, b) (1, b') (by simp) hn z
  have e2 := job123_tot hnn false (ord123 o) (0, a) (1, b') (0, b) (by simp) hn' z
  have e3 := job123_tot hnn false (ord123 o) (1, a') (0, b) (1, b') (by simp) hn z
  have e4 := job123_tot hnn false (ord123 o) (1, a') (1, b') (0, b) (by simp) hn' z
  have g1 := job123_tot_half hnn (c1 := (0, a)) (c2 := (1, b')) (c3 := (1, b')) h3 hs' z (ord123 o)
  have g2 := job123_tot_half hnn (c1 := (1, a')) (c2 := (0, b)) (c3 := (0, b)) h4 hs z (ord123 o)
  simp [f1, f2, e1, e2, e3, e4, g1, g2]
  ring

/-- Jobs without triangles only set `tot`. -/
theorem runs_zero (hnn : K.nn = true) (z : ¬ K.nz 0) (js : List (Job3 V)) (hj : ∀ J ∈ js, J.temp.acc = 0) (S : TriCorr V)
    (hS : ∀ x ∈ S.results, x.2.acc = 0) :
    (js.foldl (Job3.run K) S).results =
      js.foldl (fun d J => d.set J.key ⟨0, if J.force = true then J.temp.tot else J.tot⟩) S.results := by
  induction js generalizing S with
  | nil => rfl
  | cons J t ih =>
    have hJ : J.temp.acc = 0 := hj J (by simp)
    have e : (J.run K S).results = S.results.set J.key ⟨0, if J.force = true then J.temp.tot else J.tot⟩ := by
      unfold Job3.run
      rw [hJ]
      by_cases hf : J.force = true
      · have ht : J.temp = ⟨0, J.temp.tot⟩ := by rw [← hJ]
        rw [if_pos (Or.inr hf), if_pos hf]
        simp only [Kit3.keep]
        cases hg : S.results.get J.key with
        | none => rw [← ht]
        | some r =>
          have hr : (J.key, r) ∈ S.results := by
            obtain ⟨l1, l2, h, _⟩ := List.lookup_eq_some_iff.1 hg
            rw [h]; simp
          have := hS _ hr
          simp only at this
          simp only [this, if_neg z, ← ht]
      · rw [if_neg (by tauto), if_pos hnn, if_neg hf]
    rw [List.foldl_cons, List.foldl_cons, ih (fun J' h => hj J' (by simp [h])), e]
    rw [e]
    intro x hx
    unfold Dict3.set at hx
    split at hx
    · obtain ⟨y, hy, rfl⟩ := List.mem_map.1 hx
      split
      · rfl
      · exact hS y hy
    · rcases List.mem_append.1 hx with h | h
      · exact hS x h
      · rw [List.mem_singleton.1 h]

/-- Two calls on two patches without triangles, the second with `initialize=False`. -/
theorem two_calls_tot (hK : K.Good G) (hnn : K.nn = true) {a b : C} (ea : K.auto a = 0) (eb : K.auto b = 0) (e1 : K.cross12 false a b = 0)
    (e2 : K.cross12 false b a = 0) (h1 : ¬ K.triv a b b) (h2 : ¬ K.triv b a a) :
    let S := K.processAuto false [(0, a), (1, b)] (K.processAuto true [(0, a), (1, b)] TriCorr.clear)
    S.self.tot = 2 * (1 / 6 * (K.sumw a + K.sumw b) ^ 3) ∧
      ((S.results.map Prod.snd).sum).tot = 1 / 6 * (K.sumw a + K.sumw b) ^ 3 := by
  intro S
  have z := hK.nz_zero
  have hj : ∀ T, K.processAuto false [(0, a), (1, b)] T = (autoJobs3 K [(0, a), (1, b)]).foldl (Job3.run K) T := by
    intro T
    simp only [Kit3.processAuto]
    rw [allAuto3_eq, serial_filter3]
    rfl
  have hj' : K.processAuto true [(0, a), (1, b)] TriCorr.clear = K.processAuto false [(0, a), (1, b)] TriCorr.clear := rfl
  have j1 : job111 K (0, a) = ⟨(0, 0, 0), (0, 0, 0), true, ⟨0, 1 / 6 * K.sumw a ^ 3⟩, 0⟩ := by
    simp [job111, Kit3.autoRes, ea, hnn]
  have j2 : job111 K (1, b) = ⟨(1, 1, 1), (1, 1, 1), true, ⟨0, 1 / 6 * K.sumw b ^ 3⟩, 0⟩ := by
    simp [job111, Kit3.autoRes, eb, hnn]
  have j3 : job12 K false false (0, 1, 1) (0, 1, 1) a b = ⟨(0, 1, 1), (0, 1, 1), false, ⟨0, 0.5 * K.sumw a * K.sumw b ^ 2⟩,
      K.sumw a * K.sumw b * K.sumw b / 2⟩ := by
    simp [job12, Kit3.cross12Res, e1, hnn, h1]
  have j4 : job12 K false false (0, 0, 1) (0, 1, 1) b a = ⟨(0, 0, 1), (0, 1, 1), false, ⟨0, 0.5 * K.sumw b * K.sumw a ^ 2⟩,
      K.sumw b * K.sumw a * K.sumw a / 2⟩ := by
    simp [job12, Kit3.cross12Res, e2, hnn, h2]
  have js : autoJobs3 K [(0, a), (1, b)] = [job111 K (0, a), job12 K false false (0, 1, 1) (0, 1, 1) a b,
      job12 K false false (0, 0, 1) (0, 1, 1) b a, job111 K (1, b)] := by
    simp [autoJobs3, autoRowJobs3, autoPairJobs3]
  have hz : ∀ J ∈ autoJobs3 K [(0, a), (1, b)], J.temp.acc = 0 := by
    rw [js, j1, j2, j3, j4]
    simp
  have hr1 := runs_zero hnn z _ hz TriCorr.clear (by simp [TriCorr.clear])
  have hr2 := runs_zero hnn z _ hz ((autoJobs3 K [(0, a), (1, b)]).foldl (Job3.run K) TriCorr.clear) (by
    rw [hr1, js, j1, j2, j3, j4]
    simp [Dict3.set, TriCorr.clear])
  have hS : S = _ := (congrArg _ (hj'.trans (hj _))).trans (hj _)
  constructor
  · rw [hS, js, j1, j2, j3, j4]
    simp [Job3.run, Kit3.keep, Dict3.get, Dict3.set, TriCorr.clear, z, hnn, Kit3.iadd, Res3.zero]
    ring
  · rw [hS, hr2, hr1, js, j1, j2, j3, j4]
    simp [Dict3.set, TriCorr.clear, Res3.add_tot]
    ring

end tots

/-- Rows on a line. -/
theorem triEx_triv {nn : Bool} (x y z : ℝ) (i j k : ℕ) : (triEx nn).triv [ob x 0 i] [ob y 0 j] [ob z 0 k] ↔
    2 * Real.exp 3 < middle |y - z| |z - x| |x - y| := by
  show trivZero3 _ _ _ _ ↔ _
  rw [trivZero3_rows]
  simp only [ob_pos, dist_pt_x]
  rfl

theorem triEx_sumw {nn : Bool} (x y : ℝ) (i : ℕ) : (triEx nn).sumw [ob x y i] = 1 := by
  show ([ob x y i].map Obj.w).sum = 1
  simp [ob]

/-- **C60, two catalogues, negation.** One row against two, of which the second, in its own patch, is too far away: `tot` is 3/2 instead
of `1*2²/2 = 2`. -/
theorem patched3_cross12_tot_dropped (o : Bool) (S : TriCorr Acc3) :
    ((triEx true).processCross12 true o [(0, [ob 0 0 0])] [(0, [ob 2 0 0]), (1, [ob 100 0 1])] S).self.tot = 3 / 2 := by
  have h3 := exp3_lt
  have h4 := exp3_gt
  rw [cross12_tot_dropped (triEx_good true) rfl o _ _ _ S]
  · rw [triEx_sumw, triEx_sumw, triEx_sumw]
    norm_num
  · rw [triEx_triv]
    norm_num [middle] <;> linarith
  · rw [triEx_triv]
    norm_num [middle] <;> linarith
  · show ¬ ([ob 2 0 0] = [ob 100 0 1])
    intro h
    simpa [ob] using congrArg (fun l => l.map Obj.idx) h

/-- **C60, three catalogues, negation.** One row, one row and two rows, the last of which is in its own patch and too far away: `tot` is
1 instead of 2. -/
theorem patched3_cross_tot_dropped (o : Bool) (S : TriCorr Acc3) :
    ((triEx true).processCross true o [(0, [ob 0 0 0])] [(0, [ob 2 0 0])] [(0, [ob 3 0 0]), (1, [ob 100 0 1])] S).self.tot = 1 := by
  have h3 := exp3_lt
  have h4 := exp3_gt
  rw [cross_tot_dropped (triEx_good true) rfl o _ _ _ S]
  · rw [triEx_sumw, triEx_sumw, triEx_sumw]
    norm_num
  · rw [triEx_triv]
    norm_num [middle] <;> linarith
  · rw [triEx_triv]
    norm_num [middle] <;> linarith
  · show ¬ ([ob 2 0 0] = [ob 3 0 0])
    intro h
    simpa [ob, pt] using congrArg (fun l => l.map fun o => o.pos 0) h

/-- **C60, the second catalogue again as the third, negation.** `process(cat1, cat2, cat2)` with two rows each, in two patches far apart:
`tot` is 7 instead of `2*2*2`. -/
theorem patched3_cross_tot_repeated_wrong (o : Bool) (S : TriCorr Acc3) :
    ((triEx true).processCross true o [(0, [ob 0 0 0]), (1, [ob 1000 0 1])] [(0, [ob 2 0 0]), (1, [ob 1002 0 1])]
      [(0, [ob 2 0 0]), (1, [ob 1002 0 1])] S).self.tot = 7 := by
  have h3 := exp3_lt
  have h4 := exp3_gt
  have hne : ob 2 0 0 ≠ ob 1002 0 1 := by
    intro h
    simpa [ob] using congrArg Obj.idx h
  rw [cross_tot_repeated (triEx_good true) rfl o rfl rfl (fun h => hne (List.cons.inj h).1) (fun h => hne (List.cons.inj h).1.symm)
    _ _ _ _ S]
  · rw [triEx_sumw, triEx_sumw, triEx_sumw, triEx_sumw]
    norm_num
  all_goals
    rw [triEx_triv]
    norm_num [middle] <;> linarith

theorem triEx_two : let K := triEx true
    K.auto [ob 0 0 0] = 0 ∧ K.auto [ob 2 0 1] = 0 ∧ K.cross12 false [ob 0 0 0] [ob 2 0 1] = 0 ∧
      K.cross12 false [ob 2 0 1] [ob 0 0 0] = 0 ∧ ¬ K.triv [ob 0 0 0] [ob 2 0 1] [ob 2 0 1] ∧
      ¬ K.triv [ob 2 0 1] [ob 0 0 0] [ob 0 0 0] := by
  have h3 := exp3_lt
  have h4 := exp3_gt
  refine ⟨triKit_auto_one _ _ _ _ _ _ exRuv_ok.minsep _, triKit_auto_one _ _ _ _ _ _ exRuv_ok.minsep _, triKit_cross12_one _ _ _ _ _ _ _ _ _,
    triKit_cross12_one _ _ _ _ _ _ _ _ _, ?_, ?_⟩ <;>
  · rw [triEx_triv]
    norm_num [middle] <;> linarith

/-- **C60, `NNNCorrelation` over a history, negation.** Two rows, each its own patch; `process(cat)` and then
`process(cat, initialize=False)`: `tot` is 8/3, but the `tot`s of the results of the triples of patches sum to 4/3. -/
theorem results3_sum_nnn_history_wrong :
    let S := (triEx true).processAuto false [(0, [ob 0 0 0]), (1, [ob 2 0 1])]
      ((triEx true).processAuto true [(0, [ob 0 0 0]), (1, [ob 2 0 1])] TriCorr.clear)
    S.self.tot = 8 / 3 ∧ (S.results.map Prod.snd).sum.tot = 4 / 3 := by
  obtain ⟨e1, e2, e3, e4, h1, h2⟩ := triEx_two
  have := two_calls_tot (triEx_good true) rfl e1 e2 e3 e4 h1 h2
  rw [triEx_sumw, triEx_sumw] at this
  norm_num at this
  exact this

/-- **C59, negation.** `process(cat)` on two patches in each of two processes, then `process(cat, comm=comm, initialize=False)`: the root
holds `tot = 4` instead of 8/3. -/
theorem mpi3_initialize_false_wrong : ∃ R,
    (triEx true).mpiAuto 2 false [(0, [ob 0 0 0]), (1, [ob 2 0 1])]
      ((triEx true).processAuto true [(0, [ob 0 0 0]), (1, [ob 2 0 1])] TriCorr.clear) = some R ∧ R.self.tot = 4 ∧
    ((triEx true).processAuto false [(0, [ob 0 0 0]), (1, [ob 2 0 1])]
      ((triEx true).processAuto true [(0, [ob 0 0 0]), (1, [ob 2 0 1])] TriCorr.clear)).self.tot = 8 / 3 := by
  have hK := triEx_good true
  have h0 := results3_sum_nnn_history_wrong.1
  set cats : List (ℕ × List (Obj (EuclideanSpace ℝ (Fin 2)))) := [(0, [ob 0 0 0]), (1, [ob 2 0 1])] with hc
  have hid : (cats.map Prod.fst).Nodup := by simp [hc]
  have t1 : ((triEx true).processAuto true cats TriCorr.clear).self.tot = 4 / 3 := by
    rw [patched3_auto_tot hK rfl _ hid]
    · simp only [hc, List.map_cons, List.map_nil, triEx_sumw]
      norm_num
    · have hne : ob 0 0 0 ≠ ob 2 0 1 := fun h => by simpa [ob] using congrArg Obj.idx h
      simp [hc, triEx, triKit, hne, hne.symm]
  have hS : ((triEx true).processAuto true cats TriCorr.clear).self.acc.Good := by
    rw [processAuto3_jobs hK hid]
    show Acc3.Good (Res3.acc (List.sum _))
    rw [Res3.sum_acc]
    apply hK.sum
    intro A hA
    obtain ⟨x, hx, rfl⟩ := List.mem_map.1 hA
    obtain ⟨J, hJ, rfl⟩ := List.mem_map.1 hx
    rw [Job3.val_acc]
    exact autoJobs3_good hK _ J hJ
  obtain ⟨R, h1, h2⟩ := mpi3_prior_counted_again hK (show 0 < 2 by norm_num) cats (by simp [hc]) _ hS
  refine ⟨R, h1, ?_, h0⟩
  rw [h2]
  simp only [Nat.add_one_sub_one, one_nsmul, Res3.add_tot]
  rw [t1, h0]
  norm_num

end
end TreeCorr
