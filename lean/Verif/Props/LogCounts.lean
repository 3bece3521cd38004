import Verif.Proofs.LogCounts
import Verif.Proofs.Witness
import Verif.Model.Sizes

/-!
C01, C02: with `bin_slop = 0` and logarithmic bins, every bin holds exactly the pairs whose separation lies
in that bin.
-/

namespace TreeCorr
open Classical
variable {P : Type}

/-- **C01.** Cross-correlation of two catalogues with logarithmic bins and `bin_slop = 0`, in any metric space
whose distance the tree sizes dominate: the run succeeds, and in every bin the weight and the NK and KK sums
are the sums over exactly the pairs (one row of each catalogue) whose separation is in that bin, and so is
the number of pairs when all weights are positive.  `l1`, `l2` are the rows, `A1`, `A2` what the standard
library and the random numbers did, `fp1`, `fp2` the tree parameters (any split method and top-level limits).
`Obj.Valid`: weights are `≥ 0` and `w*k = 0` where `w = 0`. -/
theorem cross_log_exact [PseudoMetricSpace P] (A1 A2 : StdAlg P) (g : Geom P) (hg : g.Dominates)
    (fp1 fp2 : FieldParams) (hf1 : fp1.minsize = 0) (hf2 : fp2.minsize = 0)
    {p : Params} (hp : LogParams p) (hb : p.b = 0) (l1 l2 : List (Obj P))
    (hw1 : ∀ o ∈ l1, o.Valid) (hw2 : ∀ o ∈ l2, o.Valid) :
    ∃ es, processCross (logBin P) (plainMetric P) p (buildField A1 g fp1 l1) (buildField A2 g fp2 l2)
        = some es ∧
      ∀ k, let prs := pairsIn (crossPairs l1 l2) (InLogBin p.minsep p.binsize p.nbins k)
        (accumulate Acc.zero es).weight k = bruteW prs ∧
        (accumulate Acc.zero es).nk k = bruteNK prs ∧
        (accumulate Acc.zero es).kk k = bruteKK prs ∧
        ((∀ o ∈ l1, 0 < o.w) → (∀ o ∈ l2, 0 < o.w) →
          (accumulate Acc.zero es).npairs k = bruteN prs) :=
  cross_exact_of A1 A2 g hg fp1 fp2 hf1 hf2 l1 l2 (log_binExact hp hb l1 l2) hw1 hw2

/-- **C02.** Auto-correlation: the same for the unordered pairs of distinct rows, provided no pair is
separated by exactly `min_sep` (see `auto_min_sep_dropped`). -/
theorem auto_log_exact_partial [PseudoMetricSpace P] (A : StdAlg P) (g : Geom P) (hg : g.Dominates)
    (fp : FieldParams) (hf : fp.minsize = 0) {p : Params} (hp : LogParams p) (hb : p.b = 0)
    (l : List (Obj P)) (hw : ∀ o ∈ l, o.Valid)
    (hmin : ∀ q ∈ autoPairs l, dist q.1.pos q.2.pos ≠ p.minsep) :
    ∃ es, processAuto (decide11 (logBin P) (plainMetric P) p false) p (buildField A g fp l).cells
        = some es ∧
      ∀ k, let prs := pairsIn (autoPairs l) (InLogBin p.minsep p.binsize p.nbins k)
        (accumulate Acc.zero es).weight k = bruteW prs ∧
        (accumulate Acc.zero es).kk k = bruteKK prs ∧
        ((∀ o ∈ l, 0 < o.w) → (accumulate Acc.zero es).npairs k = bruteN prs) :=
  auto_exact_of A g hg fp hf l (log_binExact hp hb l l) hw hmin

/-- `bin_slop = 0` makes `min_size = 0` for the Euclidean metric (for the other metrics it always is). -/
theorem logMinSize_zero {p : Params} (ha : 0 ≤ p.a) (hb : p.b = 0) : (logMinMaxSize p).1 = 0 := by
  simp [logMinMaxSize, hb, ha]

/-! ### The hypotheses can be met -/

noncomputable section

/-- Three bins of width 1 from `min_sep = 1`, no slop. -/
def exLog : Params := { minsep := 1, maxsep := Real.exp 3, nbins := 3, binsize := 1, b := 0, a := 1 / 10 }

theorem exLog_ok : LogParams exLog := by
  constructor <;> norm_num [exLog]

/-- Tree parameters: everything in one top-level cell. -/
def exFp : FieldParams := { minsize := 0, maxsize := 100, sm := .mean, mintop := 0, maxtop := 10 }

theorem ob_valid (x y : ℝ) (i : ℕ) : (ob x y i).Valid := by simp [ob, Obj.Valid]

theorem inLog0 (d : ℝ) (h1 : 1 ≤ d) (h2 : d ≤ 2) : InLogBin 1 1 3 0 d := by
  refine ⟨le_rfl, by norm_num, by simpa [logEdge] using h1, ?_⟩
  have := Real.add_one_lt_exp (x := 1) (by norm_num)
  simp [logEdge]; linarith

theorem not_inLog0 (d : ℝ) (h : 3 ≤ d) : ¬ InLogBin 1 1 3 0 d := by
  rintro ⟨_, _, _, h2⟩
  have := Real.exp_one_lt_three
  simp [logEdge] at h2; linarith

/-- C01 applied to the rows (0,0) against (2,0) and (5,0): bin 0 gets one pair. -/
example : ∃ es, processCross (logBin _) (plainMetric _) exLog
    (buildField (sortAlg _ 0) (euclidGeom 2) exFp [ob 0 0 0])
    (buildField (sortAlg _ 0) (euclidGeom 2) exFp [ob 2 0 0, ob 5 0 1]) = some es ∧
    (accumulate Acc.zero es).npairs 0 = 1 := by
  obtain ⟨es, h, hk⟩ := cross_log_exact (sortAlg _ 0) (sortAlg _ 0) (euclidGeom 2)
    (euclidGeom_dominates 2) exFp exFp rfl rfl exLog_ok rfl [ob 0 0 0] [ob 2 0 0, ob 5 0 1]
    (by simp [ob_valid]) (by simp [ob_valid])
  refine ⟨es, h, ?_⟩
  rw [(hk 0).2.2.2 (by simp [ob]) (by simp [ob])]
  have e : crossPairs [ob 0 0 0] [ob 2 0 0, ob 5 0 1] = {(ob 0 0 0, ob 2 0 0), (ob 0 0 0, ob 5 0 1)} := by
    rw [crossPairs_singleton]; rfl
  have d1 : dist (pt 0 0) (pt 2 0) = 2 := by rw [dist_pt_x]; norm_num
  have d2 : dist (pt 0 0) (pt 5 0) = 5 := by rw [dist_pt_x]; norm_num
  have h1 : InLogBin 1 1 3 0 2 := inLog0 _ (by norm_num) (by norm_num)
  have h2 : ¬ InLogBin 1 1 3 0 5 := not_inLog0 _ (by norm_num)
  rw [e]
  simp [pairsIn, Multiset.insert_eq_cons, Multiset.filter_singleton, exLog, d1, d2, h1, h2, bruteN]

/-- C02 applied to the rows (0,0), (2,0), (5,0): bin 0 gets one pair. -/
example : ∃ es, processAuto (decide11 (logBin _) (plainMetric _) exLog false) exLog
    (buildField (sortAlg _ 0) (euclidGeom 2) exFp [ob 0 0 0, ob 2 0 1, ob 5 0 2]).cells = some es ∧
    (accumulate Acc.zero es).npairs 0 = 1 := by
  have d1 : dist (pt 0 0) (pt 2 0) = 2 := by rw [dist_pt_x]; norm_num
  have d2 : dist (pt 0 0) (pt 5 0) = 5 := by rw [dist_pt_x]; norm_num
  have d3 : dist (pt 2 0) (pt 5 0) = 3 := by rw [dist_pt_x]; norm_num
  have e : autoPairs [ob 0 0 0, ob 2 0 1, ob 5 0 2] =
      {(ob 0 0 0, ob 2 0 1), (ob 0 0 0, ob 5 0 2), (ob 2 0 1, ob 5 0 2)} := rfl
  obtain ⟨es, h, hk⟩ := auto_log_exact_partial (sortAlg _ 0) (euclidGeom 2)
    (euclidGeom_dominates 2) exFp rfl exLog_ok rfl [ob 0 0 0, ob 2 0 1, ob 5 0 2]
    (by simp [ob_valid]) (by
      rw [e]
      intro q hq
      simp only [Multiset.insert_eq_cons, Multiset.mem_cons, Multiset.mem_singleton] at hq
      rcases hq with rfl | rfl | rfl <;> simp [ob, exLog, d1, d2, d3])
  refine ⟨es, h, ?_⟩
  rw [(hk 0).2.2 (by simp [ob])]
  have h1 : InLogBin 1 1 3 0 2 := inLog0 _ (by norm_num) (by norm_num)
  have h2 : ¬ InLogBin 1 1 3 0 5 := not_inLog0 _ (by norm_num)
  have h3 : ¬ InLogBin 1 1 3 0 3 := not_inLog0 _ (by norm_num)
  rw [e]
  simp [pairsIn, Multiset.insert_eq_cons, Multiset.filter_singleton, exLog, h1, h2, h3, d1, d2, d3, bruteN]

/-- **C02, negation at the boundary.** A pair separated by exactly `min_sep` belongs to bin 0 but the
auto-correlation drops it: `process2` ignores cells of size `≤ min_sep/2`. -/
theorem auto_min_sep_dropped : ∃ (l : List (Obj (EuclideanSpace ℝ (Fin 2)))) (es : List (Emit _)),
    (∀ o ∈ l, 0 < o.w) ∧
    processAuto (decide11 (logBin _) (plainMetric _) exLog false) exLog
      (buildField (sortAlg _ 0) (euclidGeom 2) exFp l).cells = some es ∧
    (accumulate Acc.zero es).npairs 0 = 0 ∧
    bruteN (pairsIn (autoPairs l) (InLogBin exLog.minsep exLog.binsize exLog.nbins 0)) = 1 := by
  have hm : (euclidGeom 2).mean [ob 0 0 0, ob 1 0 1] = pt (1 / 2) 0 := by
    ext i
    fin_cases i <;> norm_num [euclidGeom, wmean, ob, pt]
  have hs : calcSizeSq (euclidGeom 2) (pt (1 / 2) 0) [ob 0 0 0, ob 1 0 1] = 1 / 4 := by
    have e1 : (euclidGeom 2).normSq (pt (1 / 2) 0) (pt 0 0) = 1 / 4 := by
      simp only [euclidGeom]; rw [← dist_eq_norm, dist_pt_x]; norm_num
    have e2 : (euclidGeom 2).normSq (pt (1 / 2) 0) (pt 1 0) = 1 / 4 := by
      simp only [euclidGeom]; rw [← dist_eq_norm, dist_pt_x]; norm_num [abs_of_neg]
    simp only [calcSizeSq, List.foldl, ob_pos, e1, e2]
    norm_num
  refine ⟨[ob 0 0 0, ob 1 0 1], [], by simp [ob], ?_, by simp [accumulate, Acc.zero], ?_⟩
  · have ht : topCells (sortAlg _ 0) (euclidGeom 2) exFp.sm (exFp.maxsize * exFp.maxsize) exFp.mintop
        exFp.maxtop [ob 0 0 0, ob 1 0 1] = [[ob 0 0 0, ob 1 0 1]] := by
      rw [topCells, hm, hs, if_pos (by norm_num [exFp])]
    simp only [buildField, ht, List.map_cons, List.map_nil]
    rw [buildCell, if_pos (by simp only [cellData]; rw [hm, hs]; norm_num [exFp])]
    have hsz : Real.sqrt (calcSizeSq (euclidGeom 2) (cellData (euclidGeom 2) [ob 0 0 0, ob 1 0 1]).pos
        [ob 0 0 0, ob 1 0 1]) ≤ 0.5 * exLog.minsep := by
      simp only [cellData]
      rw [hm, hs, show (1 / 4 : ℝ) = (1 / 2) ^ 2 by norm_num, Real.sqrt_sq (by norm_num)]
      norm_num [exLog]
    simp only [processAuto, processAutoRow, process2]
    rw [if_neg (by norm_num [ob, cellData]), if_pos hsz]
    simp
  · have d1 : dist (pt 0 0) (pt 1 0) = 1 := by rw [dist_pt_x]; norm_num
    have e : autoPairs [ob 0 0 0, ob 1 0 1] = {(ob 0 0 0, ob 1 0 1)} := rfl
    have h1 : InLogBin 1 1 3 0 1 := inLog0 _ (by norm_num) (by norm_num)
    rw [e]
    simp [pairsIn, Multiset.filter_singleton, exLog, d1, h1, bruteN]

end
end TreeCorr
