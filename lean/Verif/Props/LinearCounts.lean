import Verif.Proofs.LinearExact
import Verif.Proofs.Witness
import Verif.Props.LogCounts

/-!
C03: linear bins at `bin_slop = 0`.
-/

namespace TreeCorr
open Classical
variable {P : Type}

/-- **C03, cross.** Linear bins, `bin_slop = 0`: if no pair is separated by exactly the upper edge of some
bin (see `linear_edge_misplaced`), every bin holds exactly the pairs whose separation is in that bin. -/
theorem cross_linear_exact_partial [PseudoMetricSpace P] (A1 A2 : StdAlg P) (g : Geom P) (hg : g.Dominates)
    (fp1 fp2 : FieldParams) (hf1 : fp1.minsize = 0) (hf2 : fp2.minsize = 0)
    {p : Params} (hp : LinParams p) (hb : p.b = 0) (l1 l2 : List (Obj P))
    (hw1 : ∀ o ∈ l1, o.Valid) (hw2 : ∀ o ∈ l2, o.Valid)
    (hedge : ∀ o1 ∈ l1, ∀ o2 ∈ l2, ∀ k : ℤ, 0 < k → k ≤ p.nbins →
      dist o1.pos o2.pos ≠ linEdge p.minsep p.binsize k) :
    ∃ es, processCross (linearBin P) (plainMetric P) p (buildField A1 g fp1 l1) (buildField A2 g fp2 l2)
        = some es ∧
      ∀ k, let prs := pairsIn (crossPairs l1 l2) (InLinBin p.minsep p.binsize p.nbins k)
        (accumulate Acc.zero es).weight k = bruteW prs ∧
        (accumulate Acc.zero es).nk k = bruteNK prs ∧
        (accumulate Acc.zero es).kk k = bruteKK prs ∧
        ((∀ o ∈ l1, 0 < o.w) → (∀ o ∈ l2, 0 < o.w) →
          (accumulate Acc.zero es).npairs k = bruteN prs) :=
  cross_exact_of A1 A2 g hg fp1 fp2 hf1 hf2 l1 l2 (linear_binExact hp hb l1 l2 hedge) hw1 hw2

/-- **C03, auto.** The same for the unordered pairs of distinct rows; also no pair may be separated by exactly
`min_sep` (with `min_sep = 0`: no two rows may coincide). -/
theorem auto_linear_exact_partial [PseudoMetricSpace P] (A : StdAlg P) (g : Geom P) (hg : g.Dominates)
    (fp : FieldParams) (hf : fp.minsize = 0) {p : Params} (hp : LinParams p) (hb : p.b = 0)
    (l : List (Obj P)) (hw : ∀ o ∈ l, o.Valid)
    (hedge : ∀ o1 ∈ l, ∀ o2 ∈ l, ∀ k : ℤ, 0 < k → k ≤ p.nbins →
      dist o1.pos o2.pos ≠ linEdge p.minsep p.binsize k)
    (hmin : ∀ q ∈ autoPairs l, dist q.1.pos q.2.pos ≠ p.minsep) :
    ∃ es, processAuto (decide11 (linearBin P) (plainMetric P) p false) p (buildField A g fp l).cells
        = some es ∧
      ∀ k, let prs := pairsIn (autoPairs l) (InLinBin p.minsep p.binsize p.nbins k)
        (accumulate Acc.zero es).weight k = bruteW prs ∧
        (accumulate Acc.zero es).kk k = bruteKK prs ∧
        ((∀ o ∈ l, 0 < o.w) → (accumulate Acc.zero es).npairs k = bruteN prs) :=
  auto_exact_of A g hg fp hf l (linear_binExact hp hb l l hedge) hw hmin

/-- `bin_slop = 0` makes `min_size = 0`. -/
theorem linMinSize_zero {p : Params} (ha : 0 ≤ p.a) (hm : 0 ≤ p.minsep) (hb : p.b = 0) :
    (linMinMaxSize p).1 = 0 := by
  simp only [linMinMaxSize, hb, zero_div]
  exact min_eq_right (by positivity)

/-! ### The hypotheses can be met -/

noncomputable section

/-- Three bins of width 1 from `min_sep = 10`, no slop. -/
def exLin : Params := { minsep := 10, maxsep := 13, nbins := 3, binsize := 1, b := 0, a := 1 / 10 }

theorem exLin_ok : LinParams exLin := by
  constructor <;> norm_num [exLin]

/-- C03 applied to the rows (0,0) against (10.5,0) and (12.5,0): bin 2 gets one pair. -/
example : ∃ es, processCross (linearBin _) (plainMetric _) exLin
    (buildField (sortAlg _ 0) (euclidGeom 2) exFp [ob 0 0 0])
    (buildField (sortAlg _ 0) (euclidGeom 2) exFp [ob (21/2) 0 0, ob (25/2) 0 1]) = some es ∧
    (accumulate Acc.zero es).npairs 2 = 1 := by
  have d1 : dist (pt 0 0) (pt (21/2) 0) = 21/2 := by rw [dist_pt_x]; norm_num
  have d2 : dist (pt 0 0) (pt (25/2) 0) = 25/2 := by rw [dist_pt_x]; norm_num
  obtain ⟨es, h, hk⟩ := cross_linear_exact_partial (sortAlg _ 0) (sortAlg _ 0) (euclidGeom 2)
    (euclidGeom_dominates 2) exFp exFp rfl rfl exLin_ok rfl [ob 0 0 0] [ob (21/2) 0 0, ob (25/2) 0 1]
    (by simp [ob_valid]) (by simp [ob_valid]) (by
      intro o1 h1 o2 h2 k hk0 hk1 he
      simp only [List.mem_cons, List.not_mem_nil, or_false] at h1 h2
      subst h1
      simp only [exLin] at hk1
      have : k = 1 ∨ k = 2 ∨ k = 3 := by omega
      rcases h2 with rfl | rfl
      · rw [ob_pos, ob_pos, d1] at he
        rcases this with rfl | rfl | rfl <;> norm_num [linEdge, exLin] at he
      · rw [ob_pos, ob_pos, d2] at he
        rcases this with rfl | rfl | rfl <;> norm_num [linEdge, exLin] at he)
  refine ⟨es, h, ?_⟩
  rw [(hk 2).2.2.2 (by simp) (by simp)]
  have e : crossPairs [ob 0 0 0] [ob (21/2) 0 0, ob (25/2) 0 1]
      = {(ob 0 0 0, ob (21/2) 0 0), (ob 0 0 0, ob (25/2) 0 1)} := by
    rw [crossPairs_singleton]; rfl
  have h1 : ¬ InLinBin 10 1 3 2 (21/2) := by norm_num [InLinBin, linEdge]
  have h2 : InLinBin 10 1 3 2 (25/2) := by norm_num [InLinBin, linEdge]
  rw [e]
  simp [pairsIn, Multiset.insert_eq_cons, Multiset.filter_singleton, exLin, d1, d2, h1, h2, bruteN]

/-- C03 applied to the rows (0,0), (10.5,0), (12.5,0) of one catalogue: bin 0 gets one pair. -/
example : ∃ es, processAuto (decide11 (linearBin _) (plainMetric _) exLin false) exLin
    (buildField (sortAlg _ 0) (euclidGeom 2) exFp [ob 0 0 0, ob (21/2) 0 1, ob (25/2) 0 2]).cells = some es ∧
    (accumulate Acc.zero es).npairs 0 = 1 := by
  have d1 : dist (pt 0 0) (pt (21/2) 0) = 21/2 := by rw [dist_pt_x]; norm_num
  have d2 : dist (pt 0 0) (pt (25/2) 0) = 25/2 := by rw [dist_pt_x]; norm_num
  have d3 : dist (pt (21/2) 0) (pt (25/2) 0) = 2 := by rw [dist_pt_x]; norm_num
  have d1' : dist (pt (21/2) 0) (pt 0 0) = 21/2 := by rw [dist_comm, d1]
  have d2' : dist (pt (25/2) 0) (pt 0 0) = 25/2 := by rw [dist_comm, d2]
  have d3' : dist (pt (25/2) 0) (pt (21/2) 0) = 2 := by rw [dist_comm, d3]
  have e : autoPairs [ob 0 0 0, ob (21/2) 0 1, ob (25/2) 0 2] =
      {(ob 0 0 0, ob (21/2) 0 1), (ob 0 0 0, ob (25/2) 0 2), (ob (21/2) 0 1, ob (25/2) 0 2)} := rfl
  obtain ⟨es, h, hk⟩ := auto_linear_exact_partial (sortAlg _ 0) (euclidGeom 2)
    (euclidGeom_dominates 2) exFp rfl exLin_ok rfl [ob 0 0 0, ob (21/2) 0 1, ob (25/2) 0 2]
    (by simp [ob_valid]) (by
      intro o1 h1 o2 h2 k hk0 hk1 he
      simp only [List.mem_cons, List.not_mem_nil, or_false] at h1 h2
      simp only [exLin] at hk1
      have : k = 1 ∨ k = 2 ∨ k = 3 := by omega
      rcases h1 with rfl | rfl | rfl <;> rcases h2 with rfl | rfl | rfl <;>
        simp only [ob_pos, d1, d2, d3, d1', d2', d3', dist_self] at he <;>
        rcases this with rfl | rfl | rfl <;> norm_num [linEdge, exLin] at he) (by
      rw [e]
      intro q hq
      simp only [Multiset.insert_eq_cons, Multiset.mem_cons, Multiset.mem_singleton] at hq
      rcases hq with rfl | rfl | rfl <;> simp only [ob_pos, d1, d2, d3] <;> norm_num [exLin])
  refine ⟨es, h, ?_⟩
  rw [(hk 0).2.2 (by simp)]
  have h1 : InLinBin 10 1 3 0 (21/2) := by norm_num [InLinBin, linEdge]
  have h2 : ¬ InLinBin 10 1 3 0 (25/2) := by norm_num [InLinBin, linEdge]
  have h3 : ¬ InLinBin 10 1 3 0 2 := by norm_num [InLinBin, linEdge]
  rw [e]
  simp [pairsIn, Multiset.insert_eq_cons, Multiset.filter_singleton, exLin, h1, h2, h3, d1, d2, d3, bruteN]

/-- **C03, negation on an edge.** (0,0) against (10,0) and (11,0): the pair at separation 11 belongs to the
bin [11,12) but is counted in [10,11), because `singleBin` accepts a pair of cells whose largest
separation is exactly the upper edge. -/
theorem linear_edge_misplaced : ∃ (l1 l2 : List (Obj (EuclideanSpace ℝ (Fin 2)))) (es : List (Emit _)),
    (∀ o ∈ l1, 0 < o.w) ∧ (∀ o ∈ l2, 0 < o.w) ∧
    processCross (linearBin _) (plainMetric _) exLin
      (buildField (sortAlg _ 0) (euclidGeom 2) exFp l1)
      (buildField (sortAlg _ 0) (euclidGeom 2) exFp l2) = some es ∧
    (accumulate Acc.zero es).npairs 0 = 2 ∧ (accumulate Acc.zero es).npairs 1 = 0 ∧
    bruteN (pairsIn (crossPairs l1 l2) (InLinBin exLin.minsep exLin.binsize exLin.nbins 0)) = 1 ∧
    bruteN (pairsIn (crossPairs l1 l2) (InLinBin exLin.minsep exLin.binsize exLin.nbins 1)) = 1 := by
  obtain ⟨l, r, _, _, _, _, _, hf⟩ := field_two (sortAlg _ 0) exFp 10 11 0 0 0 1
    (by norm_num [exFp]) (by norm_num [exFp]) (by norm_num [exFp])
  have hsz : Real.sqrt (((11 - 10 : ℝ) / 2) ^ 2 + ((0 - 0) / 2) ^ 2) = 1 / 2 := by
    rw [show (((11 - 10 : ℝ) / 2) ^ 2 + ((0 - 0) / 2) ^ 2) = (1 / 2) ^ 2 by norm_num,
      Real.sqrt_sq (by norm_num)]
  have hps : pt ((10 + 11) / 2) ((0 + 0) / 2) = pt (21 / 2) 0 := by norm_num
  rw [hsz, hps] at hf
  have dd : dist (pt 0 0) (pt (21 / 2) 0) = 21 / 2 := by rw [dist_pt_x]; norm_num
  set c1 : Cell (EuclideanSpace ℝ (Fin 2)) := .leaf ⟨pt 0 0, 1, 1, 0⟩ [ob 0 0 0] with hc1
  set c2 : Cell (EuclideanSpace ℝ (Fin 2)) := .node ⟨pt (21 / 2) 0, 2, 2, 0⟩ (1 / 2) l r with hc2
  have hsb : linearSingleBin ((21 / 2) ^ 2) (1 / 2) exLin
      = some { k := 0, r := 21 / 2, logr := Real.log (21 / 2) } := by
    have hs : Real.sqrt ((21 / 2) ^ 2) = 21 / 2 := Real.sqrt_sq (by norm_num)
    have ht : truncInt ((21 / 2 - 10) / 1) = 0 := by norm_num [truncInt]
    unfold linearSingleBin
    simp only [exLin, hs, ht]
    norm_num
  have hact : decide11 (linearBin _) (plainMetric _) exLin false c1 c2 =
      .direct { c1 := c1, c2 := c2, rsq := (21 / 2) ^ 2, r := 21 / 2, logr := Real.log (21 / 2), k := 0,
                k2 := none } := by
    rw [decide11_plain]
    have p1 : c1.pos = pt 0 0 := rfl
    have p2 : c2.pos = pt (21 / 2) 0 := rfl
    have w1 : c1.w = 1 := rfl
    have w2 : c2.w = 2 := rfl
    have s1 : c1.size + c2.size = 1 / 2 := by
      change (0 : ℝ) + 1 / 2 = 1 / 2
      norm_num
    rw [p1, p2, dd, w1, w2, s1]
    rw [if_neg (by norm_num), if_neg (by norm_num [linearBin, exLin]), if_neg (by norm_num [linearBin, exLin])]
    have : (linearBin (EuclideanSpace ℝ (Fin 2))).singleBin ((21 / 2) ^ 2) (1 / 2) (pt 0 0) (pt (21 / 2) 0) exLin
      = some { k := 0, r := 21 / 2, logr := Real.log (21 / 2) } := hsb
    rw [this]
    simp only
    rw [if_pos (by norm_num [linearBin, exLin])]
    simp [directProcess11, exLin]
  refine ⟨[ob 0 0 0], [ob 10 0 0, ob 11 0 1], [⟨c1, c2, (21 / 2) ^ 2, 21 / 2, Real.log (21 / 2), 0, none⟩], by simp, by simp, ?_, ?_, ?_, ?_, ?_⟩
  · rw [hf, field_one, processCross, if_neg]
    · have h11 := process11_direct hact
      simp [processCrossLoop, processCrossRow, ← hc1, h11]
    · simp only [fieldsTooFar, plainMetric, dd, linearBin, exLin]
      norm_num
  · simp [accumulate, finishProcess, addAt2, addAt, Acc.zero, Cell.n, Cell.data, hc1, hc2]
  · simp [accumulate, finishProcess, addAt2, addAt, Acc.zero]
  all_goals
    have d1 : dist (pt 0 0) (pt 10 0) = 10 := by rw [dist_pt_x]; norm_num
    have d2 : dist (pt 0 0) (pt 11 0) = 11 := by rw [dist_pt_x]; norm_num
    have e : crossPairs [ob 0 0 0] [ob 10 0 0, ob 11 0 1]
        = {(ob 0 0 0, ob 10 0 0), (ob 0 0 0, ob 11 0 1)} := by
      rw [crossPairs_singleton]; rfl
    rw [e]
  · have h1 : InLinBin 10 1 3 0 10 := by norm_num [InLinBin, linEdge]
    have h2 : ¬ InLinBin 10 1 3 0 11 := by norm_num [InLinBin, linEdge]
    simp [pairsIn, Multiset.insert_eq_cons, Multiset.filter_singleton, exLin, d1, d2, h1, h2, bruteN]
  · have h1 : ¬ InLinBin 10 1 3 1 10 := by norm_num [InLinBin, linEdge]
    have h2 : InLinBin 10 1 3 1 11 := by norm_num [InLinBin, linEdge]
    simp [pairsIn, Multiset.insert_eq_cons, Multiset.filter_singleton, exLin, d1, d2, h1, h2, bruteN]

end
end TreeCorr
