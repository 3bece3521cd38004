import Verif.Proofs.AtMostOnce
import Verif.Proofs.Parallel
import Verif.Proofs.LinearExact
import Verif.Props.LogCounts

/-!
C06 (no pair is counted twice), C07 (the schedule does not matter), C10 (never below a leaf).
`pairsOf es` are the pairs of rows counted by a run that made the `finishProcess` calls `es`.
-/

namespace TreeCorr
open Classical
variable {P : Type}

/-- **C06, cross.** Any binning, any metric, any slop, any trees: the counted pairs are a sub-multiset of the
pairs with one row from each catalogue, and the counts in any set of bins add up to at most `n1*n2`. -/
theorem cross_at_most_once (A1 A2 : StdAlg P) (g1 g2 : Geom P) (fp1 fp2 : FieldParams) (l1 l2 : List (Obj P))
    (B : BinHelper P) (M : MetricHelper P) (p : Params) (es : List (Emit P))
    (h : processCross B M p (buildField A1 g1 fp1 l1) (buildField A2 g2 fp2 l2) = some es) :
    pairsOf es ≤ crossPairs l1 l2 ∧
    ∀ S : Finset ℤ, ∑ k ∈ S, (accumulate Acc.zero es).npairs k ≤ l1.length * l2.length := by
  unfold processCross at h
  split at h
  · simp only [Option.some.injEq] at h
    subst h
    refine ⟨by simp, ?_⟩
    intro S
    simp only [accumulate, List.foldl_nil, Acc.zero, Finset.sum_const_zero]
    positivity
  · obtain ⟨h1, h2⟩ := crossLoop_counted (buildField_holds A1 g1 fp1 l1) (buildField_holds A2 g2 fp2 l2) h
    refine ⟨h1, ?_⟩
    intro S
    have hc := crossLoop_covers (decide11 B M p false) (decide11_honest _ _ _ _) Cell.SumsOK Cell.SumsOK
      hered_sumsOK hered_sumsOK _ _ (buildField_holds A1 g1 fp1 l1).sums (buildField_holds A2 g2 fp2 l2).sums
      es h
    have hk := hc.k2_none
    have e : ∀ k, (accumulate Acc.zero es).npairs k = bruteN (pairsAt es k) := by
      intro k
      rw [(accumulate_eq Acc.zero es hk h2 k).1]
      simp [Acc.zero]
    simp only [e]
    apply (sum_pairsAt_le es S).trans
    have := Multiset.card_le_card h1
    rw [card_crossPairs] at this
    unfold bruteN
    exact_mod_cast this

/-- **C06, auto.** No unordered pair of distinct rows is counted more than once per direction, nothing else is
counted, and the counts add up to at most `n(n-1)/2` (twice that for TwoD bins, where both directions
are counted). -/
theorem auto_at_most_once (A : StdAlg P) (g : Geom P) (fp : FieldParams) (l : List (Obj P))
    (B : BinHelper P) (M : MetricHelper P) (p : Params) (es : List (Emit P))
    (h : processAuto (decide11 B M p B.doReverse) p (buildField A g fp l).cells = some es) :
    (pairsOf es).map (fun q => s(q.1, q.2)) ≤ (autoPairs l).map (fun q => s(q.1, q.2)) ∧
    ∀ S : Finset ℤ, ∑ k ∈ S, (accumulate Acc.zero es).npairs k
      ≤ (if B.doReverse then 2 else 1) * (l.length.choose 2 : ℝ) := by
  obtain ⟨h1, h2⟩ := auto_counted (buildField_holds A g fp l) h
  refine ⟨h1, ?_⟩
  intro S
  have hcard : bruteN (pairsOf es) ≤ (l.length.choose 2 : ℝ) := by
    have := Multiset.card_le_card h1
    rw [Multiset.card_map, Multiset.card_map, card_autoPairs] at this
    unfold bruteN
    exact_mod_cast this
  have e : ∀ k, (accumulate Acc.zero es).npairs k = bruteN (pairsAt es k) + bruteN (pairsAtRev es k) := by
    intro k
    rw [(accumulate_eq_rev Acc.zero es h2 k).1]
    simp [Acc.zero]
  simp only [e, Finset.sum_add_distrib]
  have s1 := sum_pairsAt_le es S
  cases hr : B.doReverse with
  | true =>
    have s2 := sum_pairsAtRev_le es S
    simp only [if_true]
    linarith
  | false =>
    rw [hr] at h
    have hc := processAuto_covers (decide11 B M p false) (decide11_honest _ _ _ _) p Cell.SumsOK
      hered_sumsOK _ (buildField_holds A g fp l).sums es h
    have hk := hc.k2_none
    have : ∀ k, bruteN (pairsAtRev es k) = 0 := by
      intro k
      have : es.filter (fun e => e.k2 = some k) = [] := by
        rw [List.filter_eq_nil_iff]
        intro e he
        simp [hk e he]
      simp [pairsAtRev, this, bruteN]
    simp only [this, Finset.sum_const_zero]
    simp
    linarith

/-- With rows that have different indices, at-most-once in terms of indices: no pair of a row with itself is
counted. -/
theorem auto_never_self (A : StdAlg P) (g : Geom P) (fp : FieldParams) (l : List (Obj P))
    (hl : (l.map Obj.idx).Nodup) (B : BinHelper P) (M : MetricHelper P) (p : Params) (es : List (Emit P))
    (h : processAuto (decide11 B M p B.doReverse) p (buildField A g fp l).cells = some es) :
    ∀ q ∈ pairsOf es, q.1.idx ≠ q.2.idx := by
  intro q hq
  have hm := Multiset.mem_of_le (auto_at_most_once A g fp l B M p es h).1 (Multiset.mem_map_of_mem _ hq)
  obtain ⟨q', hq', he⟩ := Multiset.mem_map.1 hm
  have key : ∀ l : List (Obj P), (l.map Obj.idx).Nodup → ∀ q ∈ autoPairs l, q.1.idx ≠ q.2.idx := by
    intro l
    induction l with
    | nil => intro _ q hq; simp [autoPairs] at hq
    | cons x xs ih =>
      intro hn q hq
      simp only [List.map_cons, List.nodup_cons] at hn
      simp only [autoPairs, Multiset.mem_add, Multiset.mem_coe, List.mem_map] at hq
      rcases hq with ⟨y, hy, rfl⟩ | hq
      · intro he
        exact hn.1 (by rw [he]; exact List.mem_map_of_mem hy)
      · exact ih hn.2 q hq
  have := key l hl q' hq'
  rcases Sym2.eq_iff.1 he with ⟨h1, h2⟩ | ⟨h1, h2⟩
  · rwa [← h1, ← h2]
  · rw [← h1, ← h2]; exact this.symm

/-- **C07, auto.** Whatever number of threads, whatever rows each of them gets in whatever order, and whatever
the order of the final additions: the arrays are those of the serial run, added to what was there. -/
theorem auto_schedule_independent (act : Cell P → Cell P → Action P) (p : Params) (cells : List (Cell P))
    (es : List (Emit P)) (h : processAuto act p cells = some es) (s : Schedule) (hs : s.Of cells.length)
    (A : Acc) : processAutoPar act p cells s A = some (accumulate A es) := by
  obtain ⟨ess, h1, h2⟩ := processAuto_rows act p cells h
  rw [processAutoPar, parallelLoop_eq _ s _ hs A h1, h2]

/-- **C07, cross.** -/
theorem cross_schedule_independent (B : BinHelper P) (M : MetricHelper P) (p : Params) (f1 f2 : Field P)
    (es : List (Emit P)) (h : processCross B M p f1 f2 = some es) (s : Schedule)
    (hs : s.Of f1.cells.length) (A : Acc) :
    processCrossPar B M p f1 f2 s A = some (accumulate A es) := by
  unfold processCross at h
  unfold processCrossPar
  split at h
  · simp only [Option.some.injEq] at h
    subst h
    rename_i hf
    rw [if_pos hf]; rfl
  · rename_i hf
    rw [if_neg hf]
    obtain ⟨ess, h1, h2⟩ := processCross_rows _ _ _ h
    rw [parallelLoop_eq _ s _ hs A h1, h2]

/-- **C10, cross.** For every tree the builder makes, whatever the weights, and Log, Linear or TwoD bins with
any slop `≥ 0`, the traversal never dereferences a missing child.  (It terminates because `process11` is
a total function.) -/
theorem cross_never_below_leaf [PseudoMetricSpace P] (A1 A2 : StdAlg P) (g : Geom P) (hg : g.Dominates)
    (fp1 fp2 : FieldParams) (h1 : 0 ≤ fp1.minsize) (h2 : 0 ≤ fp2.minsize) (l1 l2 : List (Obj P))
    (p : Params) (hb : 0 ≤ p.b) :
    (processCross (logBin P) (plainMetric P) p (buildField A1 g fp1 l1) (buildField A2 g fp2 l2)).isSome ∧
    (processCross (linearBin P) (plainMetric P) p (buildField A1 g fp1 l1) (buildField A2 g fp2 l2)).isSome := by
  constructor <;> unfold processCross <;> split
  · rfl
  · rw [Option.isSome_iff_exists]
    exact crossLoop_total _ _ _ (hered_bounded _) (hered_bounded _) (log_safeSplit p _ _ false) _ _
      (fun c hc => (buildField_bounded A1 g hg fp1 h1 l1 c hc).1)
      (fun c hc => (buildField_bounded A2 g hg fp2 h2 l2 c hc).1)
  · rfl
  · rw [Option.isSome_iff_exists]
    exact crossLoop_total _ _ _ (hered_bounded _) (hered_bounded _) (linear_safeSplit p hb _ _ false) _ _
      (fun c hc => (buildField_bounded A1 g hg fp1 h1 l1 c hc).1)
      (fun c hc => (buildField_bounded A2 g hg fp2 h2 l2 c hc).1)

/-- **C10, TwoD cross.** -/
theorem cross_twoD_never_below_leaf (A1 A2 : StdAlg Flat2) (fp1 fp2 : FieldParams)
    (h1 : 0 ≤ fp1.minsize) (h2 : 0 ≤ fp2.minsize) (l1 l2 : List (Obj Flat2)) (p : Params) (hb : 0 ≤ p.b) :
    (processCross twoDBin (plainMetric Flat2) p (buildField A1 (euclidGeom 2) fp1 l1)
      (buildField A2 (euclidGeom 2) fp2 l2)).isSome := by
  unfold processCross
  split
  · rfl
  · rw [Option.isSome_iff_exists]
    exact crossLoop_total _ _ _ (hered_bounded _) (hered_bounded _) (twoD_safeSplit p hb _ _ false) _ _
      (fun c hc => (buildField_bounded A1 _ (euclidGeom_dominates 2) fp1 h1 l1 c hc).1)
      (fun c hc => (buildField_bounded A2 _ (euclidGeom_dominates 2) fp2 h2 l2 c hc).1)

/-- **C10, auto.** -/
theorem auto_never_below_leaf [PseudoMetricSpace P] (A : StdAlg P) (g : Geom P) (hg : g.Dominates)
    (fp : FieldParams) (h : 0 ≤ fp.minsize) (l : List (Obj P))
    (p : Params) (hb : 0 ≤ p.b) (hm : 0 ≤ p.minsep) :
    (processAuto (decide11 (logBin P) (plainMetric P) p false) p (buildField A g fp l).cells).isSome ∧
    (processAuto (decide11 (linearBin P) (plainMetric P) p false) p (buildField A g fp l).cells).isSome := by
  constructor <;> rw [Option.isSome_iff_exists]
  · exact processAuto_total _ p hm _ (hered_bounded _) (log_safeSplit p _ _ false) _
      (fun c hc => (buildField_bounded A g hg fp h l c hc).1)
  · exact processAuto_total _ p hm _ (hered_bounded _) (linear_safeSplit p hb _ _ false) _
      (fun c hc => (buildField_bounded A g hg fp h l c hc).1)

/-- **C10, TwoD auto.** -/
theorem auto_twoD_never_below_leaf (A : StdAlg Flat2) (fp : FieldParams)
    (h : 0 ≤ fp.minsize) (l : List (Obj Flat2)) (p : Params) (hb : 0 ≤ p.b) (hm : 0 ≤ p.minsep) :
    (processAuto (decide11 twoDBin (plainMetric Flat2) p true) p
      (buildField A (euclidGeom 2) fp l).cells).isSome := by
  rw [Option.isSome_iff_exists]
  exact processAuto_total _ p hm _ (hered_bounded _) (twoD_safeSplit p hb _ _ true) _
      (fun c hc => (buildField_bounded A _ (euclidGeom_dominates 2) fp h l c hc).1)

/-! ### The hypotheses can be met -/

/-- A run with slop, mixed-sign weights and merged leaves: it succeeds (C10) and C06 and C07 apply to it with
two threads, the second of which finishes first. -/
example (p : Params) (hb : 0 ≤ p.b) (hm : 0 ≤ p.minsep) (A : Acc) :
    let fp : FieldParams := { minsize := 1/2, maxsize := 1, sm := .median, mintop := 1, maxtop := 3 }
    let l := [ob 0 0 0, { ob 2 0 1 with w := -1 }, ob 5 0 2, ob 5 0 3]
    let f := buildField (sortAlg _ 0) (euclidGeom 2) fp l
    ∃ es, processAuto (decide11 (logBin _) (plainMetric _) p false) p f.cells = some es ∧
      ∑ k ∈ {0, 1, 2}, (accumulate Acc.zero es).npairs k ≤ 6 ∧
      ∀ n, f.cells.length = n + 1 →
        processAutoPar (decide11 (logBin _) (plainMetric _) p false) p f.cells
          [[n], List.range n] A = some (accumulate A es) := by
  intro fp l f
  have h := (auto_never_below_leaf (sortAlg _ 0) (euclidGeom 2) (euclidGeom_dominates 2) fp
    (by norm_num [fp]) l p hb hm).1
  obtain ⟨es, hes⟩ := Option.isSome_iff_exists.1 h
  refine ⟨es, hes, ?_, ?_⟩
  · have := (auto_at_most_once (sortAlg _ 0) (euclidGeom 2) fp l (logBin _) (plainMetric _) p es hes).2 {0, 1, 2}
    simpa [l, logBin, Nat.choose] using this
  · intro n hn
    apply auto_schedule_independent _ _ _ _ hes
    change ([[n], List.range n] : List (List ℕ)).flatten.Perm (List.range f.cells.length)
    rw [hn, List.range_succ]
    simp only [List.flatten_cons, List.flatten_nil, List.append_nil]
    exact List.perm_append_comm

end TreeCorr
