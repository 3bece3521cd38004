import Verif.Proofs.TwoD
import Verif.Proofs.SlopWitness
import Verif.Props.Slop
import Verif.Proofs.TwoDWitness

/-!
C04: two-dimensional binning at `bin_slop = 0`.
-/

namespace TreeCorr
open Classical

/-- The pairs whose separation vector (second row minus first) lies in pixel `k`. -/
noncomputable def pairsInPixel (p : Params) (n k : ℤ) (prs : Multiset (Obj Flat2 × Obj Flat2)) :
    Multiset (Obj Flat2 × Obj Flat2) :=
  prs.filter (fun q => InPixel p.maxsep p.binsize n k (q.2.pos - q.1.pos))

/-- **C04, cross.** TwoD bins, `bin_slop = 0`, `min_sep = 0`: every pixel holds exactly the pairs whose separation
vector lies in it.  No vector may be exactly on the lower or left border of the square. -/
theorem cross_twoD_exact_partial (A1 A2 : StdAlg Flat2) (fp1 fp2 : FieldParams) (hf1 : fp1.minsize = 0)
    (hf2 : fp2.minsize = 0) {p : Params} {n : ℤ} (hp : TwoDParams p n) (l1 l2 : List (Obj Flat2))
    (hw1 : ∀ o ∈ l1, o.Valid) (hw2 : ∀ o ∈ l2, o.Valid)
    (hlow : ∀ o1 ∈ l1, ∀ o2 ∈ l2, (o2.pos - o1.pos) 0 ≠ -p.maxsep ∧ (o2.pos - o1.pos) 1 ≠ -p.maxsep) :
    ∃ es, processCross twoDBin (plainMetric Flat2) p (buildField A1 (euclidGeom 2) fp1 l1)
        (buildField A2 (euclidGeom 2) fp2 l2) = some es ∧
      ∀ k, let prs := pairsInPixel p n k (crossPairs l1 l2)
        (accumulate Acc.zero es).weight k = bruteW prs ∧
        (accumulate Acc.zero es).nk k = bruteNK prs ∧
        (accumulate Acc.zero es).kk k = bruteKK prs ∧
        ((∀ o ∈ l1, 0 < o.w) → (∀ o ∈ l2, 0 < o.w) →
          (accumulate Acc.zero es).npairs k = bruteN prs) := by
  have g1 := buildField_cellOf A1 _ (euclidGeom_dominates 2) fp1 hf1 l1 hw1
  have g2 := buildField_cellOf A2 _ (euclidGeom_dominates 2) fp2 hf2 l2 hw2
  by_cases hfar : fieldsTooFar twoDBin (plainMetric Flat2) p (buildField A1 (euclidGeom 2) fp1 l1)
      (buildField A2 (euclidGeom 2) fp2 l2)
  · refine ⟨[], by rw [processCross, if_pos hfar], ?_⟩
    intro k
    have : pairsInPixel p n k (crossPairs l1 l2) = 0 := by
      rw [pairsInPixel, Multiset.filter_eq_nil]
      intro q hq hpix
      rw [mem_crossPairs] at hq
      obtain ⟨⟨r1, r2⟩, r3, r4⟩ := pixel_range hp hpix
      have hl := hlow _ hq.1 _ hq.2
      have r1' := lt_of_le_of_ne r1 (Ne.symm hl.1)
      have r3' := lt_of_le_of_ne r3 (Ne.symm hl.2)
      have hd := dist_near (buildField_center A1 _ (euclidGeom_dominates 2) fp1 l1 _ hq.1)
        (buildField_center A2 _ (euclidGeom_dominates 2) fp2 l2 _ hq.2)
      simp only [fieldsTooFar, plainMetric, false_or, and_true] at hfar
      rcases hfar with h | h
      · have := h.1
        rw [hp.minsep] at this
        nlinarith [sq_nonneg (dist (buildField A1 (euclidGeom 2) fp1 l1).center
          (buildField A2 (euclidGeom 2) fp2 l2).center)]
      · have h3 := tooLarge2_sound dist_nonneg hd h.2
        have h4 := flat_dist_le q.1.pos q.2.pos hp.maxsep_pos.le
          (by rw [abs_sub_comm]; exact abs_lt.2 ⟨by simpa using r1', by simpa using r2⟩)
          (by rw [abs_sub_comm]; exact abs_lt.2 ⟨by simpa using r3', by simpa using r4⟩)
        linarith
    rw [this]
    simp [accumulate, Acc.zero, bruteN, bruteW, bruteNK, bruteKK]
  · have hx : ExactDecide (decide11 twoDBin (plainMetric Flat2) p false) (CellOf l1) (CellOf l2)
        (fun k q => InPixel p.maxsep p.binsize n k (q.2.pos - q.1.pos)) ZeroPair := {
      honest := decide11_honest _ _ _ _
      safe := (twoD_safeSplit p hp.b.ge 0 0 false).mono (fun _ h => h.1.1.1) (fun _ h => h.1.1.1)
      dir := by
        intro a b e ha hb h q h1 h2 k
        have := (twoD_direct hp ha.1.1.1 hb.1.1.1 h h1 h2).1
        constructor
        · intro hk; exact pixel_unique hp.binsize this hk
        · rintro rfl; exact this
      drop := by
        intro a b ha hb h q h1 h2 k hin
        by_cases hwa : a.w = 0
        · exact Or.inl (ha.1.zero hwa h1)
        by_cases hwb : b.w = 0
        · exact Or.inr (hb.1.zero hwb h2)
        exact (twoD_drop hp ha.1.1.1 hb.1.1.1 hwa hwb h h1 h2 (hlow _ (ha.2 _ h1) _ (hb.2 _ h2)) k hin).elim }
    obtain ⟨es, hes, hc, hk⟩ := crossLoop_exact hx (hered_cellOf l1) (hered_cellOf l2) g1 g2
    refine ⟨es, by rw [processCross, if_neg hfar]; exact hes, ?_⟩
    intro k
    obtain ⟨D, hD, hz⟩ := hk k
    obtain ⟨s1, s2, s3, s4⟩ := sums_of_exact hc.k2_none
      (hc.sumsOK (decide11_honest _ _ _ _) (fun _ h => h.1.1.2) (fun _ h => h.1.1.2)) hD hz
    rw [crossPairs_perm (buildField_objs A1 _ fp1 l1) (buildField_objs A2 _ fp2 l2)] at s1 s2 s3 s4
    refine ⟨s1, s2, s3, fun p1 p2 => s4 ?_⟩
    intro q hq
    rw [Multiset.mem_filter, mem_crossPairs] at hq
    exact not_zeroPair (p1 _ hq.1.1) (p2 _ hq.1.2)

/-- **C04, auto.** Every pixel holds exactly the ordered pairs of distinct rows whose separation vector lies in it:
each unordered pair is counted in the pixel of `q-p` and in that of `p-q`.  No separation vector may lie on a grid
line (see `twoD_grid_line_misplaced`); coinciding rows are allowed and are not counted. -/
theorem auto_twoD_exact_partial (A : StdAlg Flat2) (fp : FieldParams) (hf : fp.minsize = 0)
    {p : Params} {n : ℤ} (hp : TwoDParams p n) (l : List (Obj Flat2)) (hw : ∀ o ∈ l, o.Valid)
    (hgrid : ∀ o1 ∈ l, ∀ o2 ∈ l, o1.pos ≠ o2.pos → ∀ i : ℤ,
      (o2.pos - o1.pos) 0 ≠ linEdge (-p.maxsep) p.binsize i ∧
      (o2.pos - o1.pos) 1 ≠ linEdge (-p.maxsep) p.binsize i) :
    ∃ es, processAuto (decide11 twoDBin (plainMetric Flat2) p true) p
        (buildField A (euclidGeom 2) fp l).cells = some es ∧
      ∀ k, let prs := pairsInPixel p n k (orderedPairs l)
        (accumulate Acc.zero es).weight k = bruteW prs ∧
        (accumulate Acc.zero es).kk k = bruteKK prs ∧
        ((∀ o ∈ l, 0 < o.w) → (accumulate Acc.zero es).npairs k = bruteN prs) := by
  have g1 := buildField_cellOf A _ (euclidGeom_dominates 2) fp hf l hw
  obtain ⟨es, hes⟩ := processAuto_total (decide11 twoDBin (plainMetric Flat2) p true) p hp.minsep.ge (CellOf l)
    (hered_cellOf l) ((twoD_safeSplit p hp.b.ge 0 0 true).mono (fun _ h => h.1.1.1) (fun _ h => h.1.1.1)) _ g1
  have hc := processAuto_covers (decide11 twoDBin (plainMetric Flat2) p true) (decide11_honest _ _ _ _) p
    (CellOf l) (hered_cellOf l) _ g1 es hes
  refine ⟨es, hes, ?_⟩
  intro k
  have hsum := hc.sumsOK (decide11_honest _ _ _ _) (fun _ h => h.1.1.2)
  obtain ⟨D, D2, hD, he, hd, hd2⟩ := hc
  set A1 : Obj Flat2 × Obj Flat2 → Prop := fun q => InPixel p.maxsep p.binsize n k (q.2.pos - q.1.pos) with hA1
  have ne_of : ∀ q : Obj Flat2 × Obj Flat2, q.2.pos - q.1.pos ≠ 0 → q.1.pos ≠ q.2.pos :=
    fun q h h' => h (by rw [h', sub_self])
  have drops : ∀ q : Obj Flat2 × Obj Flat2, q ∈ D → (A1 q ∨ A1 q.swap) → ZeroPair q := by
    intro q hq hor
    obtain ⟨a, b, qa, qb, hab, q1, q2⟩ := hd q hq
    by_cases hwa : a.w = 0
    · exact Or.inl (qa.1.zero hwa q1)
    by_cases hwb : b.w = 0
    · exact Or.inr (qb.1.zero hwb q2)
    exfalso
    have hne : q.1.pos ≠ q.2.pos := by
      rcases hor with h | h
      · exact ne_of _ h.1
      · exact (ne_of _ h.1).symm
    have hg := hgrid _ (qa.2 _ q1) _ (qb.2 _ q2) hne
    have e0 : linEdge (-p.maxsep) p.binsize 0 = -p.maxsep := by simp [linEdge]
    have hl : (q.2.pos - q.1.pos) 0 ≠ -p.maxsep ∧ (q.2.pos - q.1.pos) 1 ≠ -p.maxsep := by
      have := hg 0
      rwa [e0] at this
    have nd := twoD_drop hp qa.1.1.1 qb.1.1.1 hwa hwb hab q1 q2 hl
    rcases hor with h | h
    · exact nd k h
    · obtain ⟨hv, i, j, i0, i1, j0, j1, _, si, sj⟩ := h
      simp only [Prod.fst_swap, Prod.snd_swap] at hv si sj
      have hg' := hgrid _ (qb.2 _ q2) _ (qa.2 _ q1) hne.symm
      have m0 := strip_neg hp si (hg' i).1
      have m1 := strip_neg hp sj (hg' j).2
      refine nd ((n - 1 - j) * n + (n - 1 - i)) ⟨?_, n - 1 - i, n - 1 - j, by omega, by omega, by omega, by omega, rfl,
        ?_, ?_⟩
      · rw [← neg_sub]; exact neg_ne_zero.2 hv
      · simpa using m0
      · simpa using m1
  have smalls : ∀ q : Obj Flat2 × Obj Flat2, q ∈ D2 → (A1 q ∨ A1 q.swap) → ZeroPair q := by
    intro q hq hor
    obtain ⟨c, qc, hcase, q1, q2⟩ := hd2 q hq
    rcases hcase with h | h
    · exact Or.inl (qc.1.zero h q1)
    · exfalso
      rw [hp.minsep] at h
      have hs : c.size = 0 := le_antisymm (by linarith) qc.1.1.1.size_nonneg
      have e1 := pos_eq_of_size qc.1.1.1 hs q1
      have e2 := pos_eq_of_size qc.1.1.1 hs q2
      rcases hor with h | h
      · exact ne_of _ h.1 (e1.trans e2.symm)
      · exact ne_of _ h.1 (e2.trans e1.symm)
  have fwd : pairsAt es k = (pairsOf es).filter A1 := by
    apply pairsAt_eq_filter es k (fun k q => InPixel p.maxsep p.binsize n k (q.2.pos - q.1.pos))
    intro e hmem q h1 h2
    obtain ⟨a, b, qa, qb, hab⟩ := he e hmem
    obtain ⟨e1, e2⟩ := decide11_honest _ _ _ _ a b e hab
    rw [e1] at h1
    rw [e2] at h2
    have := (twoD_direct hp qa.1.1.1 qb.1.1.1 hab h1 h2).1
    constructor
    · intro hk; exact pixel_unique hp.binsize this hk
    · rintro rfl; exact this
  have rev : pairsAtRev es k = (pairsOf es).filter (fun q => A1 q.swap) := by
    apply pairsAtRev_eq_filter
    intro e hmem q h1 h2 _
    obtain ⟨a, b, qa, qb, hab⟩ := he e hmem
    obtain ⟨e1, e2⟩ := decide11_honest _ _ _ _ a b e hab
    rw [e1] at h1
    rw [e2] at h2
    obtain ⟨d1, d2⟩ := twoD_direct hp qa.1.1.1 qb.1.1.1 hab h1 h2
    have hg := hgrid _ (qa.2 _ h1) _ (qb.2 _ h2) (ne_of _ d1.1)
    obtain ⟨k2, hk2, hp2⟩ := d2 rfl ⟨fun i => (hg i).1, fun i => (hg i).2⟩
    rw [hk2]
    constructor
    · intro hk; rw [pixel_unique hp.binsize hp2 hk]
    · intro hk
      injection hk with hk
      rw [hk] at hp2
      exact hp2
  have hsplit : ∀ B : Obj Flat2 × Obj Flat2 → Prop, (pairsOf es).filter B + (D.filter B + D2.filter B)
      = (autoPairs (objsOf (buildField A (euclidGeom 2) fp l).cells)).filter B := by
    intro B
    rw [← hD, Multiset.filter_add, Multiset.filter_add, add_assoc]
  apply sums_of_exact_rev hsum (buildField_objs A _ fp l) (A := A1) (D := D.filter A1 + D2.filter A1)
    (D' := D.filter (fun q => A1 q.swap) + D2.filter (fun q => A1 q.swap))
  · rw [fwd]; exact hsplit A1
  · rw [rev]; exact hsplit (fun q => A1 q.swap)
  · intro q hq
    rcases Multiset.mem_add.1 hq with hq | hq
    · rw [Multiset.mem_filter] at hq; exact drops q hq.1 (Or.inl hq.2)
    · rw [Multiset.mem_filter] at hq; exact smalls q hq.1 (Or.inl hq.2)
  · intro q hq
    rcases Multiset.mem_add.1 hq with hq | hq
    · rw [Multiset.mem_filter] at hq; exact drops q hq.1 (Or.inr hq.2)
    · rw [Multiset.mem_filter] at hq; exact smalls q hq.1 (Or.inr hq.2)

/-- C04 (cross) applied to the row (0,0) against (2,0) and (4,0), with vectors on an interior grid line: pixel 5
(dx in [2,6), dy in [-2,2)) gets both pairs. -/
example : ∃ es, processCross twoDBin (plainMetric Flat2) exTwoD
    (buildField (sortAlg _ 0) (euclidGeom 2) exFp [ob 0 0 0])
    (buildField (sortAlg _ 0) (euclidGeom 2) exFp [ob 2 0 0, ob 4 0 1]) = some es ∧
    (accumulate Acc.zero es).npairs 5 = 2 := by
  obtain ⟨es, h, hk⟩ := cross_twoD_exact_partial (sortAlg _ 0) (sortAlg _ 0) exFp exFp rfl rfl exTwoD_ok
    [ob 0 0 0] [ob 2 0 0, ob 4 0 1] (by simp [ob_valid]) (by simp [ob_valid])
    (by norm_num [ob, pt, exTwoD])
  refine ⟨es, h, ?_⟩
  rw [(hk 5).2.2.2 (by simp [ob]) (by simp [ob])]
  have e : crossPairs [ob 0 0 0] [ob 2 0 0, ob 4 0 1] = {(ob 0 0 0, ob 2 0 0), (ob 0 0 0, ob 4 0 1)} := by
    rw [crossPairs_singleton]; rfl
  have h1 : InPixel exTwoD.maxsep exTwoD.binsize 3 5 (pt 2 0 - pt 0 0) :=
    pixel_pt 2 1 (by norm_num) (by norm_num) (by norm_num) (by norm_num) (by norm_num) (by norm_num)
      (by norm_num [InStrip, linEdge, exTwoD]) (by norm_num [InStrip, linEdge, exTwoD])
  have h2 : InPixel exTwoD.maxsep exTwoD.binsize 3 5 (pt 4 0 - pt 0 0) :=
    pixel_pt 2 1 (by norm_num) (by norm_num) (by norm_num) (by norm_num) (by norm_num) (by norm_num)
      (by norm_num [InStrip, linEdge, exTwoD]) (by norm_num [InStrip, linEdge, exTwoD])
  rw [e, pairsInPixel, Multiset.filter_eq_self.2]
  · norm_num [bruteN]
  · intro q hq
    simp only [Multiset.insert_eq_cons, Multiset.mem_cons, Multiset.mem_singleton] at hq
    rcases hq with rfl | rfl
    · exact h1
    · exact h2

/-- C04 (auto) applied to the rows (0,0) and (3,1): pixel 3 (dx in [-6,-2), dy in [-2,2)) gets the reversed pair. -/
example : ∃ es, processAuto (decide11 twoDBin (plainMetric Flat2) exTwoD true) exTwoD
    (buildField (sortAlg _ 0) (euclidGeom 2) exFp [ob 0 0 0, ob 3 1 1]).cells = some es ∧
    (accumulate Acc.zero es).npairs 3 = 1 := by
  have odd : ∀ (x : ℤ), x % 4 ≠ 2 → ∀ i : ℤ, (x : ℝ) ≠ linEdge (-exTwoD.maxsep) exTwoD.binsize i := by
    intro x hx i h
    simp only [linEdge, exTwoD] at h
    have : x = -6 + i * 4 := by exact_mod_cast h
    omega
  obtain ⟨es, h, hk⟩ := auto_twoD_exact_partial (sortAlg _ 0) exFp rfl exTwoD_ok
    [ob 0 0 0, ob 3 1 1] (by simp [ob_valid]) (by
      have a1 := odd 3 (by norm_num)
      have a2 := odd 1 (by norm_num)
      have a3 := odd (-3) (by norm_num)
      have a4 := odd (-1) (by norm_num)
      push_cast at a1 a2 a3 a4
      intro o1 h1 o2 h2 hne i
      simp only [List.mem_cons, List.not_mem_nil, or_false] at h1 h2
      rcases h1 with rfl | rfl <;> rcases h2 with rfl | rfl
      · exact absurd rfl hne
      · simpa [ob, pt] using ⟨a1 i, a2 i⟩
      · simpa [ob, pt] using ⟨a3 i, a4 i⟩
      · exact absurd rfl hne)
  refine ⟨es, h, ?_⟩
  rw [(hk 3).2.2 (by simp [ob])]
  have e : orderedPairs [ob 0 0 0, ob 3 1 1] = {(ob 0 0 0, ob 3 1 1), (ob 3 1 1, ob 0 0 0)} := rfl
  have h1 : InPixel exTwoD.maxsep exTwoD.binsize 3 3 (pt 0 0 - pt 3 1) :=
    pixel_pt 0 1 (by norm_num) (by norm_num) (by norm_num) (by norm_num) (by norm_num) (by norm_num)
      (by norm_num [InStrip, linEdge, exTwoD]) (by norm_num [InStrip, linEdge, exTwoD])
  have h2 : ¬ InPixel exTwoD.maxsep exTwoD.binsize 3 3 (pt 3 1 - pt 0 0) := by
    intro h
    have h' : InPixel exTwoD.maxsep exTwoD.binsize 3 5 (pt 3 1 - pt 0 0) :=
      pixel_pt 2 1 (by norm_num) (by norm_num) (by norm_num) (by norm_num) (by norm_num) (by norm_num)
        (by norm_num [InStrip, linEdge, exTwoD]) (by norm_num [InStrip, linEdge, exTwoD])
    have := pixel_unique exTwoD_ok.binsize h h'
    omega
  rw [e, pairsInPixel]
  simp [Multiset.insert_eq_cons, Multiset.filter_singleton, h1, h2, bruteN]

/-- **C04, negation on a grid line.** `bin_slop = 0`, rows (0,0), (2,0), (4,0), pixels of width 4 with edges at
`±2, ±6`.  The vector from (2,0) to (0,0) is (-2,0), which belongs to pixel 4; the auto-correlation counts it in
pixel 3, which should hold one pair and is reported to hold two. -/
theorem twoD_grid_line_misplaced : ∃ (l : List (Obj Flat2)) (es : List (Emit Flat2)),
    TwoDParams exTwoD 3 ∧ (∀ o ∈ l, 0 < o.w) ∧
    processAuto (decide11 twoDBin (plainMetric Flat2) exTwoD true) exTwoD
      (buildField (sortAlg _ 0) (euclidGeom 2) threeFp l).cells = some es ∧
    (accumulate Acc.zero es).npairs 3 = 2 ∧
    bruteN (pairsInPixel exTwoD 3 3 (orderedPairs l)) = 1 := by
  refine ⟨[ob 0 0 0, ob 2 0 1, ob 4 0 2], [em1, em2], exTwoD_ok, by simp [ob], ?_, ?_, ?_⟩
  · rw [three_cells]; exact three_emits
  · simp [accumulate, finishProcess, em1, em2, addAt2, addAt, Acc.zero, lf, nd, Cell.n, Cell.data]
  · rw [orderedPairs_three]
    have no : ∀ x y : ℝ, -2 ≤ y - x → ¬ InPixel exTwoD.maxsep exTwoD.binsize 3 3 (pt y 0 - pt x 0) := by
      rintro x y hxy ⟨_, i, j, i0, i1, j0, j1, hk, si, sj⟩
      have hi : i = 0 := by omega
      subst hi
      have := si.2
      simp [linEdge, exTwoD, pt] at this
      linarith
    have yes : InPixel exTwoD.maxsep exTwoD.binsize 3 3 (pt 0 0 - pt 4 0) :=
      pixel_pt 0 1 (by norm_num) (by norm_num) (by norm_num) (by norm_num) (by norm_num) (by norm_num)
        (by norm_num [InStrip, linEdge, exTwoD]) (by norm_num [InStrip, linEdge, exTwoD])
    have n1 := no 0 2 (by norm_num)
    have n2 := no 0 4 (by norm_num)
    have n3 := no 2 4 (by norm_num)
    have n4 := no 2 0 (by norm_num)
    have n5 := no 4 2 (by norm_num)
    rw [pairsInPixel]
    simp [Multiset.insert_eq_cons, Multiset.filter_cons, Multiset.filter_singleton, yes, n1, n2, n3, n4, n5, bruteN]

/-- **Mean separation, negation.** In the same run, `meanr` of pixel 3 is accumulated as 0 although every pair in
it is at a positive distance: the TwoD single-bin test does not set the separation it reports. -/
theorem twoD_meanr_zero : ∃ (l : List (Obj Flat2)) (es : List (Emit Flat2)),
    TwoDParams exTwoD 3 ∧ (∀ o ∈ l, 0 < o.w) ∧
    processAuto (decide11 twoDBin (plainMetric Flat2) exTwoD true) exTwoD
      (buildField (sortAlg _ 0) (euclidGeom 2) threeFp l).cells = some es ∧
    (accumulate Acc.zero es).weight 3 = 2 ∧ (accumulate Acc.zero es).meanr 3 = 0 ∧
    ∀ o1 ∈ l, ∀ o2 ∈ l, o1 ≠ o2 → 2 ≤ dist o1.pos o2.pos := by
  refine ⟨[ob 0 0 0, ob 2 0 1, ob 4 0 2], [em1, em2], exTwoD_ok, by simp [ob], ?_, ?_, ?_, ?_⟩
  · rw [three_cells]; exact three_emits
  · simp [accumulate, finishProcess, em1, em2, addAt2, addAt, Acc.zero, lf, nd, Cell.w, Cell.data]
  · simp [accumulate, finishProcess, em1, em2, addAt2, addAt, Acc.zero, lf, nd, Cell.w, Cell.data]
  · intro o1 h1 o2 h2 hne
    simp only [List.mem_cons, List.not_mem_nil, or_false] at h1 h2
    rcases h1 with rfl | rfl | rfl <;> rcases h2 with rfl | rfl | rfl <;>
      first
      | exact absurd rfl hne
      | (simp only [ob_pos, dist_pt_x]; norm_num [abs_of_neg])

end TreeCorr
