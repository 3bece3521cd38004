import Verif.Proofs.Local
import Verif.Props.Patch
import Verif.Props.TwoD
import Verif.Props.Periodic
import Verif.Props.Trivial

/-!
C67: `patch_method='local'` for two-point objects.
-/

namespace TreeCorr
open Classical
section
variable {d : ℕ}

/-- In 3d coordinates: every row and every patch centre is at a distance of at least 1 from the origin. -/
def UnitFar (threeD : Bool) (cats : List (ℕ × List (Obj (EuclideanSpace ℝ (Fin d))))) : Prop :=
  threeD = true → ∀ c ∈ cats, FarOut c.2

theorem UnitFar.near {threeD : Bool} {cats1 cats2 : List (ℕ × List (Obj (EuclideanSpace ℝ (Fin d))))}
    (h1 : UnitFar threeD cats1) (h2 : UnitFar threeD cats2) :
    ∀ c1 ∈ cats1, ∀ c2 ∈ cats2, CollapseNear threeD (centerSize c1.2).1 c2.2 :=
  fun c1 m1 c2 m2 => collapseNear_of fun h => ⟨h1 h c1 m1, h2 h c2 m2⟩

/-! ### Cross-correlations -/

/-- **C67, cross, Log.** `process(cat1, cat2, patch_method='local')`, `bin_slop = 0`: every bin gets exactly the pairs of
rows with a separation in that bin, however the two catalogues are divided.  Missing: 3d coordinates nearer than 1 to the origin, for which it is
false (`local_3d_wrong`); other metrics (`local_periodic_wrong`). -/
theorem local_cross_log_partial (A : StdAlg (EuclideanSpace ℝ (Fin d))) (fp : FieldParams) (hf : fp.minsize = 0)
    {p : Params} (hp : LogParams p) (hb : p.b = 0) (nn threeD : Bool)
    (cats1 cats2 : List (ℕ × List (Obj (EuclideanSpace ℝ (Fin d))))) (hid : (cats1.map Prod.fst).Nodup)
    (h1 : UnitFar threeD cats1) (h2 : UnitFar threeD cats2)
    (hw1 : ∀ o ∈ cats1.flatMap Prod.snd, o.Valid) (hw2 : ∀ o ∈ cats2.flatMap Prod.snd, o.Valid)
    (S : Corr) (k : ℤ) :
    let R := ((treeKit A fp (logBin _) (plainMetric _) p nn).localCross threeD p.maxsep true cats1 cats2 S).self.acc
    let prs := pairsIn (crossPairs (cats1.flatMap Prod.snd) (cats2.flatMap Prod.snd))
      (InLogBin p.minsep p.binsize p.nbins k)
    R.weight k = bruteW prs ∧ R.nk k = bruteNK prs ∧ R.kk k = bruteKK prs ∧
      ((∀ o ∈ cats1.flatMap Prod.snd, 0 < o.w) → (∀ o ∈ cats2.flatMap Prod.snd, 0 < o.w) →
        R.npairs k = bruteN prs) :=
  local_cross_exact_of A fp hf (Or.inl rfl) (fun _ _ h => (InLogBin.range hp h).2) nn threeD cats1 cats2 hid
    (h1.near h2) (fun _ _ _ _ => log_binExact hp hb _ _) hw1 hw2 S k

/-- **C67, cross, Linear.** -/
theorem local_cross_linear_partial (A : StdAlg (EuclideanSpace ℝ (Fin d))) (fp : FieldParams) (hf : fp.minsize = 0)
    {p : Params} (hp : LinParams p) (hb : p.b = 0) (nn threeD : Bool)
    (cats1 cats2 : List (ℕ × List (Obj (EuclideanSpace ℝ (Fin d))))) (hid : (cats1.map Prod.fst).Nodup)
    (h1 : UnitFar threeD cats1) (h2 : UnitFar threeD cats2)
    (hw1 : ∀ o ∈ cats1.flatMap Prod.snd, o.Valid) (hw2 : ∀ o ∈ cats2.flatMap Prod.snd, o.Valid)
    (hedge : ∀ o1 ∈ cats1.flatMap Prod.snd, ∀ o2 ∈ cats2.flatMap Prod.snd, ∀ k : ℤ, 0 < k → k ≤ p.nbins →
      dist o1.pos o2.pos ≠ linEdge p.minsep p.binsize k)
    (S : Corr) (k : ℤ) :
    let R := ((treeKit A fp (linearBin _) (plainMetric _) p nn).localCross threeD p.maxsep true cats1 cats2 S).self.acc
    let prs := pairsIn (crossPairs (cats1.flatMap Prod.snd) (cats2.flatMap Prod.snd))
      (InLinBin p.minsep p.binsize p.nbins k)
    R.weight k = bruteW prs ∧ R.nk k = bruteNK prs ∧ R.kk k = bruteKK prs ∧
      ((∀ o ∈ cats1.flatMap Prod.snd, 0 < o.w) → (∀ o ∈ cats2.flatMap Prod.snd, 0 < o.w) →
        R.npairs k = bruteN prs) :=
  local_cross_exact_of A fp hf (Or.inr rfl) (fun _ _ h => h.range hp) nn threeD cats1 cats2 hid (h1.near h2)
    (fun _ _ m1 m2 => linear_binExact hp hb _ _ fun o1 h1 o2 h2 => hedge o1 (m1 o1 h1) o2 (m2 o2 h2)) hw1 hw2 S k

/-- **C67, the two modes agree**, cross, Log: the same arrays as `patch_method='global'`. -/
theorem local_cross_is_global (A : StdAlg (EuclideanSpace ℝ (Fin d))) (fp : FieldParams) (hf : fp.minsize = 0)
    {p : Params} (hp : LogParams p) (hb : p.b = 0) (nn : Bool)
    (cats1 cats2 : List (ℕ × List (Obj (EuclideanSpace ℝ (Fin d))))) (hid1 : (cats1.map Prod.fst).Nodup)
    (hid2 : (cats2.map Prod.fst).Nodup)
    (hw1 : ∀ o ∈ cats1.flatMap Prod.snd, 0 < o.w) (hw2 : ∀ o ∈ cats2.flatMap Prod.snd, 0 < o.w)
    (hv1 : ∀ o ∈ cats1.flatMap Prod.snd, o.Valid) (hv2 : ∀ o ∈ cats2.flatMap Prod.snd, o.Valid) (S : Corr) (k : ℤ) :
    let K := treeKit A fp (logBin _) (plainMetric _) p nn
    let R := (K.localCross false p.maxsep true cats1 cats2 S).self.acc
    let G := (K.processCross true cats1 cats2 S).self.acc
    R.weight k = G.weight k ∧ R.nk k = G.nk k ∧ R.kk k = G.kk k ∧ R.npairs k = G.npairs k := by
  intro K R G
  have a := local_cross_log_partial A fp hf hp hb nn false cats1 cats2 hid1 (by simp [UnitFar]) (by simp [UnitFar]) hv1 hv2 S k
  have b := patched_cross_log_exact A fp hf hp hb nn cats1 cats2 hid1 hid2 hv1 hv2 S k
  exact ⟨a.1.trans b.1.symm, a.2.1.trans b.2.1.symm, a.2.2.1.trans b.2.2.1.symm,
    (a.2.2.2 hw1 hw2).trans (b.2.2.2 hw1 hw2).symm⟩

/-! ### Auto-correlations -/

/-- **C67, auto, Log.** `process(cat, patch_method='local')`: every pair of rows is counted in both orders.  The arrays are
twice what the definition of the auto-correlation asks for. -/
theorem local_auto_log_partial (A : StdAlg (EuclideanSpace ℝ (Fin d))) (fp : FieldParams) (hf : fp.minsize = 0)
    {p : Params} (hp : LogParams p) (hb : p.b = 0) (nn threeD : Bool)
    (cats : List (ℕ × List (Obj (EuclideanSpace ℝ (Fin d))))) (hid : (cats.map Prod.fst).Nodup)
    (h1 : UnitFar threeD cats) (hw : ∀ o ∈ cats.flatMap Prod.snd, o.Valid) (S : Corr) (k : ℤ) :
    let R := ((treeKit A fp (logBin _) (plainMetric _) p nn).localAuto threeD p.maxsep true cats S).self.acc
    let prs := pairsIn (autoPairs (cats.flatMap Prod.snd)) (InLogBin p.minsep p.binsize p.nbins k)
    R.weight k = 2 * bruteW prs ∧ R.kk k = 2 * bruteKK prs ∧
      ((∀ o ∈ cats.flatMap Prod.snd, 0 < o.w) → R.npairs k = 2 * bruteN prs) := by
  intro R prs
  obtain ⟨a1, _, a3, a4⟩ := local_cross_log_partial A fp hf hp hb nn threeD cats cats hid h1 h1 hw hw S k
  have h0 : ∀ o : Obj (EuclideanSpace ℝ (Fin d)), ¬ InLogBin p.minsep p.binsize p.nbins k (dist o.pos o.pos) := by
    intro o h
    have := (InLogBin.range hp h).1
    rw [dist_self] at this
    linarith [hp.minsep]
  refine ⟨?_, ?_, ?_⟩
  · refine a1.trans ?_
    rw [bruteW_pairsIn, bruteW_pairsIn, crossPairs_self_sum _ _ (by intro x y; simp only [dist_comm x.pos, mul_comm x.w])]
    simp only [h0, if_false, List.map_const', List.sum_replicate, smul_zero, add_zero]
  · refine a3.trans ?_
    rw [bruteKK_pairsIn, bruteKK_pairsIn, crossPairs_self_sum _ _ (by intro x y; simp only [dist_comm x.pos, mul_comm x.wk])]
    simp only [h0, if_false, List.map_const', List.sum_replicate, smul_zero, add_zero]
  · intro hpos
    refine (a4 hpos hpos).trans ?_
    rw [bruteN_pairsIn, bruteN_pairsIn, crossPairs_self_sum _ _ (by intro x y; simp only [dist_comm x.pos])]
    simp only [h0, if_false, List.map_const', List.sum_replicate, smul_zero, add_zero]

/-- **C67, auto, Linear.** As for Log bins; but with `min_sep = 0` every row is also paired with itself, in
bin 0. -/
theorem local_auto_linear_partial (A : StdAlg (EuclideanSpace ℝ (Fin d))) (fp : FieldParams) (hf : fp.minsize = 0)
    {p : Params} (hp : LinParams p) (hb : p.b = 0) (nn threeD : Bool)
    (cats : List (ℕ × List (Obj (EuclideanSpace ℝ (Fin d))))) (hid : (cats.map Prod.fst).Nodup)
    (h1 : UnitFar threeD cats) (hw : ∀ o ∈ cats.flatMap Prod.snd, o.Valid)
    (hedge : ∀ o1 ∈ cats.flatMap Prod.snd, ∀ o2 ∈ cats.flatMap Prod.snd, ∀ k : ℤ, 0 < k → k ≤ p.nbins →
      dist o1.pos o2.pos ≠ linEdge p.minsep p.binsize k)
    (S : Corr) (k : ℤ) :
    let R := ((treeKit A fp (linearBin _) (plainMetric _) p nn).localAuto threeD p.maxsep true cats S).self.acc
    let prs := pairsIn (autoPairs (cats.flatMap Prod.snd)) (InLinBin p.minsep p.binsize p.nbins k)
    let own := p.minsep = 0 ∧ k = 0 ∧ 0 < p.nbins
    R.weight k = 2 * bruteW prs + (if own then ((cats.flatMap Prod.snd).map fun o => o.w ^ 2).sum else 0) ∧
    R.kk k = 2 * bruteKK prs + (if own then ((cats.flatMap Prod.snd).map fun o => o.wk ^ 2).sum else 0) ∧
      ((∀ o ∈ cats.flatMap Prod.snd, 0 < o.w) →
        R.npairs k = 2 * bruteN prs + (if own then ((cats.flatMap Prod.snd).length : ℝ) else 0)) := by
  intro R prs own
  obtain ⟨a1, _, a3, a4⟩ := local_cross_linear_partial A fp hf hp hb nn threeD cats cats hid h1 h1 hw hw hedge S k
  have h0 : ∀ o : Obj (EuclideanSpace ℝ (Fin d)),
      InLinBin p.minsep p.binsize p.nbins k (dist o.pos o.pos) ↔ own := by
    intro o
    rw [dist_self]
    simp only [InLinBin, linEdge, own]
    have hb' := hp.binsize
    have hm := hp.minsep
    constructor
    · rintro ⟨k1, k2, k3, k4⟩
      have k1' : (0:ℝ) ≤ k := by exact_mod_cast k1
      have : 0 ≤ (k:ℝ) * p.binsize := by positivity
      have hms : p.minsep = 0 := by linarith
      have hk0 : (k:ℝ) * p.binsize = 0 := by linarith
      rcases mul_eq_zero.1 hk0 with h | h
      · have : k = 0 := by exact_mod_cast h
        exact ⟨hms, this, by omega⟩
      · linarith
    · rintro ⟨e1, rfl, e3⟩
      refine ⟨le_rfl, e3, by simp [e1], ?_⟩
      push_cast
      rw [e1]
      linarith
  refine ⟨?_, ?_, ?_⟩
  · refine a1.trans ?_
    rw [bruteW_pairsIn, bruteW_pairsIn, crossPairs_self_sum _ _ (by intro x y; simp only [dist_comm x.pos, mul_comm x.w])]
    simp only [h0]
    by_cases ho : own
    · simp only [if_pos ho, sq]
    · simp only [if_neg ho, List.map_const', List.sum_replicate, smul_zero]
  · refine a3.trans ?_
    rw [bruteKK_pairsIn, bruteKK_pairsIn, crossPairs_self_sum _ _ (by intro x y; simp only [dist_comm x.pos, mul_comm x.wk])]
    simp only [h0]
    by_cases ho : own
    · simp only [if_pos ho, sq]
    · simp only [if_neg ho, List.map_const', List.sum_replicate, smul_zero]
  · intro hpos
    refine (a4 hpos hpos).trans ?_
    rw [bruteN_pairsIn, bruteN_pairsIn, crossPairs_self_sum _ _ (by intro x y; simp only [dist_comm x.pos])]
    simp only [h0]
    by_cases ho : own
    · simp [if_pos ho]
    · simp only [if_neg ho, List.map_const', List.sum_replicate, smul_zero]

/-- **C67, the total of an auto-correlation** (NN): the square of the sum of weights, twice the total of the global
mode.  No patch may be empty. -/
theorem local_auto_tot (A : StdAlg (EuclideanSpace ℝ (Fin d))) (fp : FieldParams)
    {B : BinHelper (EuclideanSpace ℝ (Fin d))} (hB : B = logBin _ ∨ B = linearBin _) {p : Params} (hm : 0 < p.maxsep)
    (threeD : Bool) (cats : List (ℕ × List (Obj (EuclideanSpace ℝ (Fin d))))) (hid : (cats.map Prod.fst).Nodup)
    (h1 : UnitFar threeD cats) (hne : ∀ c ∈ cats, c.2 ≠ []) (S : Corr) :
    ((treeKit A fp B (plainMetric _) p true).localAuto threeD p.maxsep true cats S).self.tot
      = ((cats.flatMap Prod.snd).map Obj.w).sum ^ 2 := by
  have hK := treeKit_good A fp B (plainMetric _) p true
  simp only [Kit.localAuto, Kit.localCross, if_true]
  rw [allLocal_serial hK _ _ hid]
  simp only
  rw [Res.sum_tot, List.map_map]
  have hW := treeKit_sumw A fp B (plainMetric _) p true cats
  rw [hW]
  set W := ((cats.flatMap Prod.snd).map Obj.w).sum with hWd
  have key : ∀ c ∈ cats, (Res.tot ∘ fun c : ℕ × List (Obj (EuclideanSpace ℝ (Fin d))) =>
      (treeKit A fp B (plainMetric _) p true).localRes W c.2
        (expandPatch threeD p.maxsep c.2 (cats.map Prod.snd))) c
      = (treeKit A fp B (plainMetric _) p true).sumw c.2 * W := by
    intro c hc
    simp only [Function.comp_apply, expandPatch_eq]
    obtain ⟨o, ho⟩ := List.exists_mem_of_ne_nil _ (hne c hc)
    have hin := expand_self hm hc (h1.near h1 c hc c hc) o ho
    have hnil : (cats.map Prod.snd).flatMap (keptRows threeD p.maxsep c.2) ≠ [] := List.ne_nil_of_mem hin
    rw [if_neg hnil]
    have ht : ¬ (treeKit A fp B (plainMetric _) p true).triv c.2
        ((cats.map Prod.snd).flatMap (keptRows threeD p.maxsep c.2)) := by
      intro ht
      have := trivially_zero_sound_partial _ _ p B hB ht o ho o hin
      rw [dist_self] at this
      linarith
    simp only [Kit.localRes, if_neg ht]
    simp [treeKit]
  rw [List.map_congr_left key, List.sum_map_mul_right, hW, sq]

/-- **C67, estimators.** In every bin the mean product of two values, and the pair weight divided by the total, are the same in
the two modes. -/
theorem local_auto_same_estimates (A : StdAlg (EuclideanSpace ℝ (Fin d))) (fp : FieldParams) (hf : fp.minsize = 0)
    {p : Params} (hp : LogParams p) (hm : 0 < p.maxsep) (hb : p.b = 0)
    (cats : List (ℕ × List (Obj (EuclideanSpace ℝ (Fin d))))) (hid : (cats.map Prod.fst).Nodup)
    (hne : ∀ c ∈ cats, c.2 ≠ []) (hw : ∀ o ∈ cats.flatMap Prod.snd, o.Valid)
    (hmin : ∀ q ∈ autoPairs (cats.flatMap Prod.snd), dist q.1.pos q.2.pos ≠ p.minsep) (S : Corr) (k : ℤ) :
    let K := treeKit A fp (logBin _) (plainMetric _) p true
    let R := (K.localAuto false p.maxsep true cats S).self
    let G := (K.processAuto true cats S).self
    R.acc.kk k / R.acc.weight k = G.acc.kk k / G.acc.weight k ∧ R.acc.weight k / R.tot = G.acc.weight k / G.tot ∧
      R.tot = 2 * G.tot := by
  intro K R G
  have hK := treeKit_good A fp (logBin _) (plainMetric _) p true (d := d)
  obtain ⟨a1, a2, _⟩ := local_auto_log_partial A fp hf hp hb true false cats hid (by simp [UnitFar]) hw S k
  obtain ⟨g1, g2, _⟩ := patched_auto_log_exact A fp hf hp hb true cats hid hw hmin S k
  have t1 : R.tot = _ := local_auto_tot A fp (Or.inl rfl) hm false cats hid (by simp [UnitFar]) hne S
  have t2 : G.tot = _ := patched_auto_tot hK rfl cats hid (S := S)
  have hW : (cats.map fun c => K.sumw c.2).sum = _ := treeKit_sumw A fp (logBin _) (plainMetric _) p true cats
  have t3 : R.tot = 2 * G.tot := by
    rw [t1, t2, ← hW]; ring
  have w2 : R.acc.weight k = 2 * G.acc.weight k := by rw [g1]; exact a1
  have k2 : R.acc.kk k = 2 * G.acc.kk k := by rw [g2]; exact a2
  refine ⟨?_, ?_, t3⟩
  · rw [w2, k2, mul_div_mul_left _ _ two_ne_zero]
  · rw [w2, t3, mul_div_mul_left _ _ two_ne_zero]

/-! ### What is recorded, and MPI -/

/-- **C67, patch results.** The object records one result for each patch of the first catalogue, and its own arrays and
total are their sum. -/
theorem local_results {K : Kit (List (Obj (EuclideanSpace ℝ (Fin d))))} (hK : K.Good) (threeD : Bool) (maxsep : ℝ)
    {cats1 : List (ℕ × List (Obj (EuclideanSpace ℝ (Fin d))))} (cats2 : List (ℕ × List (Obj (EuclideanSpace ℝ (Fin d)))))
    (hid : (cats1.map Prod.fst).Nodup) (S : Corr) :
    let R := K.localCross threeD maxsep true cats1 cats2 S
    R.results.map Prod.fst = cats1.map (fun c => (c.1, c.1)) ∧ R.self = (R.results.map Prod.snd).sum := by
  simp only [Kit.localCross, if_true]
  rw [allLocal_serial hK _ _ hid]
  simp [List.map_map, Function.comp_def]

/-- **C67, MPI, cross.** -/
theorem local_mpi_cross_same {K : Kit (List (Obj (EuclideanSpace ℝ (Fin d))))} (hK : K.Good) (threeD : Bool) (maxsep : ℝ)
    {size : ℕ} (hs : 0 < size) (cats1 cats2 : List (ℕ × List (Obj (EuclideanSpace ℝ (Fin d)))))
    (hid : (cats1.map Prod.fst).Nodup) (hlt : ∀ c ∈ cats1, c.1 < cats1.length) (S : Corr) :
    ∃ R, K.mpiLocalCross size threeD maxsep true cats1 cats2 S = some R ∧
      R.self = (K.localCross threeD maxsep true cats1 cats2 S).self ∧
      ∀ i j, R.results.get (i, j) = (K.localCross threeD maxsep true cats1 cats2 S).results.get (i, j) := by
  simp only [Kit.mpiLocalCross, Kit.localCross, if_true]
  refine allLocal_mpi hK _ _ hid hs (fun r => myCrossJob cats1.length cats2.length size r) ?_
  intro c hc
  have : c.1 < max cats1.length cats2.length := lt_of_lt_of_le (hlt c hc) (le_max_left _ _)
  simpa only [myCrossJob, ite_self] using owner_unique hs this

/-- **C67, MPI, auto.** -/
theorem local_mpi_auto_same {K : Kit (List (Obj (EuclideanSpace ℝ (Fin d))))} (hK : K.Good) (threeD : Bool) (maxsep : ℝ)
    {size : ℕ} (hs : 0 < size) (cats : List (ℕ × List (Obj (EuclideanSpace ℝ (Fin d)))))
    (hid : (cats.map Prod.fst).Nodup) (hlt : ∀ c ∈ cats, c.1 < cats.length) (S : Corr) :
    ∃ R, K.mpiLocalAuto size threeD maxsep true cats S = some R ∧
      R.self = (K.localAuto threeD maxsep true cats S).self ∧
      ∀ i j, R.results.get (i, j) = (K.localAuto threeD maxsep true cats S).results.get (i, j) := by
  simp only [Kit.mpiLocalAuto, Kit.localAuto, Kit.localCross, if_true]
  refine allLocal_mpi hK _ _ hid hs (fun r => myAutoJob cats.length size r) ?_
  intro c hc
  exact autoJob_unique hs (hlt c hc) (hlt c hc)

/-- **C67, the total of a cross-correlation** (NN): the product of the sums of weights, if every patch of the first
catalogue has rows of the second in reach.  Missing: patches with none (`local_cross_tot_wrong`). -/
theorem local_cross_tot_partial {K : Kit (List (Obj (EuclideanSpace ℝ (Fin d))))} (hK : K.Good) (hnn : K.nn = true)
    (threeD : Bool) (maxsep : ℝ) {cats1 cats2 : List (ℕ × List (Obj (EuclideanSpace ℝ (Fin d))))}
    (hid : (cats1.map Prod.fst).Nodup)
    (hne : ∀ c ∈ cats1, ∃ e, expandPatch threeD maxsep c.2 (cats2.map Prod.snd) = some e ∧ ¬ K.triv c.2 e) (S : Corr) :
    (K.localCross threeD maxsep true cats1 cats2 S).self.tot
      = (cats1.map fun c => K.sumw c.2).sum * (cats2.map fun c => K.sumw c.2).sum := by
  simp only [Kit.localCross, if_true]
  rw [allLocal_serial hK _ _ hid]
  simp only
  rw [Res.sum_tot, List.map_map, ← List.sum_map_mul_right]
  congr 1
  apply List.map_congr_left
  intro c hc
  obtain ⟨e, he, ht⟩ := hne c hc
  simp [he, Kit.localRes, ht, hnn]

/-! ### Where the claims fail -/

theorem local_nothing {K : Kit (List (Obj (EuclideanSpace ℝ (Fin d))))} (hK : K.Good) (threeD : Bool) (maxsep : ℝ)
    {cats1 cats2 : List (ℕ × List (Obj (EuclideanSpace ℝ (Fin d))))} (hid : (cats1.map Prod.fst).Nodup)
    (h : ∀ c ∈ cats1, expandPatch threeD maxsep c.2 (cats2.map Prod.snd) = none) (S : Corr) :
    (K.localCross threeD maxsep true cats1 cats2 S).self = 0 := by
  simp only [Kit.localCross, if_true]
  rw [allLocal_serial hK _ _ hid]
  simp only
  apply List.sum_eq_zero
  intro r hr
  obtain ⟨c, hc, rfl⟩ := List.mem_map.1 hr
  rw [h c hc]
  rfl

theorem expand_none {threeD : Bool} {maxsep : ℝ} {c1 : List (Obj (EuclideanSpace ℝ (Fin d)))}
    {cats2 : List (ℕ × List (Obj (EuclideanSpace ℝ (Fin d))))}
    (h : ∀ c ∈ cats2, ∀ o ∈ c.2, (centerSize c1).2 + maxsep ≤ dist (collapse threeD o.pos) (collapse threeD (centerSize c1).1)) :
    expandPatch threeD maxsep c1 (cats2.map Prod.snd) = none := by
  rw [expandPatch_eq, if_pos]
  rw [List.flatMap_eq_nil_iff]
  intro p hp
  obtain ⟨c, hc, rfl⟩ := List.mem_map.1 hp
  unfold keptRows
  split
  · rfl
  · rw [List.filter_eq_nil_iff]
    intro o ho hlt
    have := of_decide_eq_true hlt
    linarith [h c hc o ho]

theorem centerSize_single (o : Obj (EuclideanSpace ℝ (Fin d))) : centerSize [o] = (o.pos, 0) := by
  have c : (centerSize [o]).1 = o.pos := by simp [centerSize]
  have s : (centerSize [o]).2 = 0 := by
    have : (centerSize [o]).2 = Real.sqrt (calcSizeSq (euclidGeom d) (centerSize [o]).1 [o]) := rfl
    rw [this, c]
    simp [calcSizeSq, euclidGeom]
  exact Prod.ext c s

/-- **C67, negation for TwoD bins.** The pixels reach out to `√2 max_sep` in the corners, the expanded patches only to
`max_sep`: rows at (0,0) and (5,5), square of half-width 6.  The pair belongs to pixel 8 but is not counted. -/
theorem local_twoD_wrong : ∃ cats1 cats2 : List (ℕ × List (Obj Flat2)),
    (cats1.map Prod.fst).Nodup ∧ (cats2.map Prod.fst).Nodup ∧ TwoDParams exTwoD 3 ∧
    (∃ o1 ∈ cats1.flatMap Prod.snd, ∃ o2 ∈ cats2.flatMap Prod.snd,
      InPixel exTwoD.maxsep exTwoD.binsize 3 8 (o2.pos - o1.pos) ∧ 0 < o1.w ∧ 0 < o2.w) ∧
    ∀ A fp nn S k, ((treeKit A fp twoDBin (plainMetric _) exTwoD nn).localCross false exTwoD.maxsep true
      cats1 cats2 S).self.acc.npairs k = 0 := by
  refine ⟨[(0, [ob 0 0 0]), (1, [ob (-20) 0 1])], [(0, [ob 5 5 0]), (1, [ob 20 0 1])], by simp, by simp, exTwoD_ok, ?_, ?_⟩
  · refine ⟨ob 0 0 0, by simp, ob 5 5 0, by simp, ⟨?_, 2, 2, ?_⟩, by simp [ob], by simp [ob]⟩
    · intro h
      have := congrArg (fun v : Flat2 => v 0) h
      simp [ob, pt] at this
    · simp only [InStrip, linEdge, exTwoD, ob, pt]
      norm_num
  · intro A fp nn S k
    have hK := treeKit_good A fp twoDBin (plainMetric _) exTwoD nn
    rw [local_nothing hK false _ (by simp) ?_ S]
    · rfl
    · intro c hc
      apply expand_none
      intro c2 hc2 o ho
      have far : ∀ x y x' y' : ℝ, 36 ≤ (x - x') ^ 2 + (y - y') ^ 2 → 6 ≤ dist (pt x y) (pt x' y') := by
        intro x y x' y' h
        rw [dist_pt]
        exact Real.le_sqrt_of_sq_le (by linarith)
      simp only [List.mem_cons, List.not_mem_nil, or_false] at hc hc2
      rcases hc with rfl | rfl <;> rcases hc2 with rfl | rfl <;>
        (simp only [List.mem_singleton] at ho; subst ho
         simp only [centerSize_single, collapse, Bool.false_eq_true, false_and, if_false, zero_add, ob_pos, exTwoD]
         apply far; norm_num)

/-- **C67, negation for 3d coordinates.** The rows are compared on the unit sphere, `max_sep` is not: two rows on the x
axis and two on the y axis, all at a distance of 1/4 from the origin, Log bins from 1/10 to 1.  All four
pairs have the separation √2/4, none is counted. -/
theorem local_3d_wrong : ∃ cats1 cats2 : List (ℕ × List (Obj (EuclideanSpace ℝ (Fin 3)))),
    (cats1.map Prod.fst).Nodup ∧ (cats2.map Prod.fst).Nodup ∧
    (∀ o1 ∈ cats1.flatMap Prod.snd, ∀ o2 ∈ cats2.flatMap Prod.snd,
      1 / 10 < dist o1.pos o2.pos ∧ dist o1.pos o2.pos < 1) ∧ (cats1.flatMap Prod.snd).length = 2 ∧
      (cats2.flatMap Prod.snd).length = 2 ∧
    ∀ K : Kit (List (Obj (EuclideanSpace ℝ (Fin 3)))), K.Good → ∀ S k,
      (K.localCross true 1 true cats1 cats2 S).self.acc.npairs k = 0 := by
  let r : ℝ → ℝ → Obj (EuclideanSpace ℝ (Fin 3)) := fun x y => { pos := pt3 x y 0, w := 1, wk := 0, idx := 0 }
  have hn : ∀ x y : ℝ, ‖pt3 x y 0‖ = Real.sqrt (x ^ 2 + y ^ 2) := by
    intro x y
    have : pt3 x y 0 = pt3 x y 0 - pt3 0 0 0 := by ext i; fin_cases i <;> simp [pt3]
    rw [this, ← dist_eq_norm, dist_pt3]; norm_num
  have hq : Real.sqrt ((1 / 4 : ℝ) ^ 2) = 1 / 4 := Real.sqrt_sq (by norm_num)
  have cl : ∀ x y : ℝ, x ^ 2 + y ^ 2 = (1 / 4 : ℝ) ^ 2 → collapse true (pt3 x y 0) = pt3 (4 * x) (4 * y) 0 := by
    intro x y h
    have hx : ‖pt3 x y 0‖ = 1 / 4 := by rw [hn, h, hq]
    rw [collapse, if_pos ⟨rfl, by rw [hx]; norm_num⟩, hx]
    ext i; fin_cases i <;> simp [pt3]
  refine ⟨[(0, [r (1 / 4) 0]), (1, [r (-(1 / 4)) 0])], [(0, [r 0 (1 / 4)]), (1, [r 0 (-(1 / 4))])], by simp, by simp, ?_,
    rfl, rfl, ?_⟩
  · intro o1 h1 o2 h2
    simp only [List.flatMap_cons, List.flatMap_nil, List.append_nil, List.cons_append, List.nil_append, List.mem_cons,
      List.not_mem_nil, or_false] at h1 h2
    have e : dist o1.pos o2.pos = Real.sqrt (1 / 8) := by
      rcases h1 with rfl | rfl <;> rcases h2 with rfl | rfl <;> (simp only [r]; rw [dist_pt3]; norm_num)
    rw [e]
    refine ⟨Real.lt_sqrt_of_sq_lt (by norm_num), ?_⟩
    rw [Real.sqrt_lt' (by norm_num)]; norm_num
  · intro K hK S k
    rw [local_nothing hK true 1 (by simp) ?_ S]
    · rfl
    · intro c hc
      apply expand_none
      intro c2 hc2 o ho
      simp only [List.mem_cons, List.not_mem_nil, or_false] at hc hc2
      rcases hc with rfl | rfl <;> rcases hc2 with rfl | rfl <;>
        (simp only [List.mem_singleton] at ho; subst ho
         simp only [centerSize_single, zero_add, r]
         rw [cl _ _ (by norm_num), cl _ _ (by norm_num), dist_pt3]
         exact Real.le_sqrt_of_sq_le (by norm_num))

/-- **C67, negation for the Periodic metric.** The expanded patches do not wrap around: rows at x = 1 and x = 9 in a box
of period 10 are at a separation of 2; with `max_sep = 3` the pair is not counted. -/
theorem local_periodic_wrong : ∃ cats1 cats2 : List (ℕ × List (Obj (EuclideanSpace ℝ (Fin 2)))),
    (cats1.map Prod.fst).Nodup ∧ (cats2.map Prod.fst).Nodup ∧
    (∃ o1 ∈ cats1.flatMap Prod.snd, ∃ o2 ∈ cats2.flatMap Prod.snd, perDist (fun _ => 10) o1.pos o2.pos ≤ 2) ∧
    ∀ K : Kit (List (Obj (EuclideanSpace ℝ (Fin 2)))), K.Good → ∀ S k,
      (K.localCross false 3 true cats1 cats2 S).self.acc.npairs k = 0 := by
  refine ⟨[(0, [ob 1 0 0]), (1, [ob 1 5 1])], [(0, [ob 9 0 0]), (1, [ob 9 5 1])], by simp, by simp, ?_, ?_⟩
  · refine ⟨ob 1 0 0, by simp, ob 9 0 0, by simp, ?_⟩
    refine (perDist_le (fun _ => 10) _ _ ![1, 0]).trans ?_
    have : (ob 1 0 0).pos - (ob 9 0 0).pos + image (fun _ => 10) ![1, 0] = pt 2 0 - pt 0 0 := by
      ext i; fin_cases i <;> simp [ob, pt, image]; norm_num
    rw [this, ← dist_eq_norm, dist_pt_x]; norm_num
  · intro K hK S k
    rw [local_nothing hK false 3 (by simp) ?_ S]
    · rfl
    · intro c hc
      apply expand_none
      intro c2 hc2 o ho
      simp only [List.mem_cons, List.not_mem_nil, or_false] at hc hc2
      rcases hc with rfl | rfl <;> rcases hc2 with rfl | rfl <;>
        (simp only [List.mem_singleton] at ho; subst ho
         simp only [centerSize_single, collapse, Bool.false_eq_true, false_and, if_false, zero_add, ob_pos, dist_pt]
         exact Real.le_sqrt_of_sq_le (by norm_num))

/-- **C67, negation for the total.** Rows (0,0) and (30,0) against rows (2,0) and (60,0), one in each patch: nothing of
the second catalogue is in reach of (30,0), and its share of the total is lost: 2 instead of 4. -/
theorem local_cross_tot_wrong : ∃ cats1 cats2 : List (ℕ × List (Obj (EuclideanSpace ℝ (Fin 2)))),
    (cats1.map Prod.fst).Nodup ∧ (cats2.map Prod.fst).Nodup ∧
    (∀ S, ((exKit true).localCross false exLog.maxsep true cats1 cats2 S).self.tot = 2) ∧
    (cats1.map fun c => (exKit true).sumw c.2).sum * (cats2.map fun c => (exKit true).sumw c.2).sum = 4 := by
  have hpos := Real.exp_pos 3
  have hlt := exp3_lt
  have hgt := Real.add_one_le_exp (3 : ℝ)
  refine ⟨[(0, [ob 0 0 0]), (1, [ob 30 0 1])], [(0, [ob 2 0 0]), (1, [ob 60 0 1])], by simp, by simp, ?_, ?_⟩
  · intro S
    have hK : (exKit true).Good := treeKit_good (sortAlg _ 0) exFp (logBin _) (plainMetric _) exLog true (d := 2)
    have e2 : expandPatch false exLog.maxsep [ob 30 0 1] [[ob 2 0 0], [ob 60 0 1]] = none := by
      refine expand_none (cats2 := [(0, [ob 2 0 0]), (1, [ob 60 0 1])]) ?_
      intro c2 hc2 o ho
      simp only [List.mem_cons, List.not_mem_nil, or_false] at hc2
      rcases hc2 with rfl | rfl <;>
        (simp only [List.mem_singleton] at ho; subst ho
         simp only [centerSize_single, collapse, Bool.false_eq_true, false_and, if_false, zero_add, ob_pos, dist_pt_x, exLog]
         norm_num [abs_of_neg]; linarith)
    have e1 : expandPatch false exLog.maxsep [ob 0 0 0] [[ob 2 0 0], [ob 60 0 1]] = some [ob 2 0 0] := by
      have k1 : keptRows false exLog.maxsep [ob 0 0 0] [ob 2 0 0] = [ob 2 0 0] := by
        simp only [keptRows, centerSize_single, collapse, Bool.false_eq_true, false_and, if_false, ob_pos, dist_pt_x, exLog]
        rw [if_neg (by norm_num; linarith), List.filter_cons_of_pos (by
          refine decide_eq_true ?_
          norm_num [dist_pt_x]; linarith), List.filter_nil]
      have k2 : keptRows false exLog.maxsep [ob 0 0 0] [ob 60 0 1] = [] := by
        simp only [keptRows, centerSize_single, collapse, Bool.false_eq_true, false_and, if_false, ob_pos, dist_pt_x, exLog]
        rw [if_pos (by norm_num; linarith)]
      rw [expandPatch_eq]
      simp [k1, k2]
    have h1 : ¬ (exKit true).triv [ob 0 0 0] [ob 2 0 0] := by
      have d1 : dist (pt 0 0) (pt 2 0) = 2 := by rw [dist_pt_x]; norm_num
      show ¬ patchesTriviallyZero _ _ _ _ _
      simp only [patchesTriviallyZero, triviallyZero, plainMetric, logBin, centerSize_one, d1, exLog, and_true]
      rintro ⟨_, h⟩
      nlinarith
    simp only [Kit.localCross, if_true]
    rw [allLocal_serial hK _ _ (by simp)]
    simp only [List.map_cons, List.map_nil, List.sum_cons, List.sum_nil, e1, e2, Kit.localRes, if_neg h1, Res.add_tot,
      Res.zero_tot]
    norm_num [exKit, treeKit, ob, Res.zero]
  · norm_num [exKit, treeKit, ob]

/-! ### The hypotheses can be met -/

/-- Bin 0 of the two patches holds one pair, (0,0) with (2,0), counted twice. -/
example (S : Corr) : ((exKit false).localAuto false exLog.maxsep true twoPatches S).self.acc.npairs 0 = 2 := by
  have d1 : dist (pt 0 0) (pt 2 0) = 2 := by rw [dist_pt_x]; norm_num
  have d2 : dist (pt 0 0) (pt 5 0) = 5 := by rw [dist_pt_x]; norm_num
  have d3 : dist (pt 2 0) (pt 5 0) = 3 := by rw [dist_pt_x]; norm_num
  have ef : twoPatches.flatMap Prod.snd = [ob 0 0 0, ob 2 0 1, ob 5 0 2] := rfl
  have e : autoPairs [ob 0 0 0, ob 2 0 1, ob 5 0 2] =
      {(ob 0 0 0, ob 2 0 1), (ob 0 0 0, ob 5 0 2), (ob 2 0 1, ob 5 0 2)} := rfl
  have := (local_auto_log_partial (sortAlg _ 0) exFp rfl exLog_ok rfl false false twoPatches (by simp [twoPatches])
    (by simp [UnitFar]) (by rw [ef]; simp [ob_valid]) S 0).2.2 (by rw [ef]; simp [ob])
  refine this.trans ?_
  have h1 : InLogBin 1 1 3 0 2 := inLog0 _ (by norm_num) (by norm_num)
  have h2 : ¬ InLogBin 1 1 3 0 5 := not_inLog0 _ (by norm_num)
  have h3 : ¬ InLogBin 1 1 3 0 3 := not_inLog0 _ (by norm_num)
  rw [ef, e]
  simp [pairsIn, Multiset.insert_eq_cons, Multiset.filter_singleton, exLog, h1, h2, h3, d1, d2, d3, bruteN]

/-- The total of the two patches is 9, and 9/2 in the global mode. -/
example (S : Corr) : ((exKit true).localAuto false exLog.maxsep true twoPatches S).self.tot = 9 := by
  have := local_auto_tot (sortAlg _ 0) exFp (Or.inl rfl) (p := exLog) (by simp [exLog, Real.exp_pos]) false twoPatches
    (by simp [twoPatches]) (by simp [UnitFar]) (by simp [twoPatches]) S
  refine this.trans ?_
  norm_num [twoPatches, ob]

end
end TreeCorr
