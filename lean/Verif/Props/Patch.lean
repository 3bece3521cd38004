import Verif.Proofs.PatchHist

/-!
C15–C19: catalogues divided into patches, in one process or under MPI.

`cats` is a list of (patch number, catalogue).  `K` is what counting does with a catalogue or a pair of catalogues
(`treeKit` is the tree code of C01–C11); `K.Good` says that the arrays it returns hold no negative
number of pairs and nothing in bins without pairs, which `treeKit_good` proves of the tree code.
-/

namespace TreeCorr
open Classical
noncomputable section
variable {C : Type}

/-- **C15, auto.** With any number of processes, every job `(i)` or `(i,j)` of an auto-correlation over `n` patches is
done by exactly one process. -/
theorem mpi_auto_job_once {n size i j : ℕ} (hs : 0 < size) (hi : i < n) (hj : j < n) :
    ∃! rank, rank < size ∧ myAutoJob n size rank i j := autoJob_unique hs hi hj

/-- **C15, cross.** -/
theorem mpi_cross_job_once {n1 n2 size i j : ℕ} (hs : 0 < size) (hi : i < n1) (hj : j < n2) :
    ∃! rank, rank < size ∧ myCrossJob n1 n2 size rank i j := crossJob_unique hs hi hj

/-- **C16, auto.** `process(cat, comm=comm)` leaves in the root process the same arrays, the same `tot` and the same
patch-pair results as `process(cat)`, for any number of processes.  Missing: `initialize=False`, for
which it is false (`mpi_prior_counted_again`). -/
theorem mpi_auto_same_partial {K : Kit C} (hK : K.Good) {size : ℕ} (hs : 0 < size) (cats : List (ℕ × C))
    (hid : (cats.map Prod.fst).Nodup) (hlt : ∀ c ∈ cats, c.1 < cats.length) (S : Corr) :
    ∃ R, K.mpiAuto size true cats S = some R ∧ R.self = (K.processAuto true cats S).self ∧
      ∀ i j, R.results.get (i, j) = (K.processAuto true cats S).results.get (i, j) := by
  obtain ⟨R, h1, h2, h3⟩ := gather_jobs hK (autoJobs cats) (autoJobs_nodup hid)
    (fun r => myAutoJob cats.length size r) size hs (by
      intro J hJ
      obtain ⟨a, b⟩ := autoJobs_keys hJ
      obtain ⟨c1, hc1, e1⟩ := List.mem_map.1 a
      obtain ⟨c2, hc2, e2⟩ := List.mem_map.1 b
      exact autoJob_unique hs (e1 ▸ hlt _ hc1) (e2 ▸ hlt _ hc2))
  refine ⟨R, ?_, ?_, ?_⟩
  · simp only [Kit.mpiAuto, allAuto_eq, if_true]
    exact h1
  · rw [processAuto_jobs hK hid]; exact h2
  · intro i j
    rw [processAuto_jobs hK hid]
    exact Dict.get_perm ((h3.map _).nodup_iff.2 (stored_keys_nodup K _ (autoJobs_nodup hid))) h3 _

/-- **C16, cross.** -/
theorem mpi_cross_same_partial {K : Kit C} (hK : K.Good) {size : ℕ} (hs : 0 < size) (cats1 cats2 : List (ℕ × C))
    (hid1 : (cats1.map Prod.fst).Nodup) (hid2 : (cats2.map Prod.fst).Nodup)
    (hlt1 : ∀ c ∈ cats1, c.1 < cats1.length) (hlt2 : ∀ c ∈ cats2, c.1 < cats2.length) (S : Corr) :
    ∃ R, K.mpiCross size true cats1 cats2 S = some R ∧ R.self = (K.processCross true cats1 cats2 S).self ∧
      ∀ i j, R.results.get (i, j) = (K.processCross true cats1 cats2 S).results.get (i, j) := by
  obtain ⟨R, h1, h2, h3⟩ := gather_jobs hK (crossJobs cats1.length cats2.length cats1 cats2)
    (crossJobs_nodup hid1 hid2) (fun r => myCrossJob cats1.length cats2.length size r) size hs (by
      intro J hJ
      obtain ⟨a, b⟩ := crossJobs_keys hJ
      obtain ⟨c1, hc1, e1⟩ := List.mem_map.1 a
      obtain ⟨c2, hc2, e2⟩ := List.mem_map.1 b
      exact crossJob_unique hs (e1 ▸ hlt1 _ hc1) (e2 ▸ hlt2 _ hc2))
  refine ⟨R, ?_, ?_, ?_⟩
  · simp only [Kit.mpiCross, allCross_eq, if_true]
    exact h1
  · rw [processCross_jobs hK hid1 hid2]; exact h2
  · intro i j
    rw [processCross_jobs hK hid1 hid2]
    exact Dict.get_perm ((h3.map _).nodup_iff.2 (stored_keys_nodup K _ (crossJobs_nodup hid1 hid2))) h3 _

/-- **C17, auto.** The `tot` of an `NNCorrelation` over patches is `sumw²/2` for the sum of all weights, whichever pairs
of patches are skipped as trivially zero or turn out to have no pairs. -/
theorem patched_auto_tot {K : Kit C} (hK : K.Good) (hnn : K.nn = true) (cats : List (ℕ × C))
    (hid : (cats.map Prod.fst).Nodup) (S : Corr) :
    (K.processAuto true cats S).self.tot = 0.5 * (cats.map fun c => K.sumw c.2).sum ^ 2 := by
  obtain ⟨l, hl, hsort⟩ := exists_sorted cats hid
  rw [processAuto_jobs hK hid]
  show ((autoJobs cats).map (Job.val K)).sum.tot = _
  rw [autoJobs_sum, rows_perm hl, rows_sorted _ _ _ hsort, Res.add_tot, multiset_tot, Res.sum_tot,
    (hl.map _).sum_eq, ← half_sq_sum]
  congr 1
  · rw [List.map_map]
    congr 1
    apply List.map_congr_left
    intro c _
    simp [Kit.autoRes, hnn]
  · congr 1
    apply Multiset.map_congr rfl
    intro q _
    simp [Job.val, hnn]

/-- **C17, cross.** `sumw1*sumw2`, provided no pair of patches with the same number (and no pair at all if one side is
not divided) is trivially zero.  Without this it is false (`patched_cross_tot_dropped`). -/
theorem patched_cross_tot_partial {K : Kit C} (hK : K.Good) (hnn : K.nn = true) (cats1 cats2 : List (ℕ × C))
    (hid1 : (cats1.map Prod.fst).Nodup) (hid2 : (cats2.map Prod.fst).Nodup)
    (hz : ∀ c1 ∈ cats1, ∀ c2 ∈ cats2, c1.1 = c2.1 ∨ cats1.length = 1 ∨ cats2.length = 1 → ¬ K.triv c1.2 c2.2)
    (S : Corr) :
    (K.processCross true cats1 cats2 S).self.tot
      = (cats1.map fun c => K.sumw c.2).sum * (cats2.map fun c => K.sumw c.2).sum := by
  rw [processCross_jobs hK hid1 hid2]
  show ((crossJobs _ _ cats1 cats2).map (Job.val K)).sum.tot = _
  rw [Res.sum_tot, List.map_map]
  refine (Eq.trans (by rfl) (crossJobs_sum K Res.tot cats1.length cats2.length cats1 cats2)).trans ?_
  rw [← List.sum_map_mul_right]
  congr 1
  apply List.map_congr_left
  intro c1 h1
  rw [← List.sum_map_mul_left]
  congr 1
  apply List.map_congr_left
  intro c2 h2
  have := hz c1 h1 c2 h2
  simp only [Job.val, hnn, true_and]
  rw [if_pos]
  rintro ⟨h3, h4⟩
  simp only [Bool.or_eq_true, decide_eq_true_eq, or_assoc] at h3
  exact this h3 h4

/-- **C18, one call.** After `process` with `initialize=True` the patch-pair results add up to the object, arrays and
`tot`: auto. -/
theorem results_sum_auto {K : Kit C} (hK : K.Good) (cats : List (ℕ × C)) (hid : (cats.map Prod.fst).Nodup) (S : Corr) :
    (K.processAuto true cats S).self = ((K.processAuto true cats S).results.map Prod.snd).sum := by
  rw [processAuto_jobs hK hid]
  exact (stored_total K _).symm

/-- **C18, one call**: cross. -/
theorem results_sum_cross {K : Kit C} (hK : K.Good) (cats1 cats2 : List (ℕ × C)) (hid1 : (cats1.map Prod.fst).Nodup)
    (hid2 : (cats2.map Prod.fst).Nodup) (S : Corr) :
    (K.processCross true cats1 cats2 S).self = ((K.processCross true cats1 cats2 S).results.map Prod.snd).sum := by
  rw [processCross_jobs hK hid1 hid2]
  exact (stored_total K _).symm

/-- **C18, any history.** For every class but `NNCorrelation`, after any sequence of calls, with or without
`initialize`, on any patches, the patch-pair results add up to the object.  For `NNCorrelation` this is
false (`results_sum_nn_history_wrong`). -/
theorem results_sum_history_partial {K : Kit C} (hK : K.Good) (hnn : K.nn = false) (calls : List (Call C)) :
    (calls.foldl (Call.run K) Corr.clear).self
      = ((calls.foldl (Call.run K) Corr.clear).results.map Prod.snd).sum := by
  have : ∀ (S : Corr), HistInv S → HistInv (calls.foldl (Call.run K) S) := by
    induction calls with
    | nil => exact fun S h => h
    | cons c t ih => exact fun S h => ih _ (h.call hK hnn c)
  exact (this _ HistInv.clear).sum

/-- **C19, any pair weight.** `φ` is any of the arrays at some bin and `F` any symmetric weight of a pair of rows.  If counting one
patch gives the sum of `F` over its pairs and counting a pair of patches (or skipping it) gives
the sum over the pairs between them, then the loop over patches gives the sum over all pairs of the undivided catalogue. -/
theorem patched_auto_any {α : Type} {K : Kit (List α)} (hK : K.Good) {cats : List (ℕ × List α)}
    (hid : (cats.map Prod.fst).Nodup) (S : Corr) {φ : Acc → ℝ} (h0 : φ Acc.zero = 0)
    (hadd : ∀ A B : Acc, φ (A.add B) = φ A + φ B) (F : α × α → ℝ) (hF : ∀ x y, F (x, y) = F (y, x))
    (ha : ∀ c ∈ cats, φ (K.auto c.2) = ((autoPairs c.2).map F).sum)
    (hc : ∀ c1 ∈ cats, ∀ c2 ∈ cats, c1.1 < c2.1 → φ (if K.triv c1.2 c2.2 then Acc.zero else K.cross c1.2 c2.2)
      = ((crossPairs c1.2 c2.2).map F).sum) :
    φ (K.processAuto true cats S).self.acc = ((autoPairs (cats.flatMap Prod.snd)).map F).sum :=
  patched_auto_sum hK hid S ⟨h0, hadd⟩ F hF ha hc

/-- **C19, any pair weight**, cross. -/
theorem patched_cross_any {α : Type} {K : Kit (List α)} (hK : K.Good) {cats1 cats2 : List (ℕ × List α)}
    (hid1 : (cats1.map Prod.fst).Nodup) (hid2 : (cats2.map Prod.fst).Nodup) (S : Corr) {φ : Acc → ℝ}
    (h0 : φ Acc.zero = 0) (hadd : ∀ A B : Acc, φ (A.add B) = φ A + φ B) (F : α × α → ℝ)
    (hc : ∀ c1 ∈ cats1, ∀ c2 ∈ cats2, φ (if K.triv c1.2 c2.2 then Acc.zero else K.cross c1.2 c2.2)
      = ((crossPairs c1.2 c2.2).map F).sum) :
    φ (K.processCross true cats1 cats2 S).self.acc
      = ((crossPairs (cats1.flatMap Prod.snd) (cats2.flatMap Prod.snd)).map F).sum :=
  patched_cross_sum hK hid1 hid2 S ⟨h0, hadd⟩ F hc

section
variable {d : ℕ}

/-- **C19, auto, Log.** `bin_slop = 0`: counting a catalogue patch by patch, skipping the pairs of patches that are
trivially zero, gives in every bin exactly the pairs of rows of the whole catalogue whose
separation is in that bin. -/
theorem patched_auto_log_exact (A : StdAlg (EuclideanSpace ℝ (Fin d))) (fp : FieldParams) (hf : fp.minsize = 0)
    {p : Params} (hp : LogParams p) (hb : p.b = 0) (nn : Bool)
    (cats : List (ℕ × List (Obj (EuclideanSpace ℝ (Fin d))))) (hid : (cats.map Prod.fst).Nodup)
    (hw : ∀ o ∈ cats.flatMap Prod.snd, o.Valid)
    (hmin : ∀ q ∈ autoPairs (cats.flatMap Prod.snd), dist q.1.pos q.2.pos ≠ p.minsep) (S : Corr) (k : ℤ) :
    let R := ((treeKit A fp (logBin _) (plainMetric _) p nn).processAuto true cats S).self.acc
    let prs := pairsIn (autoPairs (cats.flatMap Prod.snd)) (InLogBin p.minsep p.binsize p.nbins k)
    R.weight k = bruteW prs ∧ R.kk k = bruteKK prs ∧
      ((∀ o ∈ cats.flatMap Prod.snd, 0 < o.w) → R.npairs k = bruteN prs) :=
  patched_auto_exact_of A fp hf (Or.inl rfl) (fun _ _ h => (InLogBin.range hp h).2) nn cats hid
    (fun _ _ _ _ => log_binExact hp hb _ _) hw hmin S k

/-- **C19, cross, Log.** -/
theorem patched_cross_log_exact (A : StdAlg (EuclideanSpace ℝ (Fin d))) (fp : FieldParams) (hf : fp.minsize = 0)
    {p : Params} (hp : LogParams p) (hb : p.b = 0) (nn : Bool)
    (cats1 cats2 : List (ℕ × List (Obj (EuclideanSpace ℝ (Fin d))))) (hid1 : (cats1.map Prod.fst).Nodup)
    (hid2 : (cats2.map Prod.fst).Nodup)
    (hw1 : ∀ o ∈ cats1.flatMap Prod.snd, o.Valid) (hw2 : ∀ o ∈ cats2.flatMap Prod.snd, o.Valid)
    (S : Corr) (k : ℤ) :
    let R := ((treeKit A fp (logBin _) (plainMetric _) p nn).processCross true cats1 cats2 S).self.acc
    let prs := pairsIn (crossPairs (cats1.flatMap Prod.snd) (cats2.flatMap Prod.snd))
      (InLogBin p.minsep p.binsize p.nbins k)
    R.weight k = bruteW prs ∧ R.nk k = bruteNK prs ∧ R.kk k = bruteKK prs ∧
      ((∀ o ∈ cats1.flatMap Prod.snd, 0 < o.w) → (∀ o ∈ cats2.flatMap Prod.snd, 0 < o.w) →
        R.npairs k = bruteN prs) :=
  patched_cross_exact_of A fp hf (Or.inl rfl) (fun _ _ h => (InLogBin.range hp h).2) nn cats1 cats2 hid1 hid2
    (fun _ _ _ _ => log_binExact hp hb _ _) hw1 hw2 S k

/-- **C19, auto, Linear.** -/
theorem patched_auto_linear_exact (A : StdAlg (EuclideanSpace ℝ (Fin d))) (fp : FieldParams) (hf : fp.minsize = 0)
    {p : Params} (hp : LinParams p) (hb : p.b = 0) (nn : Bool)
    (cats : List (ℕ × List (Obj (EuclideanSpace ℝ (Fin d))))) (hid : (cats.map Prod.fst).Nodup)
    (hw : ∀ o ∈ cats.flatMap Prod.snd, o.Valid)
    (hedge : ∀ o1 ∈ cats.flatMap Prod.snd, ∀ o2 ∈ cats.flatMap Prod.snd, ∀ k : ℤ, 0 < k → k ≤ p.nbins →
      dist o1.pos o2.pos ≠ linEdge p.minsep p.binsize k)
    (hmin : ∀ q ∈ autoPairs (cats.flatMap Prod.snd), dist q.1.pos q.2.pos ≠ p.minsep) (S : Corr) (k : ℤ) :
    let R := ((treeKit A fp (linearBin _) (plainMetric _) p nn).processAuto true cats S).self.acc
    let prs := pairsIn (autoPairs (cats.flatMap Prod.snd)) (InLinBin p.minsep p.binsize p.nbins k)
    R.weight k = bruteW prs ∧ R.kk k = bruteKK prs ∧
      ((∀ o ∈ cats.flatMap Prod.snd, 0 < o.w) → R.npairs k = bruteN prs) :=
  patched_auto_exact_of A fp hf (Or.inr rfl) (fun _ _ h => h.range hp) nn cats hid
    (fun _ h1 _ h2 => linear_binExact hp hb _ _ fun o1 m1 o2 m2 =>
      hedge o1 (List.mem_flatMap.2 ⟨_, h1, m1⟩) o2 (List.mem_flatMap.2 ⟨_, h2, m2⟩)) hw hmin S k

/-- **C19, cross, Linear.** -/
theorem patched_cross_linear_exact (A : StdAlg (EuclideanSpace ℝ (Fin d))) (fp : FieldParams) (hf : fp.minsize = 0)
    {p : Params} (hp : LinParams p) (hb : p.b = 0) (nn : Bool)
    (cats1 cats2 : List (ℕ × List (Obj (EuclideanSpace ℝ (Fin d))))) (hid1 : (cats1.map Prod.fst).Nodup)
    (hid2 : (cats2.map Prod.fst).Nodup)
    (hw1 : ∀ o ∈ cats1.flatMap Prod.snd, o.Valid) (hw2 : ∀ o ∈ cats2.flatMap Prod.snd, o.Valid)
    (hedge : ∀ o1 ∈ cats1.flatMap Prod.snd, ∀ o2 ∈ cats2.flatMap Prod.snd, ∀ k : ℤ, 0 < k → k ≤ p.nbins →
      dist o1.pos o2.pos ≠ linEdge p.minsep p.binsize k)
    (S : Corr) (k : ℤ) :
    let R := ((treeKit A fp (linearBin _) (plainMetric _) p nn).processCross true cats1 cats2 S).self.acc
    let prs := pairsIn (crossPairs (cats1.flatMap Prod.snd) (cats2.flatMap Prod.snd))
      (InLinBin p.minsep p.binsize p.nbins k)
    R.weight k = bruteW prs ∧ R.nk k = bruteNK prs ∧ R.kk k = bruteKK prs ∧
      ((∀ o ∈ cats1.flatMap Prod.snd, 0 < o.w) → (∀ o ∈ cats2.flatMap Prod.snd, 0 < o.w) →
        R.npairs k = bruteN prs) :=
  patched_cross_exact_of A fp hf (Or.inr rfl) (fun _ _ h => h.range hp) nn cats1 cats2 hid1 hid2
    (fun _ h1 _ h2 => linear_binExact hp hb _ _ fun o1 m1 o2 m2 =>
      hedge o1 (List.mem_flatMap.2 ⟨_, h1, m1⟩) o2 (List.mem_flatMap.2 ⟨_, h2, m2⟩)) hw1 hw2 S k

end

/-! ### The hypotheses can be met -/

/-- (0,0), (2,0) in patch 0 and (5,0) in patch 1. -/
def twoPatches : List (ℕ × List (Obj (EuclideanSpace ℝ (Fin 2)))) :=
  [(0, [ob 0 0 0, ob 2 0 1]), (1, [ob 5 0 2])]

/-- The kit of the tree code with the bins of `exLog`. -/
def exKit (nn : Bool) : Kit (List (Obj (EuclideanSpace ℝ (Fin 2)))) :=
  treeKit (sortAlg _ 0) exFp (logBin _) (plainMetric _) exLog nn

/-- C15: three processes, five patches, job (1,3): process 0 owns patch 0 only, 1 owns 1 and 2, 2 owns 3 and 4. -/
example : myAutoJob 5 3 1 1 3 ∧ ¬ myAutoJob 5 3 2 1 3 := by
  constructor <;> norm_num [myAutoJob, myIndex]

/-- C16 and C17: the total of the two patches with three rows of weight 1, under four processes. -/
example (S : Corr) : ∃ R, (exKit true).mpiAuto 4 true twoPatches S = some R ∧ R.self.tot = 9 / 2 := by
  have hK := treeKit_good (sortAlg _ 0) exFp (logBin _) (plainMetric _) exLog true (d := 2)
  obtain ⟨R, h1, h2, _⟩ := mpi_auto_same_partial hK (show 0 < 4 by norm_num) twoPatches (by simp [twoPatches])
    (by simp [twoPatches]) S
  refine ⟨R, h1, ?_⟩
  rw [h2, patched_auto_tot hK rfl _ (by simp [twoPatches])]
  norm_num [twoPatches, treeKit, ob]

/-- C19: bin 0 gets the pair inside patch 0 only, bin 1 the pairs between the patches. -/
example (S : Corr) : ((exKit false).processAuto true twoPatches S).self.acc.npairs 0 = 1 := by
  have d1 : dist (pt 0 0) (pt 2 0) = 2 := by rw [dist_pt_x]; norm_num
  have d2 : dist (pt 0 0) (pt 5 0) = 5 := by rw [dist_pt_x]; norm_num
  have d3 : dist (pt 2 0) (pt 5 0) = 3 := by rw [dist_pt_x]; norm_num
  have ef : twoPatches.flatMap Prod.snd = [ob 0 0 0, ob 2 0 1, ob 5 0 2] := rfl
  have e : autoPairs [ob 0 0 0, ob 2 0 1, ob 5 0 2] =
      {(ob 0 0 0, ob 2 0 1), (ob 0 0 0, ob 5 0 2), (ob 2 0 1, ob 5 0 2)} := rfl
  have := (patched_auto_log_exact (sortAlg _ 0) exFp rfl exLog_ok rfl false twoPatches (by simp [twoPatches])
    (by rw [ef]; simp [ob_valid]) (by
      rw [ef, e]
      intro q hq
      simp only [Multiset.insert_eq_cons, Multiset.mem_cons, Multiset.mem_singleton] at hq
      rcases hq with rfl | rfl | rfl <;> simp [ob, exLog, d1, d2, d3]) S 0).2.2 (by rw [ef]; simp [ob])
  refine this.trans ?_
  have h1 : InLogBin 1 1 3 0 2 := inLog0 _ (by norm_num) (by norm_num)
  have h2 : ¬ InLogBin 1 1 3 0 5 := not_inLog0 _ (by norm_num)
  have h3 : ¬ InLogBin 1 1 3 0 3 := not_inLog0 _ (by norm_num)
  rw [ef, e]
  simp [pairsIn, Multiset.insert_eq_cons, Multiset.filter_singleton, exLog, h1, h2, h3, d1, d2, d3, bruteN]

/-- C18: two calls on the two patches, the second without `initialize`. -/
example : ((exKit false).processAuto false twoPatches ((exKit false).processAuto true twoPatches Corr.clear)).self
    = (((exKit false).processAuto false twoPatches ((exKit false).processAuto true twoPatches
        Corr.clear)).results.map Prod.snd).sum :=
  results_sum_history_partial (treeKit_good _ _ _ _ _ _) rfl [.auto true twoPatches, .auto false twoPatches]

/-! ### Where the claims fail -/

theorem centerSize_one (x : ℝ) (i : ℕ) : centerSize [ob x 0 i] = (pt x 0, 0) := by
  have c : (centerSize [ob x 0 i]).1 = pt x 0 := by
    ext j; fin_cases j <;> simp [centerSize, ob, pt]
  have s : (centerSize [ob x 0 i]).2 = 0 := by
    have : (centerSize [ob x 0 i]).2
      = Real.sqrt (calcSizeSq (euclidGeom 2) (centerSize [ob x 0 i]).1 [ob x 0 i]) := rfl
    rw [this, c]
    simp [calcSizeSq, normSq_pt]
  exact Prod.ext c s

theorem exp3_lt : Real.exp 3 < 27 := by
  have h := Real.exp_one_lt_three
  have h0 := Real.exp_pos 1
  have : Real.exp 3 = Real.exp 1 ^ 3 := by rw [← Real.exp_nat_mul]; norm_num
  rw [this]
  calc Real.exp 1 ^ 3 < 3 ^ 3 := by gcongr
    _ = 27 := by norm_num

theorem triv_far (nn : Bool) (x : ℝ) (hx : 30 ≤ x) (i j : ℕ) : (exKit nn).triv [ob 0 0 i] [ob x 0 j] := by
  have dd : dist (pt 0 0) (pt x 0) = x := by rw [dist_pt_x, zero_sub, abs_neg, abs_of_nonneg (by linarith)]
  have hpos := Real.exp_pos 3
  have := exp3_lt
  show patchesTriviallyZero _ _ _ _ _
  simp only [patchesTriviallyZero, triviallyZero, plainMetric, logBin, centerSize_one, dd, exLog, and_true]
  constructor <;> nlinarith

/-- **C17, negation for cross.** A catalogue that is not divided, one row at (0,0), against two patches, one row at
(2,0) and one at (30,0): the second pair is trivially zero, but since one side is not divided it is
recorded as if it had been processed, and its `sumw1*sumw2` is lost: `tot = 1` instead of 2. -/
theorem patched_cross_tot_dropped : ∃ cats1 cats2 : List (ℕ × List (Obj (EuclideanSpace ℝ (Fin 2)))),
    (cats1.map Prod.fst).Nodup ∧ (cats2.map Prod.fst).Nodup ∧
    ((exKit true).processCross true cats1 cats2 Corr.clear).self.tot = 1 ∧
    (cats1.map fun c => (exKit true).sumw c.2).sum * (cats2.map fun c => (exKit true).sumw c.2).sum = 2 := by
  refine ⟨[(0, [ob 0 0 0])], [(0, [ob 2 0 0]), (1, [ob 30 0 1])], by simp, by simp, ?_, ?_⟩
  · have hK := treeKit_good (sortAlg _ 0) exFp (logBin _) (plainMetric _) exLog true (d := 2)
    show ((treeKit (sortAlg _ 0) exFp (logBin _) (plainMetric _) exLog true).processCross true _ _ _).self.tot = 1
    rw [processCross_jobs hK (by simp) (by simp)]
    have h1 : ¬ (exKit true).triv [ob 0 0 0] [ob 2 0 0] := by
      have d1 : dist (pt 0 0) (pt 2 0) = 2 := by rw [dist_pt_x]; norm_num
      have hpos := Real.add_one_le_exp (3 : ℝ)
      show ¬ patchesTriviallyZero _ _ _ _ _
      simp only [patchesTriviallyZero, triviallyZero, plainMetric, logBin, centerSize_one, d1, exLog, and_true]
      rintro ⟨_, h⟩
      nlinarith
    have h2 := triv_far true 30 le_rfl 0 1
    unfold exKit at h1 h2
    simp only [crossJobs, List.flatMap_cons, List.flatMap_nil, List.map_cons, List.map_nil, List.append_nil,
      List.sum_cons, List.sum_nil, add_zero, Res.add_tot, Job.val, h1, h2]
    norm_num [treeKit, ob]
  · norm_num [exKit, treeKit, ob]

/-- What two calls on two patches leave in `results` if the pair of patches has pairs of rows the first time and is skipped the
second time. -/
theorem two_calls {K : Kit C} (hK : K.Good) (hnn : K.nn = true) (a b b' : C) (h1 : ¬ K.triv a b)
    (h2 : (K.crossRes a b).nonzero) (h3 : K.triv a b') :
    let S := K.processAuto false [(0, a), (1, b')] (K.processAuto true [(0, a), (1, b)] Corr.clear)
    S.self.acc = K.auto a + K.cross a b + K.auto b + K.auto a + K.auto b' ∧
    (S.results.map Prod.snd).sum.acc = K.auto a + K.auto a + (K.auto b + K.auto b') := by
  have z : ¬ Res.zero.nonzero := by simp [Res.nonzero, Res.zero, Acc.zero]
  have ga : ∀ c, (K.autoRes c).acc.Good := hK.1
  have b1 : (((0, 1) : ℕ × ℕ) == (0, 0)) = false := rfl
  have b2 : (((1, 1) : ℕ × ℕ) == (0, 0)) = false := rfl
  have b3 : (((1, 1) : ℕ × ℕ) == (0, 1)) = false := rfl
  have gc : (K.crossRes a b).acc.Good := hK.2 a b
  have e1 : K.processAuto true [(0, a), (1, b)] Corr.clear
      = ⟨Res.zero + K.autoRes a + K.crossRes a b + K.autoRes b,
        [((0, 0), K.autoRes a), ((0, 1), K.crossRes a b), ((1, 1), K.autoRes b)]⟩ := by
    simp [Kit.processAuto, Kit.allAuto, Kit.single11, Kit.single12, Corr.clear, Dict.get, Dict.set, h1, h2,
      Res.iadd_eq _ (ga _), Res.iadd_eq _ gc, List.lookup, b1, b2, b3]
  have e2 : K.processAuto false [(0, a), (1, b')] ⟨Res.zero + K.autoRes a + K.crossRes a b + K.autoRes b,
        [((0, 0), K.autoRes a), ((0, 1), K.crossRes a b), ((1, 1), K.autoRes b)]⟩
      = ⟨⟨(Res.zero + K.autoRes a + K.crossRes a b + K.autoRes b + K.autoRes a).acc,
          (Res.zero + K.autoRes a + K.crossRes a b + K.autoRes b + K.autoRes a).tot + K.sumw a * K.sumw b'⟩
            + K.autoRes b',
        [((0, 0), K.autoRes a + K.autoRes a), ((0, 1), ⟨Acc.zero, K.sumw a * K.sumw b'⟩),
          ((1, 1), K.autoRes b + K.autoRes b')]⟩ := by
    simp [Kit.processAuto, Kit.allAuto, Kit.single11, Kit.single12, Dict.get, Dict.set, h3, z, Kit.addTot, hnn,
      Res.iadd_eq _ (ga _), List.lookup, b2, b3]
  intro S
  have e : S = _ := (congrArg (K.processAuto false [(0, a), (1, b')]) e1).trans e2
  rw [e]
  constructor
  · show Acc.zero + K.auto a + K.cross a b + K.auto b + K.auto a + K.auto b' = _
    rw [← Acc.zero_def, zero_add]
  · simp only [List.map_cons, List.map_nil, List.sum_cons, List.sum_nil, add_zero, Res.add_acc, ← Acc.zero_def,
      zero_add]
    rfl

/-- **C18, negation for `NNCorrelation`.** Two patches with one row each, (0,0) and (2,0), then a second call with
`initialize=False` on (0,0) and (30,0): the object holds the pair of the first call, but its
patch-pair result has been overwritten by an empty one, so the patch results hold no pair. -/
theorem results_sum_nn_history_wrong : ∃ calls : List (Call (List (Obj (EuclideanSpace ℝ (Fin 2))))),
    (calls.foldl (Call.run (exKit true)) Corr.clear).self.acc.npairs 0 = 1 ∧
    ((calls.foldl (Call.run (exKit true)) Corr.clear).results.map Prod.snd).sum.acc.npairs 0 = 0 := by
  have hK : (exKit true).Good := treeKit_good (sortAlg _ 0) exFp (logBin _) (plainMetric _) exLog true (d := 2)
  have d1 : dist (pt 0 0) (pt 2 0) = 2 := by rw [dist_pt_x]; norm_num
  have h1 : ¬ (exKit true).triv [ob 0 0 0] [ob 2 0 0] := by
    have hpos := Real.add_one_le_exp (3 : ℝ)
    show ¬ patchesTriviallyZero _ _ _ _ _
    simp only [patchesTriviallyZero, triviallyZero, plainMetric, logBin, centerSize_one, d1, exLog, and_true]
    rintro ⟨_, h⟩
    nlinarith
  have hc : ((exKit true).cross [ob 0 0 0] [ob 2 0 0]).npairs 0 = 1 := by
    have := (treeKit_cross_exact (sortAlg _ 0) exFp rfl (Or.inl rfl) (fun _ _ h => (InLogBin.range exLog_ok h).2) true
      [ob 0 0 0] [ob 2 0 0] (log_binExact exLog_ok rfl _ _) (by simp [ob_valid]) (by simp [ob_valid]) 0).2.2.2
      (by simp [ob]) (by simp [ob])
    rw [if_neg (by exact h1)] at this
    refine this.trans ?_
    have h1 : InLogBin 1 1 3 0 2 := inLog0 _ (by norm_num) (by norm_num)
    have e : crossPairs [ob 0 0 0] [ob 2 0 0] = {(ob 0 0 0, ob 2 0 0)} := by rw [crossPairs_singleton]; rfl
    rw [e]
    simp [pairsIn, Multiset.filter_singleton, exLog, d1, h1, bruteN]
  have ha : ∀ x i, ((exKit true).auto [ob x 0 i]).npairs 0 = 0 := by
    intro x i
    refine ((treeKit_auto_exact (sortAlg _ 0) exFp rfl rfl true [ob x 0 i] (log_binExact exLog_ok rfl _ _)
      (by simp [ob_valid]) (by simp [autoPairs]) 0).2.2 (by simp [ob])).trans ?_
    simp [autoPairs, pairsIn, bruteN]
  obtain ⟨s1, s2⟩ := two_calls hK rfl [ob 0 0 0] [ob 2 0 0] [ob 30 0 0] h1 ⟨0, by
    show ((exKit true).cross [ob 0 0 0] [ob 2 0 0]).npairs 0 ≠ 0
    rw [hc]; norm_num⟩ (triv_far true 30 le_rfl 0 0)
  refine ⟨[.auto true [(0, [ob 0 0 0]), (1, [ob 2 0 0])], .auto false [(0, [ob 0 0 0]), (1, [ob 30 0 0])]], ?_, ?_⟩
  · have e := congrArg (fun A : Acc => A.npairs 0) s1
    simp only [Acc.add_def, Acc.add, ha, hc] at e
    refine Eq.trans ?_ (e.trans (by norm_num))
    rfl
  · have e := congrArg (fun A : Acc => A.npairs 0) s2
    simp only [Acc.add_def, Acc.add, ha] at e
    refine Eq.trans ?_ (e.trans (by norm_num))
    rfl

/-- **C16, `initialize=False`.** If every process holds `S` and `process(cat, comm=comm, initialize=False)` is called, what
`S` held is counted once per process instead of once. -/
theorem mpi_prior_counted_again {K : Kit C} (hK : K.Good) {size : ℕ} (hs : 0 < size) (cats : List (ℕ × C))
    (hlt : ∀ c ∈ cats, c.1 < cats.length) (S : Corr) (hS : S.self.acc.Good) :
    ∃ R, K.mpiAuto size false cats S = some R ∧
      R.self = (size - 1) • S.self + (K.processAuto false cats S).self := by
  obtain ⟨R, h1, h2⟩ := gather_jobs_self hK (autoJobs cats) (fun r => myAutoJob cats.length size r) size hs (by
      intro J hJ
      obtain ⟨a, b⟩ := autoJobs_keys hJ
      obtain ⟨c1, hc1, e1⟩ := List.mem_map.1 a
      obtain ⟨c2, hc2, e2⟩ := List.mem_map.1 b
      exact autoJob_unique hs (e1 ▸ hlt _ hc1) (e2 ▸ hlt _ hc2)) S hS
  refine ⟨R, ?_, ?_⟩
  · simp only [Kit.mpiAuto, allAuto_eq]
    exact h1
  · have : (K.processAuto false cats S).self = S.self + ((autoJobs cats).map (Job.val K)).sum := by
      simp only [Kit.processAuto]
      rw [allAuto_eq, serial_filter, run_jobs_self hK]
      rfl
    rw [h2, this]
    obtain ⟨m, rfl⟩ : ∃ m, size = m + 1 := ⟨size - 1, by omega⟩
    rw [Nat.add_sub_cancel, succ_nsmul, add_assoc]

/-- **C16, negation.** `process(cat)` on the two patches in each of two processes, then `process(cat, comm=comm,
initialize=False)`: the root holds `tot = 27/2` instead of 9. -/
theorem mpi_initialize_false_wrong : ∃ R,
    (exKit true).mpiAuto 2 false twoPatches ((exKit true).processAuto true twoPatches Corr.clear) = some R ∧
    R.self.tot = 27 / 2 ∧
    ((exKit true).processAuto false twoPatches ((exKit true).processAuto true twoPatches Corr.clear)).self.tot = 9 := by
  have hK : (exKit true).Good := treeKit_good (sortAlg _ 0) exFp (logBin _) (plainMetric _) exLog true (d := 2)
  have hid : (twoPatches.map Prod.fst).Nodup := by simp [twoPatches]
  have t0 : ∀ S, ((exKit true).processAuto true twoPatches S).self.tot = 9 / 2 := by
    intro S
    rw [patched_auto_tot hK rfl _ hid]
    norm_num [exKit, twoPatches, treeKit, ob]
  set S := (exKit true).processAuto true twoPatches Corr.clear with hSd
  have hJ : S.self = ((autoJobs twoPatches).map (Job.val (exKit true))).sum := by
    rw [hSd, processAuto_jobs hK hid]
  have hS : S.self.acc.Good := by
    rw [hJ, Res.sum_acc, List.map_map]
    apply Acc.Good.sum
    intro A hA
    obtain ⟨J, _, rfl⟩ := List.mem_map.1 hA
    exact Job.val_good hK J
  have t2 : ((exKit true).processAuto false twoPatches S).self = S.self + S.self := by
    conv_rhs => rw [hJ]
    conv_rhs => lhs; rw [← hJ]
    simp only [Kit.processAuto]
    rw [allAuto_eq, serial_filter, run_jobs_self hK]
    rfl
  obtain ⟨R, h1, h2⟩ := mpi_prior_counted_again hK (show 0 < 2 by norm_num) twoPatches (by simp [twoPatches]) S hS
  refine ⟨R, h1, ?_, ?_⟩
  · rw [h2, t2]
    simp only [Nat.add_one_sub_one, one_nsmul, Res.add_tot]
    rw [hSd, t0]
    norm_num
  · rw [t2, Res.add_tot, hSd, t0]
    norm_num

end
end TreeCorr
