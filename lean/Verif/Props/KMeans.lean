import Verif.Proofs.KMeans
import Verif.Props.Near

/-!
C13, C14, C37, C42: random subsets, assignment of rows to k-means patches, and the initial centres.
-/

namespace TreeCorr
open Classical List
noncomputable section
variable {P : Type}

/-! ### Random subsets (C37) -/

/-- **C37, partial.** Whatever numbers between 0 and 1 (1 included) the generator gives: when `SelectRandomFrom` comes to
an end, the `n` selected indices are different and below `m`.
Missing: it need not come to an end (`select_random_stalls_wrong`; `select_random_ends` says when it does). -/
theorem select_random_distinct_partial (u : ℕ → ℝ) (hu : ∀ k, 0 ≤ u k ∧ u k ≤ 1) (fuel m n k : ℕ) (hn : n ≤ m)
    (sel : List ℕ) (k' : ℕ) (h : selectRandomFrom u fuel m n k = some (sel, k')) :
    sel.length = n ∧ sel.Nodup ∧ ∀ j ∈ sel, j < m :=
  selectRandomFrom_spec u hu fuel m n k hn (sel, k') h

/-- **C37.** `SelectRandomFrom` comes to an end if `m ≤ 3n`, and otherwise as soon as `n` different indices came up. -/
theorem select_random_ends (u : ℕ → ℝ) (hu : ∀ k, 0 ≤ u k ∧ u k ≤ 1) (fuel m n k : ℕ) (hn : n ≤ m)
    (h : m ≤ 3 * n ∨ ∃ is : List ℕ, is.Nodup ∧ is.length = n ∧
      ∀ j ∈ is, ∃ i < fuel, u (k + i) < 1 ∧ ⌊u (k + i) * m⌋₊ = j) :
    ∃ r, selectRandomFrom u fuel m n k = some r := by
  unfold selectRandomFrom
  by_cases hm : m > 3 * n
  · rw [if_pos hm]
    obtain ⟨is, hd, hl, hi⟩ := h.resolve_left (by omega)
    refine floydLoop_ends u m n fuel k [] ?_ (by simp)
    rw [← hl, ← List.toFinset_card_of_nodup hd]
    refine Finset.card_le_card fun j hj => ?_
    obtain ⟨i, hif, h1, h2⟩ := hi j (List.mem_toFinset.1 hj)
    rw [Finset.mem_union, Finset.mem_image]
    right
    refine ⟨i, by simpa using hif, ?_⟩
    unfold floydIdx
    have : ⌊u (k + i) * m⌋₊ < m := by
      rw [Nat.floor_lt' (by omega)]
      have : (0 : ℝ) < m := by exact_mod_cast (by omega : 0 < m)
      nlinarith
    rw [if_neg (by omega), h2]
  · rw [if_neg hm]
    obtain ⟨f, h1, hp⟩ := fisherYates_spec u hu m k (List.range n) (fun i hi => by simp at hi; omega) (List.range m) (by simp)
    rw [h1, Option.bind_some, if_pos (by rw [hp.length_eq]; simpa using hn)]
    exact ⟨_, rfl⟩

/-- **C37 fails** for generators that keep giving the same number: selecting 2 of 7 never ends. -/
theorem select_random_stalls_wrong : ∃ u : ℕ → ℝ, (∀ k, 0 ≤ u k ∧ u k ≤ 1) ∧ ∀ fuel, selectRandomFrom u fuel 7 2 0 = none := by
  refine ⟨fun _ => 0, fun _ => by norm_num, fun fuel => ?_⟩
  unfold selectRandomFrom
  rw [if_pos (by norm_num)]
  have key : ∀ fuel k, floydLoop (fun _ => 0) 7 2 fuel k [0] = none := by
    intro fuel
    induction fuel with
    | zero => intro k; rw [floydLoop]; rfl
    | succ fuel ih =>
      intro k
      rw [floydLoop_succ _ _ _ _ _ _ (by simp)]
      have : push [0] (floydIdx (fun _ => 0) 7 k) = [0] := by simp [push, floydIdx]
      rw [this, ih]
  cases fuel with
  | zero => rw [floydLoop]; rfl
  | succ fuel =>
    rw [floydLoop_succ _ _ _ _ _ _ (by simp)]
    have : push [] (floydIdx (fun _ => 0) 7 0) = [0] := by simp [push, floydIdx]
    rw [this, key]

/-- A case of `select_random_ends` with Floyd's algorithm, where the last random number is 1. -/
example : ∃ u : ℕ → ℝ, (∀ k, 0 ≤ u k ∧ u k ≤ 1) ∧ selectRandomFrom u 2 7 2 0 = some ([0, 6], 2) := by
  refine ⟨fun k => if k = 0 then 0 else 1, fun k => by by_cases h : k = 0 <;> simp [h], ?_⟩
  unfold selectRandomFrom
  rw [if_pos (by norm_num), floydLoop_succ _ _ _ _ _ _ (by simp)]
  have e0 : push [] (floydIdx (fun k => if k = 0 then 0 else 1) 7 0) = [0] := by simp [push, floydIdx]
  rw [e0, floydLoop_succ _ _ _ _ _ _ (by simp)]
  have e1 : push [0] (floydIdx (fun k => if k = 0 then 0 else 1) 7 (0 + 1)) = [0, 6] := by
    have : ⌊(7 : ℝ)⌋₊ = 7 := by exact_mod_cast Nat.floor_natCast 7
    simp [push, floydIdx, this]
  rw [e1, floydLoop_end _ _ _ _ _ _ (by simp)]

namespace KMeans

variable [PseudoMetricSpace P]

/-- `q` is a centre nearest to `p`. -/
def Nearest (cen : ℕ → P) (npatch : ℕ) (p : P) (q : ℕ) : Prop :=
  q < npatch ∧ ∀ q' < npatch, dist p (cen q) ≤ dist p (cen q')

/-- The arrays of patch numbers `kmeans_assign_patches` can return: `sched` says which thread takes which top-level cells, and the
writes of different threads can come in any order. -/
def AssignResult (cen : ℕ → P) (npatch : ℕ) (f : Field P) (sched : Schedule) (arr : ℕ → Option ℕ) : Prop :=
  ∃ ws, ws ~ (threadWrites cen npatch f sched).flatten ∧ arr = written ws

theorem assign_general (A : StdAlg P) (g : Geom P) (hg : g.Dominates) (fp : FieldParams) (hm : 0 ≤ fp.minsize)
    (rows : List (Obj P)) (hr : Numbered rows) (cen : ℕ → P) (npatch : ℕ) (hn : 1 ≤ npatch) (sched : Schedule)
    (hs : sched.Of (buildField A g fp rows).cells.length) (arr : ℕ → Option ℕ)
    (harr : AssignResult cen npatch (buildField A g fp rows) sched arr) (i : ℕ) (o : Obj P) (ho : rows[i]? = some o) :
    ∃ q < npatch, arr i = some q ∧ ∀ q' < npatch, dist o.pos (cen q) ≤ dist o.pos (cen q') + 2 * fp.minsize := by
  obtain ⟨ws, hw, rfl⟩ := harr
  have hb := buildField_bounded A g hg fp hm rows
  obtain ⟨h1, h2⟩ := findAll_spec cen none (by simp) (respects_dist cen hm) (buildField A g fp rows).cells
    (fun c hc => (hb c hc).1) npatch hn sched hs
  have hobj : (findAll cen none npatch (buildField A g fp rows).cells sched).flatten.flatMap (fun x => x.2.objs) ~ rows :=
    h1.trans (buildField_objs A g fp rows)
  have hflat : (threadWrites cen npatch (buildField A g fp rows) sched).flatten
      = (findAll cen none npatch (buildField A g fp rows).cells sched).flatten.flatMap
          (fun x => x.2.objs.map fun o => (o.idx, x.1)) := by
    unfold threadWrites
    generalize findAll cen none npatch (buildField A g fp rows).cells sched = ll
    induction ll with
    | nil => rfl
    | cons a l ih =>
      rw [List.map_cons, List.flatten_cons, ih, List.flatten_cons, List.flatMap_append]
      simp only [assignWrites_eq]
  have hfst : (threadWrites cen npatch (buildField A g fp rows) sched).flatten.map Prod.fst ~ rows.map Obj.idx := by
    rw [hflat]
    refine List.Perm.trans ?_ (hobj.map Obj.idx)
    rw [List.map_flatMap, List.map_flatMap]
    simp only [List.map_map]
    exact List.Perm.refl _
  have hidx : rows.map Obj.idx = List.range rows.length := by
    apply List.ext_getElem?
    intro j
    rw [List.getElem?_map]
    by_cases hj : j < rows.length
    · have e : rows[j]? = some rows[j] := List.getElem?_eq_getElem hj
      rw [e, List.getElem?_range hj, Option.map_some, hr j _ e]
    · rw [List.getElem?_eq_none (by omega), List.getElem?_eq_none (by simp; omega)]
      rfl
  have hnd : (ws.map Prod.fst).Nodup := by
    rw [((hw.map Prod.fst).trans hfst).nodup_iff, hidx]
    exact List.nodup_range
  have hmem : o ∈ (findAll cen none npatch (buildField A g fp rows).cells sched).flatten.flatMap (fun x => x.2.objs) :=
    hobj.mem_iff.2 (List.mem_of_getElem? ho)
  obtain ⟨x, hx, hox⟩ := List.mem_flatMap.1 hmem
  obtain ⟨hlt, hL⟩ := h2 x hx
  refine ⟨x.1, hlt, ?_, fun q' hq' => hL o hox q' hq'⟩
  apply written_eq ws hnd
  rw [hw.mem_iff, hflat]
  refine List.mem_flatMap.2 ⟨x, hx, List.mem_map.2 ⟨o, hox, ?_⟩⟩
  rw [hr i o ho]

/-- **C13, partial.** Fields built with `min_size = 0`: for every catalogue, tree, number and position of centres and distribution of
the work over threads, `kmeans_assign_patches` gives every row a patch whose centre is at minimal distance.
Missing: `min_size > 0`, where it need not (`kmeans_min_size_wrong`; bound: `kmeans_assign_min_size_partial`). -/
theorem kmeans_assign_nearest_partial (A : StdAlg P) (g : Geom P) (hg : g.Dominates) (fp : FieldParams) (hm : fp.minsize = 0)
    (rows : List (Obj P)) (hr : Numbered rows) (cen : ℕ → P) (npatch : ℕ) (hn : 1 ≤ npatch) (sched : Schedule)
    (hs : sched.Of (buildField A g fp rows).cells.length) (arr : ℕ → Option ℕ)
    (harr : AssignResult cen npatch (buildField A g fp rows) sched arr) (i : ℕ) (o : Obj P) (ho : rows[i]? = some o) :
    ∃ q, arr i = some q ∧ Nearest cen npatch o.pos q := by
  obtain ⟨q, h1, h2, h3⟩ := assign_general A g hg fp hm.ge rows hr cen npatch hn sched hs arr harr i o ho
  refine ⟨q, h2, h1, fun q' hq' => ?_⟩
  have := h3 q' hq'
  rw [hm] at this
  linarith

/-- **C13, partial.** With any `min_size`, the centre of the patch given to a row is at most `2 min_size` further away than the
nearest one. -/
theorem kmeans_assign_min_size_partial (A : StdAlg P) (g : Geom P) (hg : g.Dominates) (fp : FieldParams) (hm : 0 ≤ fp.minsize)
    (rows : List (Obj P)) (hr : Numbered rows) (cen : ℕ → P) (npatch : ℕ) (hn : 1 ≤ npatch) (sched : Schedule)
    (hs : sched.Of (buildField A g fp rows).cells.length) (arr : ℕ → Option ℕ)
    (harr : AssignResult cen npatch (buildField A g fp rows) sched arr) (i : ℕ) (o : Obj P) (ho : rows[i]? = some o) :
    ∃ q < npatch, arr i = some q ∧ ∀ q' < npatch, dist o.pos (cen q) ≤ dist o.pos (cen q') + 2 * fp.minsize :=
  assign_general A g hg fp hm rows hr cen npatch hn sched hs arr harr i o ho

theorem numbered_two {P : Type} {a b : Obj P} (ha : a.idx = 0) (hb : b.idx = 1) : Numbered [a, b] := by
  intro i o ho
  match i with
  | 0 => simp at ho; rw [← ho]; exact ha
  | 1 => simp at ho; rw [← ho]; exact hb
  | i + 2 => simp at ho

/-- **C13 fails** for fields with `min_size > 0`: of two rows at x = 0 and x = 2 in one leaf (`min_size = 1`) both get the centre at
x = -1/2, although the second row is nearer to the centre at x = 3. -/
theorem kmeans_min_size_wrong : ∃ (rows : List (Obj (EuclideanSpace ℝ (Fin 2)))) (cen : ℕ → EuclideanSpace ℝ (Fin 2)),
    Numbered rows ∧ ∃ o, rows[1]? = some o ∧ dist o.pos (cen 1) < dist o.pos (cen 0) ∧
    ∀ (A : StdAlg _) (fp : FieldParams), fp.minsize = 1 → fp.mintop ≤ 0 → 1 ≤ fp.maxsize →
      (buildField A (euclidGeom 2) fp rows).cells.length = 1 ∧
      ∀ arr, AssignResult cen 2 (buildField A (euclidGeom 2) fp rows) [[0]] arr → arr 1 = some 0 := by
  refine ⟨[ob 0 0 0, ob 2 0 1], fun q => if q = 0 then pt (-1/2) 0 else pt 3 0, numbered_two rfl rfl, ob 2 0 1, rfl, ?_, ?_⟩
  · simp only [ob_pos, if_true, one_ne_zero, if_false, dist_pt_x]
    norm_num [abs_of_pos, abs_of_neg]
  · intro A fp hm hmt hmax
    have hsz : calcSizeSq (euclidGeom 2) (pt ((0 + 2) / 2) ((0 + 0) / 2)) [ob 0 0 0, ob 2 0 1] = 1 := by
      rw [sizeSq_two]; norm_num
    have hcells : (buildField A (euclidGeom 2) fp [ob 0 0 0, ob 2 0 1]).cells
        = [.leaf (cellData (euclidGeom 2) [ob 0 0 0, ob 2 0 1]) [ob 0 0 0, ob 2 0 1]] := by
      have htop : topCells A (euclidGeom 2) fp.sm (fp.maxsize * fp.maxsize) fp.mintop fp.maxtop [ob 0 0 0, ob 2 0 1]
          = [[ob 0 0 0, ob 2 0 1]] := by
        rw [topCells]
        simp only [mean_two, hsz]
        rw [if_pos (Or.inr ⟨by nlinarith, hmt⟩)]
      have hcell : buildCell A (euclidGeom 2) fp.sm (fp.minsize * fp.minsize) [ob 0 0 0, ob 2 0 1]
          = .leaf (cellData (euclidGeom 2) [ob 0 0 0, ob 2 0 1]) [ob 0 0 0, ob 2 0 1] := by
        rw [buildCell]
        have : (cellData (euclidGeom 2) [ob 0 0 0, ob 2 0 1]).pos = pt ((0 + 2) / 2) ((0 + 0) / 2) := mean_two _ _ _ _ _ _
        simp only [this, hsz, hm]
        rw [if_neg (by norm_num)]
      simp only [buildField, htop, List.map_cons, List.map_nil, hcell]
    refine ⟨by rw [hcells]; rfl, ?_⟩
    rintro arr ⟨ws, hw, rfl⟩
    have hpos : (cellData (euclidGeom 2) [ob 0 0 0, ob 2 0 1]).pos = pt 1 0 := by
      have := mean_two 0 2 0 0 0 1
      norm_num at this
      exact this
    have hw' : ws ~ [(0, 0), (1, 0)] := by
      refine hw.trans ?_
      have e0 : dist (pt 1 0) (pt (-1/2) 0) = 3 / 2 := by rw [dist_pt_x]; norm_num [abs_of_pos]
      have e1 : dist (pt 1 0) (pt 3 0) = 2 := by rw [dist_pt_x]; norm_num [abs_of_neg]
      have hlt : ¬ ((2 : ℝ) ^ 2 < (3 / 2) ^ 2) := by norm_num
      simp [threadWrites, findAll, hcells, findThread, findCells, scan, scanStep, scanInit, modDsq, hpos, e0, e1, hlt,
        assignWrites]
      exact List.Perm.refl _
    exact written_eq ws (((hw'.map Prod.fst).nodup_iff).2 (by simp)) (hw'.mem_iff.2 (by simp))

/-- A case of `kmeans_assign_nearest_partial`: two rows, two centres. -/
example (A : StdAlg _) (fp : FieldParams) (hm : fp.minsize = 0) (sched : Schedule)
    (hs : sched.Of (buildField A (euclidGeom 2) fp [ob 0 0 0, ob 2 0 1]).cells.length) (arr : ℕ → Option ℕ)
    (h : AssignResult (fun q => if q = 0 then pt (-1/2) 0 else pt 3 0) 2 (buildField A (euclidGeom 2) fp [ob 0 0 0, ob 2 0 1])
      sched arr) : arr 1 = some 1 := by
  obtain ⟨q, h1, h2, h3⟩ := kmeans_assign_nearest_partial A _ (euclidGeom_dominates 2) fp hm _ (numbered_two rfl rfl) _ 2
    (by norm_num) sched hs arr h 1 (ob 2 0 1) rfl
  have := h3 1 (by norm_num)
  match q with
  | 0 =>
    simp only [ob_pos, if_true, one_ne_zero, if_false, dist_pt_x] at this
    norm_num [abs_of_pos, abs_of_neg] at this
  | 1 => exact h1
  | q + 2 => omega

/-- Some result exists for every schedule. -/
example (cen : ℕ → P) (n : ℕ) (f : Field P) (sched : Schedule) : ∃ arr, AssignResult cen n f sched arr :=
  ⟨_, _, List.Perm.refl _, rfl⟩

/-- **C13** for the `alt` algorithm (`Field.run_kmeans(alt=True)`): when the inertias are not negative, every top-level tree walk hands
each object of the catalogue to exactly one patch, and this patch minimises squared distance plus inertia. -/
theorem kmeans_alt_nearest (A : StdAlg P) (g : Geom P) (hg : g.Dominates) (fp : FieldParams) (hm : fp.minsize = 0)
    (rows : List (Obj P)) (cen : ℕ → P) (npatch : ℕ) (hn : 1 ≤ npatch) (inertia : ℕ → ℝ) (hI : ∀ q, 0 ≤ inertia q)
    (sched : Schedule) (hs : sched.Of (buildField A g fp rows).cells.length) :
    (findAll cen (some inertia) npatch (buildField A g fp rows).cells sched).flatten.flatMap (fun x => x.2.objs) ~ rows ∧
    ∀ x ∈ (findAll cen (some inertia) npatch (buildField A g fp rows).cells sched).flatten, x.1 < npatch ∧
      ∀ o ∈ x.2.objs, ∀ q < npatch,
        dist o.pos (cen x.1) ^ 2 + inertia x.1 ≤ dist o.pos (cen q) ^ 2 + inertia q := by
  have hb := buildField_bounded A g hg fp hm.ge rows
  rw [hm] at hb
  obtain ⟨h1, h2⟩ := findAll_spec cen (some inertia) (by rintro f ⟨⟩; exact hI) (respects_score cen (some inertia))
    (buildField A g fp rows).cells (fun c hc => (hb c hc).1) npatch hn sched hs
  exact ⟨h1.trans (buildField_objs A g fp rows), h2⟩

/-! ### Assignment from given centres (C14) -/

/-- **C14.** `Catalog(..., patch_centers=...)` gives each row the first of the nearest centres. -/
theorem quick_assign_first (cen : ℕ → P) (npatch : ℕ) (hn : 1 ≤ npatch) (rows : List (Obj P)) (i : ℕ) (o : Obj P)
    (ho : rows[i]? = some o) (q : ℕ) :
    (assignRows cen npatch rows)[i]? = some q ↔
      Nearest cen npatch o.pos q ∧ ∀ q' < q, ¬ Nearest cen npatch o.pos q' := by
  have hs := quick_spec (fun k => dist o.pos (cen k) ^ 2) (npatch - 1)
  have e : (assignRows cen npatch rows)[i]? = some (quickAssign cen npatch o.pos) := by
    simp [assignRows, ho]
  rw [e]
  obtain ⟨h1, -, h3, h4⟩ := hs
  change quickAssign cen npatch o.pos ≤ npatch - 1 at h1
  change ∀ k ≤ npatch - 1, dist o.pos (cen (quickAssign cen npatch o.pos)) ^ 2 ≤ _ at h3
  change ∀ k < quickAssign cen npatch o.pos, dist o.pos (cen (quickAssign cen npatch o.pos)) ^ 2 < _ at h4
  generalize quickAssign cen npatch o.pos = a at h1 h3 h4
  have hN : Nearest cen npatch o.pos a := by
    refine ⟨by omega, fun q' hq' => ?_⟩
    exact (abs_le_of_sq_le_sq' (h3 q' (by omega)) dist_nonneg).2
  have hF : ∀ q' < a, ¬ Nearest cen npatch o.pos q' := by
    rintro q' hq' ⟨_, hh⟩
    have := hh a (by omega)
    have h5 := h4 q' hq'
    have := pow_le_pow_left₀ dist_nonneg this 2
    linarith
  constructor
  · rintro h; cases h; exact ⟨hN, hF⟩
  · rintro ⟨hq, hq'⟩
    rcases lt_trichotomy a q with h | h | h
    · exact absurd hN (hq' a h)
    · rw [h]
    · exact absurd hq (hF q h)

theorem selectPatch_iff (cen : ℕ → P) (npatch patch : ℕ) (hp : patch < npatch) (p : P) :
    selectPatch cen npatch patch p = true ↔ Nearest cen npatch p patch := by
  unfold selectPatch Nearest
  rw [List.all_eq_true]
  constructor
  · intro h
    refine ⟨hp, fun q hq => ?_⟩
    have := h q (by simpa using hq)
    simp only [Bool.or_eq_true, beq_iff_eq, Bool.not_eq_true', decide_eq_false_iff_not, not_lt] at this
    rcases this with rfl | h
    · exact le_rfl
    · exact (abs_le_of_sq_le_sq' h dist_nonneg).2
  · rintro ⟨_, h⟩ q hq
    simp only [Bool.or_eq_true, beq_iff_eq, Bool.not_eq_true', decide_eq_false_iff_not, not_lt]
    right
    exact pow_le_pow_left₀ dist_nonneg (h q (by simpa using hq)) 2

/-- **C14.** Reading a single patch of a catalogue with given centres keeps exactly the rows to which that centre is a nearest one. -/
theorem patch_rows_nearest (cen : ℕ → P) (npatch patch : ℕ) (hp : patch < npatch) (rows : List (Obj P)) :
    patchRows cen npatch patch rows = rowsWhere rows (fun p => Nearest cen npatch p patch) := by
  unfold patchRows rowsWhere
  refine List.filter_congr fun i hi => ?_
  have hi' : i < rows.length := by simpa using hi
  rw [List.getElem?_eq_getElem hi', Option.map_some]
  rw [Bool.eq_iff_iff]
  rw [beq_iff_eq, Option.some_inj, selectPatch_iff cen npatch patch hp, decide_eq_true_iff]
  constructor
  · intro h; exact ⟨_, rfl, h⟩
  · rintro ⟨o, h1, h2⟩; cases h1; exact h2

/-- **C14, partial.** If no row has two nearest centres, the rows read for a patch are exactly those assigned to it, so every row is
read for exactly one patch.
Missing: rows at the same distance from two nearest centres (`single_patch_tie_wrong`); they are still read at least once
(`single_patch_covers`). -/
theorem single_patch_partition_partial (cen : ℕ → P) (npatch : ℕ) (hn : 1 ≤ npatch) (rows : List (Obj P))
    (ht : ∀ o ∈ rows, ∀ q q', Nearest cen npatch o.pos q → Nearest cen npatch o.pos q' → q = q') :
    (∀ patch < npatch, ∀ i, i ∈ patchRows cen npatch patch rows ↔ (assignRows cen npatch rows)[i]? = some patch) ∧
    ∀ i < rows.length, ∃! patch, patch < npatch ∧ i ∈ patchRows cen npatch patch rows := by
  have key : ∀ patch < npatch, ∀ i, i ∈ patchRows cen npatch patch rows ↔ (assignRows cen npatch rows)[i]? = some patch := by
    intro patch hp i
    rw [patch_rows_nearest cen npatch patch hp]
    by_cases hi : i < rows.length
    · have e := List.getElem?_eq_getElem hi
      rw [quick_assign_first cen npatch hn rows i _ e]
      simp only [rowsWhere, List.mem_filter, List.mem_range, decide_eq_true_iff]
      constructor
      · rintro ⟨_, o, h1, h2⟩
        rw [e] at h1
        cases h1
        refine ⟨h2, fun q' hq' hN => ?_⟩
        have := ht _ (List.getElem_mem hi) _ _ h2 hN
        omega
      · rintro ⟨h1, _⟩
        exact ⟨hi, _, e, h1⟩
    · simp only [rowsWhere, List.mem_filter, List.mem_range]
      constructor
      · rintro ⟨h, _⟩; exact absurd h hi
      · intro h
        rw [List.getElem?_eq_none (by simp [assignRows]; omega)] at h
        cases h
  refine ⟨key, fun i hi => ?_⟩
  have hlen : i < (assignRows cen npatch rows).length := by simpa [assignRows] using hi
  have e := List.getElem?_eq_getElem hlen
  have hN := (quick_assign_first cen npatch hn rows i _ (List.getElem?_eq_getElem hi) _).1 e
  refine ⟨_, ⟨hN.1.1, (key _ hN.1.1 i).2 e⟩, ?_⟩
  rintro q ⟨hq, hm⟩
  have := (key q hq i).1 hm
  rw [e] at this
  exact (Option.some.inj this).symm

/-- **C14.** Every row is read for some patch, whether there are ties or not. -/
theorem single_patch_covers (cen : ℕ → P) (npatch : ℕ) (hn : 1 ≤ npatch) (rows : List (Obj P)) (i : ℕ) (hi : i < rows.length) :
    ∃ patch < npatch, (assignRows cen npatch rows)[i]? = some patch ∧ i ∈ patchRows cen npatch patch rows := by
  have hlen : i < (assignRows cen npatch rows).length := by simpa [assignRows] using hi
  have e := List.getElem?_eq_getElem hlen
  have hN := (quick_assign_first cen npatch hn rows i _ (List.getElem?_eq_getElem hi) _).1 e
  refine ⟨_, hN.1.1, e, ?_⟩
  rw [patch_rows_nearest cen npatch _ hN.1.1]
  simp only [rowsWhere, List.mem_filter, List.mem_range, decide_eq_true_iff]
  exact ⟨hi, _, List.getElem?_eq_getElem hi, hN.1⟩

/-- **C14 fails** for a row at the same distance from two centres: it is read for both patches, though it is assigned to the first. -/
theorem single_patch_tie_wrong : ∃ (rows : List (Obj (EuclideanSpace ℝ (Fin 2)))) (cen : ℕ → EuclideanSpace ℝ (Fin 2)),
    assignRows cen 2 rows = [0] ∧ patchRows cen 2 0 rows = [0] ∧ patchRows cen 2 1 rows = [0] := by
  refine ⟨[ob 0 0 0], fun q => if q = 0 then pt (-1) 0 else pt 1 0, ?_⟩
  have e0 : dist (pt 0 0) (pt (-1) 0) = 1 := by rw [dist_pt_x]; norm_num
  have e1 : dist (pt 0 0) (pt 1 0) = 1 := by rw [dist_pt_x]; norm_num
  refine ⟨?_, ?_, ?_⟩
  · simp [assignRows, quickAssign, e0, e1]
  · simp [patchRows, selectPatch, List.range_succ, e0, e1]
  · simp [patchRows, selectPatch, List.range_succ, e0, e1]

/-- A case of `single_patch_partition_partial`. -/
example : ∀ i < 2, ∃! patch, patch < 2 ∧
    i ∈ patchRows (fun q => if q = 0 then pt (-1/2) 0 else pt 3 0) 2 patch [ob 0 0 0, ob 2 0 1] := by
  refine (single_patch_partition_partial _ 2 (by norm_num) [ob 0 0 0, ob 2 0 1] ?_).2
  intro o ho q q' hq hq'
  obtain ⟨h1, h2⟩ := hq
  obtain ⟨h1', h2'⟩ := hq'
  have a := h2 0 (by norm_num)
  have b := h2 1 (by norm_num)
  have a' := h2' 0 (by norm_num)
  have b' := h2' 1 (by norm_num)
  simp only [List.mem_cons, List.not_mem_nil, or_false] at ho
  have cases2 : ∀ q < 2, q = 0 ∨ q = 1 := by omega
  rcases cases2 q h1 with rfl | rfl <;> rcases cases2 q' h1' with rfl | rfl <;> rcases ho with rfl | rfl <;>
    first
    | rfl
    | (exfalso
       clear h2 h2'
       simp only [ob_pos, if_true, one_ne_zero, if_false, dist_pt_x] at a b a' b'
       first
       | (norm_num [abs_of_pos, abs_of_neg] at a; done)
       | (norm_num [abs_of_pos, abs_of_neg] at b; done)
       | (norm_num [abs_of_pos, abs_of_neg] at a'; done)
       | (norm_num [abs_of_pos, abs_of_neg] at b'; done))

/-! ### The initial centres (C42) -/

omit [PseudoMetricSpace P]

/-- The positions of the cells of a tree. -/
def cellPositions : Cell P → List P
  | .leaf d _ => [d.pos]
  | .node d _ l r => d.pos :: (cellPositions l ++ cellPositions r)

theorem initTreeCell_pos (u : ℕ → ℝ) (jit : ℝ → P → P) (c : Cell P) (first nc k : ℕ) :
    ∀ x ∈ (initTreeCell u jit c first nc k).1, ∃ p ∈ cellPositions c, x.2 = p ∨ ∃ i, x.2 = jit (u i) p := by
  induction c generalizing first nc k with
  | leaf d os =>
    simp only [initTreeCell]
    split
    · intro x hx
      simp only [List.mem_singleton] at hx
      exact ⟨d.pos, by simp [cellPositions], Or.inl (by rw [hx])⟩
    · intro x hx
      obtain ⟨i, _, rfl⟩ := List.mem_map.1 hx
      exact ⟨d.pos, by simp [cellPositions], Or.inr ⟨_, rfl⟩⟩
  | node d s l r ihl ihr =>
    simp only [initTreeCell]
    split
    · intro x hx
      simp only [List.mem_singleton] at hx
      exact ⟨d.pos, by simp [cellPositions], Or.inl (by rw [hx])⟩
    · intro x hx
      rcases List.mem_append.1 hx with hx | hx
      · obtain ⟨p, hp, h⟩ := ihl _ _ _ x hx
        exact ⟨p, by simp [cellPositions, hp], h⟩
      · obtain ⟨p, hp, h⟩ := ihr _ _ _ x hx
        exact ⟨p, by simp [cellPositions, hp], h⟩

theorem initCells_pos (u : ℕ → ℝ) (jit : ℝ → P → P) (l : List (Cell P × ℕ)) (first k : ℕ) :
    ∀ x ∈ initCells u jit l first k, ∃ c ∈ l.map Prod.fst, ∃ p ∈ cellPositions c, x.2 = p ∨ ∃ i, x.2 = jit (u i) p := by
  induction l generalizing first k with
  | nil => simp [initCells]
  | cons y l ih =>
    obtain ⟨c, nv⟩ := y
    intro x hx
    simp only [initCells] at hx
    rcases List.mem_append.1 hx with hx | hx
    · exact ⟨c, by simp, initTreeCell_pos u jit c _ _ _ x hx⟩
    · obtain ⟨c', hc', h⟩ := ih _ _ x hx
      exact ⟨c', by simp [hc'], h⟩

/-- **C42, partial.** For every field, number of patches and random numbers in [0, 1): the tree initialiser writes every one of
the `nc` slots exactly once, in order, with the position of a cell of the field (slightly shifted if several centres are taken from one
leaf); and it does come to an end, except that the random choice among more than `3 nc` top-level cells may go on (see C37).
Missing: the random number 1 (`init_tree_overrun_wrong`). -/
theorem init_tree_slots_partial (u : ℕ → ℝ) (hu : ∀ k, 0 ≤ u k ∧ u k < 1) (jit : ℝ → P → P) (fuel : ℕ) (cells : List (Cell P))
    (hc : cells ≠ []) (nc : ℕ) :
    (cells.length ≤ 3 * nc → ∃ ws, initTree u jit fuel cells nc = some ws) ∧
    ∀ ws, initTree u jit fuel cells nc = some ws →
      ws.map Prod.fst = List.range nc ∧
      ∀ x ∈ ws, ∃ c ∈ cells, ∃ p ∈ cellPositions c, x.2 = p ∨ ∃ i, x.2 = jit (u i) p := by
  have hu' : ∀ k, 0 ≤ u k ∧ u k ≤ 1 := fun k => ⟨(hu k).1, (hu k).2.le⟩
  have hlen : 0 < cells.length := List.length_pos_of_ne_nil hc
  by_cases hcase : cells.length > nc
  · have hmap : ∀ sel : List ℕ × ℕ, selectRandomFrom u fuel cells.length nc 0 = some sel →
        ∃ ws, (List.range nc).mapM (fun i => sel.1[i]?.bind fun j => cells[j]?.map fun c => (i, c.pos)) = some ws ∧
          ws.map Prod.fst = List.range nc ∧ ∀ x ∈ ws, ∃ c ∈ cells, ∃ p ∈ cellPositions c, x.2 = p := by
      intro sel hsel
      obtain ⟨h1, h2, h3⟩ := selectRandomFrom_spec u hu' fuel cells.length nc 0 hcase.le sel hsel
      have : ∀ is : List ℕ, (∀ i ∈ is, i < nc) → ∃ ws,
          is.mapM (fun i => sel.1[i]?.bind fun j => cells[j]?.map fun c => (i, c.pos)) = some ws ∧
          ws.map Prod.fst = is ∧ ∀ x ∈ ws, ∃ c ∈ cells, ∃ p ∈ cellPositions c, x.2 = p := by
        intro is
        induction is with
        | nil => intro _; exact ⟨[], rfl, rfl, by simp⟩
        | cons i is ih =>
          intro hi
          obtain ⟨ws, e, w1, w2⟩ := ih (fun i h => hi i (by simp [h]))
          have hil : i < sel.1.length := by rw [h1]; exact hi i (by simp)
          have hj : sel.1[i] < cells.length := h3 _ (List.getElem_mem hil)
          refine ⟨(i, cells[sel.1[i]].pos) :: ws, ?_, by simp [w1], ?_⟩
          · rw [List.mapM_cons, e, List.getElem?_eq_getElem hil, Option.bind_some, List.getElem?_eq_getElem hj]
            rfl
          · intro x hx
            rcases List.mem_cons.1 hx with rfl | hx
            · refine ⟨_, List.getElem_mem hj, _, ?_, rfl⟩
              cases cells[sel.1[i]] <;> simp [cellPositions, Cell.pos, Cell.data]
            · exact w2 x hx
      exact this (List.range nc) (by simp)
    constructor
    · intro h3
      obtain ⟨sel, hsel⟩ := select_random_ends u hu' fuel cells.length nc 0 hcase.le (Or.inl h3)
      obtain ⟨ws, e, -⟩ := hmap sel hsel
      refine ⟨ws, ?_⟩
      unfold initTree
      rw [if_pos hcase, hsel, Option.bind_some, e]
    · intro ws h
      unfold initTree at h
      rw [if_pos hcase] at h
      obtain ⟨sel, hsel, h⟩ := Option.bind_eq_some_iff.1 h
      obtain ⟨ws', e, w1, w2⟩ := hmap sel hsel
      rw [e] at h
      cases h
      refine ⟨w1, fun x hx => ?_⟩
      obtain ⟨c, hc, p, hp, hx⟩ := w2 x hx
      exact ⟨c, hc, p, hp, Or.inl hx⟩
  · obtain ⟨v, k, hv, hp⟩ := shuffle_perm u hu cells.length 0
      (List.replicate (cells.length - nc % cells.length) (nc / cells.length) ++
        List.replicate (nc % cells.length) (nc / cells.length + 1))
      (by have := (Nat.mod_lt nc hlen); simp; omega)
    have hvl : v.length = cells.length := by
      rw [hp.length_eq]
      have := (Nat.mod_lt nc hlen); simp; omega
    have hsum : v.sum = nc := by
      rw [hp.sum_eq, List.sum_append, List.sum_replicate, List.sum_replicate, smul_eq_mul, smul_eq_mul]
      have h1 := Nat.div_add_mod nc cells.length
      have h2 := (Nat.mod_lt nc hlen).le
      generalize nc % cells.length = r at h1 h2
      generalize nc / cells.length = q at h1
      obtain ⟨d, hd⟩ := Nat.exists_eq_add_of_le h2
      rw [hd] at h1 ⊢
      rw [Nat.add_sub_cancel_left]
      rw [← h1]; ring
    have e : initTree u jit fuel cells nc = some (initCells u jit (cells.zip v) 0 k) := by
      unfold initTree
      rw [if_neg hcase, if_neg hlen.ne']
      simp only
      rw [hv]
      rfl
    refine ⟨fun _ => ⟨_, e⟩, fun ws h => ?_⟩
    rw [e] at h
    cases h
    refine ⟨?_, fun x hx => ?_⟩
    · rw [initCells_slots, List.map_snd_zip (by omega), hsum, ← List.range_eq_range']
    · obtain ⟨c, hc, h⟩ := initCells_pos u jit _ _ _ x hx
      rw [List.map_fst_zip (by omega)] at hc
      exact ⟨c, hc, h⟩

/-- **C42 fails** when `urand()` returns exactly 1: the shuffle of the numbers of centres per cell then swaps with an entry after the
end of the array. -/
theorem init_tree_overrun_wrong (jit : ℝ → P → P) (fuel : ℕ) (c1 c2 : Cell P) :
    initTree (fun _ => 1) jit fuel [c1, c2] 2 = none := by
  unfold initTree
  rw [if_neg (by simp), if_neg (by simp)]
  have : ⌊(2 : ℝ)⌋₊ = 2 := by exact_mod_cast Nat.floor_natCast 2
  simp [shuffle, this, swapIdx]

/-- A case of `init_tree_slots_partial`: three centres from two cells, one of them a leaf. -/
example (jit : ℝ → P → P) (p q r s : P) :
    initTree (fun _ => 0) jit 0 [.leaf ⟨p, 1, 1, 0⟩ [], .node ⟨q, 2, 2, 0⟩ 1 (.leaf ⟨r, 1, 1, 0⟩ []) (.leaf ⟨s, 1, 1, 0⟩ [])] 3
      = some [(0, jit 0 p), (1, jit 0 p), (2, q)] := by
  simp [initTree, shuffle, swapIdx, initCells, initTreeCell, List.range_succ]

end KMeans
end
end TreeCorr
