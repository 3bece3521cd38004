import Verif.Model.Local
import Verif.Proofs.Mpi
import Verif.Proofs.PatchCount

/-! Lemmas for `patch_method='local'`. -/

namespace TreeCorr
open Classical
noncomputable section
variable {C : Type}

/-- Patches on the left, expanded patches on the right. -/
def Kit.lift (K : Kit C) (sumw2 : ℝ) : Kit (C ⊕ Option C) where
  auto := fun _ => 0
  cross := fun x y => match x, y with
    | .inl c1, .inr (some c2) => K.cross c1 c2
    | _, _ => 0
  triv := fun x y => match x, y with
    | .inl c1, .inr (some c2) => K.triv c1 c2
    | _, _ => True
  sumw := fun x => match x with
    | .inl c1 => K.sumw c1
    | .inr _ => sumw2
  nn := K.nn

theorem Kit.lift_good {K : Kit C} (hK : K.Good) (w : ℝ) : (K.lift w).Good := by
  refine ⟨fun _ => Acc.Good.zero, ?_⟩
  intro x y
  rcases x with x | x <;> rcases y with y | y | y
  all_goals first | exact hK.2 _ _ | exact Acc.Good.zero

theorem localRes_eq (K : Kit C) (w : ℝ) (c1 : C) (e : Option C) :
    K.localRes w c1 e = if (K.lift w).triv (.inl c1) (.inr e) then Res.zero else (K.lift w).crossRes (.inl c1) (.inr e) := by
  cases e with
  | none => simp [Kit.localRes, Kit.lift]
  | some c =>
    simp only [Kit.localRes, Kit.lift, Kit.crossRes]
    congr!

theorem singleLocal_eq (K : Kit C) (w : ℝ) (i : ℕ) (c1 : C) (e : Option C) (S : Corr) :
    K.singleLocal w i c1 e S = (K.lift w).single12 true (i, i) (.inl c1) (.inr e) S := by
  simp only [Kit.singleLocal, Kit.single12, localRes_eq, or_true, if_true]
  rfl

def localJobs (expand : C → Option C) (cats1 : List (ℕ × C)) : List (Job (C ⊕ Option C)) :=
  cats1.map fun c => Job.cross true c.1 c.1 (.inl c.2) (.inr (expand c.2))

theorem allLocal_eq (K : Kit C) (mine : ℕ → ℕ → Prop) (w : ℝ) (expand : C → Option C) (cats1 : List (ℕ × C)) (S : Corr) :
    K.allLocal mine w expand cats1 S
      = ((localJobs expand cats1).filter (jobMine mine)).foldl (Job.run (K.lift w)) S := by
  unfold Kit.allLocal localJobs
  rw [List.filter_map, List.foldl_map, foldl_if]
  simp only [singleLocal_eq, Job.run]
  rfl

theorem localJobs_keys (expand : C → Option C) (cats1 : List (ℕ × C)) :
    (localJobs expand cats1).map Job.key = cats1.map fun c => (c.1, c.1) := by
  simp [localJobs, Job.key]

theorem localJobs_nodup {expand : C → Option C} {cats1 : List (ℕ × C)} (h : (cats1.map Prod.fst).Nodup) :
    ((localJobs expand cats1).map Job.key).Nodup := by
  rw [localJobs_keys]
  have : (cats1.map fun c => (c.1, c.1)) = (cats1.map Prod.fst).map fun i => (i, i) := by simp
  rw [this]
  exact h.map fun a b e => (Prod.ext_iff.1 e).1

theorem localRes_val (K : Kit C) (w : ℝ) (i : ℕ) (c1 : C) (e : Option C) :
    (Job.cross true i i (.inl c1) (.inr e)).val (K.lift w) = K.localRes w c1 e := by
  rw [localRes_eq]
  simp only [Job.val, Kit.crossRes]
  by_cases h : (K.lift w).triv (.inl c1) (.inr e)
  · simp only [h, if_true, and_self, not_true, and_false, if_false]; rfl
  · simp only [h, if_false, and_false, not_false_eq_true, and_true]

theorem localJobs_val (K : Kit C) (w : ℝ) (expand : C → Option C) (cats1 : List (ℕ × C)) :
    (localJobs expand cats1).map (Job.val (K.lift w)) = cats1.map fun c => K.localRes w c.2 (expand c.2) := by
  simp only [localJobs, List.map_map]
  apply List.map_congr_left
  intro c _
  exact localRes_val K w c.1 c.2 _

theorem localJobs_stored (K : Kit C) (w : ℝ) (expand : C → Option C) (cats1 : List (ℕ × C)) :
    (localJobs expand cats1).flatMap (Job.stored (K.lift w))
      = cats1.map fun c => ((c.1, c.1), K.localRes w c.2 (expand c.2)) := by
  induction cats1 with
  | nil => rfl
  | cons c t ih =>
    have ih' : (t.map fun c => Job.cross true c.1 c.1 (.inl c.2) (.inr (expand c.2))).flatMap (Job.stored (K.lift w))
      = t.map fun c => ((c.1, c.1), K.localRes w c.2 (expand c.2)) := ih
    simp only [localJobs, List.map_cons, List.flatMap_cons, ih']
    simp only [Job.stored, localRes_val, Bool.true_eq_false, and_false, if_false]
    rfl

/-- The local loop without MPI on a cleared object. -/
theorem allLocal_serial {K : Kit C} (hK : K.Good) (w : ℝ) (expand : C → Option C) {cats1 : List (ℕ × C)}
    (hid : (cats1.map Prod.fst).Nodup) :
    K.allLocal (fun _ _ => True) w expand cats1 Corr.clear
      = ⟨(cats1.map fun c => K.localRes w c.2 (expand c.2)).sum,
        cats1.map fun c => ((c.1, c.1), K.localRes w c.2 (expand c.2))⟩ := by
  rw [allLocal_eq]
  have : (localJobs expand cats1).filter (jobMine fun _ _ => True) = localJobs expand cats1 := by
    rw [List.filter_eq_self]; intro J _; simp [jobMine]
  rw [this, run_jobs (K.lift_good hK w) _ _ (localJobs_nodup hid) (by simp [Corr.clear]), localJobs_val, localJobs_stored]
  simp only [Corr.clear, List.nil_append]
  rw [← Res.zero_def, zero_add]

/-- The local loop divided among processes. -/
theorem allLocal_mpi {K : Kit C} (hK : K.Good) (w : ℝ) (expand : C → Option C) {cats1 : List (ℕ × C)}
    (hid : (cats1.map Prod.fst).Nodup) {size : ℕ} (hs : 0 < size) (mine : ℕ → ℕ → ℕ → Prop)
    (hu : ∀ c ∈ cats1, ∃! r, r < size ∧ mine r c.1 c.1) :
    ∃ R, gather ((List.range size).map fun r => K.allLocal (mine r) w expand cats1 Corr.clear) = some R ∧
      R.self = (K.allLocal (fun _ _ => True) w expand cats1 Corr.clear).self ∧
      ∀ i j, R.results.get (i, j) = (K.allLocal (fun _ _ => True) w expand cats1 Corr.clear).results.get (i, j) := by
  obtain ⟨R, h1, h2, h3⟩ := gather_jobs (K.lift_good hK w) (localJobs expand cats1) (localJobs_nodup hid) mine size hs (by
    intro J hJ
    obtain ⟨c, hc, rfl⟩ := List.mem_map.1 hJ
    exact hu c hc)
  refine ⟨R, ?_, ?_, ?_⟩
  · simp only [allLocal_eq]; exact h1
  · rw [allLocal_serial hK w expand hid, h2, localJobs_val]
  · intro i j
    rw [allLocal_serial hK w expand hid]
    rw [localJobs_stored] at h3
    refine Dict.get_perm ((h3.map _).nodup_iff.2 ?_) h3 _
    have : ((cats1.map fun c => ((c.1, c.1), K.localRes w c.2 (expand c.2))).map Prod.fst)
      = (localJobs expand cats1).map Job.key := by rw [localJobs_keys, List.map_map]; rfl
    rw [this]
    exact localJobs_nodup hid

/-! ### The rows of an expanded patch -/

section
variable {d : ℕ}

/-- Moving to the unit sphere does not take the rows and the centre of `p` further away from the centre `x`. -/
def CollapseNear (threeD : Bool) (x : EuclideanSpace ℝ (Fin d)) (p : List (Obj (EuclideanSpace ℝ (Fin d)))) : Prop :=
  dist (collapse threeD (centerSize p).1) (collapse threeD x) ≤ dist (centerSize p).1 x ∧
  ∀ o ∈ p, dist (collapse threeD o.pos) (collapse threeD x) ≤ dist o.pos x

theorem collapseNear_false (x : EuclideanSpace ℝ (Fin d)) (p : List (Obj (EuclideanSpace ℝ (Fin d)))) :
    CollapseNear false x p := by
  simp [CollapseNear, collapse]

/-- The rows kept of one patch. -/
def keptRows (threeD : Bool) (maxsep : ℝ) (c1 p : List (Obj (EuclideanSpace ℝ (Fin d)))) :
    List (Obj (EuclideanSpace ℝ (Fin d))) :=
  if dist (collapse threeD (centerSize p).1) (collapse threeD (centerSize c1).1)
      > maxsep + (centerSize c1).2 + (centerSize p).2 then []
  else p.filter fun o => decide (dist (collapse threeD o.pos) (collapse threeD (centerSize c1).1) < (centerSize c1).2 + maxsep)

theorem expandPatch_eq (threeD : Bool) (maxsep : ℝ) (c1 : List (Obj (EuclideanSpace ℝ (Fin d))))
    (cats2 : List (List (Obj (EuclideanSpace ℝ (Fin d))))) :
    expandPatch threeD maxsep c1 cats2
      = if cats2.flatMap (keptRows threeD maxsep c1) = [] then none else some (cats2.flatMap (keptRows threeD maxsep c1)) := rfl

theorem keptRows_sub {threeD : Bool} {maxsep : ℝ} {c1 p : List (Obj (EuclideanSpace ℝ (Fin d)))} :
    ∀ o ∈ keptRows threeD maxsep c1 p, o ∈ p := by
  intro o ho
  unfold keptRows at ho
  split at ho
  · simp at ho
  · exact (List.mem_filter.1 ho).1

theorem cross_filter_sum {α : Type} (a b : List α) (q : α → Bool) (F : α × α → ℝ)
    (h : ∀ x ∈ a, ∀ y ∈ b, q y = false → F (x, y) = 0) :
    ((crossPairs a (b.filter q)).map F).sum = ((crossPairs a b).map F).sum := by
  induction b with
  | nil => simp
  | cons y t ih =>
    have ht := ih fun x hx z hz => h x hx z (List.mem_cons_of_mem _ hz)
    have split : crossPairs a (y :: t) = crossPairs a [y] + crossPairs a t := crossPairs_append_right a [y] t
    rw [split, Multiset.map_add, Multiset.sum_add]
    by_cases hq : q y = true
    · rw [List.filter_cons_of_pos hq]
      have split' : crossPairs a (y :: t.filter q) = crossPairs a [y] + crossPairs a (t.filter q) :=
        crossPairs_append_right a [y] _
      rw [split', Multiset.map_add, Multiset.sum_add, ht]
    · rw [List.filter_cons_of_neg hq, ht]
      have hy : q y = false := by simpa using hq
      have : ((crossPairs a [y]).map F).sum = 0 := by
        apply Multiset.sum_eq_zero
        intro v hv
        obtain ⟨z, hz, rfl⟩ := Multiset.mem_map.1 hv
        obtain ⟨z1, z2⟩ := z
        rw [mem_crossPairs] at hz
        obtain ⟨h1, h2⟩ := hz
        rw [List.mem_singleton] at h2
        simp only at h1 h2
        subst h2
        exact h _ h1 _ (by simp) hy
      rw [this, zero_add]

/-- No counted pair is lost: weights of pairs that vanish from `maxsep` on sum to the same over the rows kept. -/
theorem kept_sum {threeD : Bool} {maxsep : ℝ} {c1 p : List (Obj (EuclideanSpace ℝ (Fin d)))}
    (hn : CollapseNear threeD (centerSize c1).1 p) (F : Obj (EuclideanSpace ℝ (Fin d)) × Obj (EuclideanSpace ℝ (Fin d)) → ℝ)
    (hF : ∀ x y : Obj (EuclideanSpace ℝ (Fin d)), maxsep ≤ dist x.pos y.pos → F (x, y) = 0) :
    ((crossPairs c1 (keptRows threeD maxsep c1 p)).map F).sum = ((crossPairs c1 p).map F).sum := by
  unfold keptRows
  split
  · rename_i h
    symm
    rw [crossPairs_nil_right, Multiset.map_zero, Multiset.sum_zero]
    apply Multiset.sum_eq_zero
    intro v hv
    obtain ⟨⟨x, y⟩, hz, rfl⟩ := Multiset.mem_map.1 hv
    rw [mem_crossPairs] at hz
    apply hF
    have h1 := centerSize_le c1 x hz.1
    have h2 := centerSize_le p y hz.2
    have h3 := hn.1
    have h4 := dist_triangle4 (centerSize p).1 y.pos x.pos (centerSize c1).1
    rw [dist_comm (centerSize p).1 y.pos, dist_comm y.pos x.pos] at h4
    linarith
  · apply cross_filter_sum
    intro x hx y hy hq
    apply hF
    have h1 := centerSize_le c1 x hx
    have h2 := hn.2 y hy
    have h3 : ¬ _ := of_decide_eq_false hq
    push Not at h3
    have h4 := dist_triangle y.pos x.pos (centerSize c1).1
    rw [dist_comm y.pos x.pos] at h4
    linarith

theorem expanded_sum {threeD : Bool} {maxsep : ℝ} {c1 : List (Obj (EuclideanSpace ℝ (Fin d)))}
    {cats2 : List (ℕ × List (Obj (EuclideanSpace ℝ (Fin d))))}
    (hn : ∀ c ∈ cats2, CollapseNear threeD (centerSize c1).1 c.2)
    (F : Obj (EuclideanSpace ℝ (Fin d)) × Obj (EuclideanSpace ℝ (Fin d)) → ℝ)
    (hF : ∀ x y : Obj (EuclideanSpace ℝ (Fin d)), maxsep ≤ dist x.pos y.pos → F (x, y) = 0) :
    ((crossPairs c1 ((cats2.map Prod.snd).flatMap (keptRows threeD maxsep c1))).map F).sum
      = ((crossPairs c1 (cats2.flatMap Prod.snd)).map F).sum := by
  induction cats2 with
  | nil => simp
  | cons c t ih =>
    simp only [List.map_cons, List.flatMap_cons, crossPairs_append_right, Multiset.map_add, Multiset.sum_add]
    rw [ih fun c hc => hn c (List.mem_cons_of_mem _ hc), kept_sum (hn c (by simp)) F hF]

/-- What the local cross loop accumulates, for any weight of a pair that vanishes from `maxsep` on. -/
theorem local_cross_sum {K : Kit (List (Obj (EuclideanSpace ℝ (Fin d))))} (hK : K.Good) {threeD : Bool} {maxsep : ℝ}
    {cats1 cats2 : List (ℕ × List (Obj (EuclideanSpace ℝ (Fin d))))} (hid : (cats1.map Prod.fst).Nodup)
    (hn : ∀ c1 ∈ cats1, ∀ c2 ∈ cats2, CollapseNear threeD (centerSize c1.2).1 c2.2) (S : Corr) {φ : Acc → ℝ}
    (hφ : Additive φ) (F : Obj (EuclideanSpace ℝ (Fin d)) × Obj (EuclideanSpace ℝ (Fin d)) → ℝ)
    (hF : ∀ x y : Obj (EuclideanSpace ℝ (Fin d)), maxsep ≤ dist x.pos y.pos → F (x, y) = 0)
    (hc : ∀ c1 ∈ cats1, ∀ l2 : List (Obj (EuclideanSpace ℝ (Fin d))), (∀ o ∈ l2, o ∈ cats2.flatMap Prod.snd) →
      φ (if K.triv c1.2 l2 then 0 else K.cross c1.2 l2) = ((crossPairs c1.2 l2).map F).sum) :
    φ (K.localCross threeD maxsep true cats1 cats2 S).self.acc
      = ((crossPairs (cats1.flatMap Prod.snd) (cats2.flatMap Prod.snd)).map F).sum := by
  simp only [Kit.localCross, if_true]
  rw [allLocal_serial hK _ _ hid, crossPairs_flatMap_left]
  simp only
  rw [Res.sum_acc, hφ.sum, List.map_map, List.map_map]
  congr 1
  apply List.map_congr_left
  intro c1 h1
  simp only [Function.comp_apply]
  rw [← expanded_sum (hn c1 h1) F hF, expandPatch_eq]
  set L := (cats2.map Prod.snd).flatMap (keptRows threeD maxsep c1.2) with hL
  have hsub : ∀ o ∈ L, o ∈ cats2.flatMap Prod.snd := by
    intro o ho
    obtain ⟨p, hp, ho⟩ := List.mem_flatMap.1 ho
    obtain ⟨c, hc, rfl⟩ := List.mem_map.1 hp
    exact List.mem_flatMap.2 ⟨c, hc, keptRows_sub o ho⟩
  by_cases he : L = []
  · rw [if_pos he, he]
    simp only [Kit.localRes, crossPairs_nil_right, Multiset.map_zero, Multiset.sum_zero]
    exact hφ.zero
  · rw [if_neg he, ← hc c1 h1 L hsub]
    simp only [Kit.localRes]
    split <;> rfl

/-- Everything counted by the local cross loop, for bins whose exactness is known. -/
theorem local_cross_exact_of (A : StdAlg (EuclideanSpace ℝ (Fin d))) (fp : FieldParams) (hf : fp.minsize = 0)
    {B : BinHelper (EuclideanSpace ℝ (Fin d))} (hB : B = logBin _ ∨ B = linearBin _) {p : Params}
    {inBin : ℤ → ℝ → Prop} (hmax : ∀ k r, inBin k r → r < p.maxsep) (nn threeD : Bool)
    (cats1 cats2 : List (ℕ × List (Obj (EuclideanSpace ℝ (Fin d))))) (hid : (cats1.map Prod.fst).Nodup)
    (hn : ∀ c1 ∈ cats1, ∀ c2 ∈ cats2, CollapseNear threeD (centerSize c1.2).1 c2.2)
    (hx : ∀ l1 l2 : List (Obj (EuclideanSpace ℝ (Fin d))), (∀ o ∈ l1, o ∈ cats1.flatMap Prod.snd) →
      (∀ o ∈ l2, o ∈ cats2.flatMap Prod.snd) → BinExact B p inBin l1 l2)
    (hw1 : ∀ o ∈ cats1.flatMap Prod.snd, o.Valid) (hw2 : ∀ o ∈ cats2.flatMap Prod.snd, o.Valid)
    (S : Corr) (k : ℤ) :
    let R := ((treeKit A fp B (plainMetric _) p nn).localCross threeD p.maxsep true cats1 cats2 S).self.acc
    let prs := pairsIn (crossPairs (cats1.flatMap Prod.snd) (cats2.flatMap Prod.snd)) (inBin k)
    R.weight k = bruteW prs ∧ R.nk k = bruteNK prs ∧ R.kk k = bruteKK prs ∧
      ((∀ o ∈ cats1.flatMap Prod.snd, 0 < o.w) → (∀ o ∈ cats2.flatMap Prod.snd, 0 < o.w) →
        R.npairs k = bruteN prs) := by
  have hK := treeKit_good A fp B (plainMetric _) p nn
  have mem1 : ∀ c ∈ cats1, ∀ o ∈ c.2, o ∈ cats1.flatMap Prod.snd :=
    fun c hc o ho => List.mem_flatMap.2 ⟨c, hc, ho⟩
  have hc' := fun c1 (h1 : c1 ∈ cats1) l2 (h2 : ∀ o ∈ l2, o ∈ cats2.flatMap Prod.snd) =>
    treeKit_cross_exact A fp hf hB hmax nn c1.2 l2 (hx c1.2 l2 (mem1 c1 h1) h2)
    (fun o ho => hw1 o (mem1 c1 h1 o ho)) (fun o ho => hw2 o (h2 o ho)) k
  have hz : ∀ (x y : Obj (EuclideanSpace ℝ (Fin d))) (v : ℝ), p.maxsep ≤ dist x.pos y.pos →
      (if inBin k (dist x.pos y.pos) then v else 0) = 0 := by
    intro x y v h
    rw [if_neg fun hin => absurd (hmax k _ hin) (not_lt.2 h)]
  refine ⟨?_, ?_, ?_, ?_⟩
  · rw [bruteW_pairsIn]
    refine local_cross_sum hK hid hn S (additive_weight k) _ (fun x y h => hz x y _ h) ?_
    intro c1 h1 l2 h2; rw [← bruteW_pairsIn]; exact (hc' c1 h1 l2 h2).1
  · rw [bruteNK_pairsIn]
    refine local_cross_sum hK hid hn S (additive_nk k) _ (fun x y h => hz x y _ h) ?_
    intro c1 h1 l2 h2; rw [← bruteNK_pairsIn]; exact (hc' c1 h1 l2 h2).2.1
  · rw [bruteKK_pairsIn]
    refine local_cross_sum hK hid hn S (additive_kk k) _ (fun x y h => hz x y _ h) ?_
    intro c1 h1 l2 h2; rw [← bruteKK_pairsIn]; exact (hc' c1 h1 l2 h2).2.2.1
  · intro p1 p2
    rw [bruteN_pairsIn]
    refine local_cross_sum hK hid hn S (additive_npairs k) _ (fun x y h => hz x y _ h) ?_
    intro c1 h1 l2 h2; rw [← bruteN_pairsIn]
    exact (hc' c1 h1 l2 h2).2.2.2 (fun o ho => p1 o (mem1 c1 h1 o ho)) (fun o ho => p2 o (h2 o ho))

theorem crossPairs_single_right {α : Type} (t : List α) (x : α) :
    crossPairs t [x] = ((t.map fun y => (y, x) : List (α × α)) : Multiset (α × α)) := by
  induction t with
  | nil => simp
  | cons a b ih =>
    have : crossPairs (a :: b) [x] = crossPairs [a] [x] + crossPairs b [x] := crossPairs_append_left [a] b [x]
    rw [this, ih, crossPairs_singleton]; rfl

/-- All ordered pairs, a row with itself included. -/
theorem crossPairs_self_sum {α : Type} (l : List α) (F : α × α → ℝ) (hF : ∀ x y, F (x, y) = F (y, x)) :
    ((crossPairs l l).map F).sum = 2 * ((autoPairs l).map F).sum + (l.map fun x => F (x, x)).sum := by
  induction l with
  | nil => simp [autoPairs]
  | cons x t ih =>
    have e1 : crossPairs (x :: t) (x :: t) = crossPairs [x] (x :: t) + crossPairs t (x :: t) :=
      crossPairs_append_left [x] t _
    have e2 : crossPairs [x] (x :: t) = crossPairs [x] [x] + crossPairs [x] t := crossPairs_append_right [x] [x] t
    have e3 : crossPairs t (x :: t) = crossPairs t [x] + crossPairs t t := crossPairs_append_right t [x] t
    have e4 : ((crossPairs [x] [x]).map F).sum = F (x, x) := by simp [crossPairs]
    have e5 : ((crossPairs [x] t).map F).sum = (t.map fun y => F (x, y)).sum := by
      rw [crossPairs_singleton]; simp [List.map_map, Function.comp_def]
    have e6 : ((crossPairs t [x]).map F).sum = (t.map fun y => F (x, y)).sum := by
      have : crossPairs t [x] = ((t.map fun y => (y, x) : List (α × α)) : Multiset (α × α)) := by
        exact crossPairs_single_right t x
      rw [this]
      simp only [Multiset.map_coe, Multiset.sum_coe, List.map_map]
      congr 1
      exact List.map_congr_left fun y _ => hF y x
    have e7 : ((autoPairs (x :: t)).map F).sum = (t.map fun y => F (x, y)).sum + ((autoPairs t).map F).sum := by
      simp only [autoPairs, Multiset.map_add, Multiset.sum_add, Multiset.map_coe, Multiset.sum_coe, List.map_map]
      rfl
    rw [e1, e2, e3]
    simp only [Multiset.map_add, Multiset.sum_add, e4, e5, e6, e7, ih, List.map_cons, List.sum_cons]
    ring

/-- Two points outside the unit ball are not taken further apart by moving them to the unit sphere. -/
theorem collapse_le {x y : EuclideanSpace ℝ (Fin d)} (hx : 1 ≤ ‖x‖) (hy : 1 ≤ ‖y‖) :
    dist (collapse true x) (collapse true y) ≤ dist x y := by
  have x0 : 0 < ‖x‖ := by linarith
  have y0 : 0 < ‖y‖ := by linarith
  simp only [collapse, true_and, ne_eq, x0.ne', y0.ne', not_false_eq_true, if_true]
  rw [dist_eq_norm, dist_eq_norm]
  apply le_of_sq_le_sq _ (norm_nonneg _)
  rw [norm_sub_sq_real, norm_sub_sq_real, inner_smul_left, inner_smul_right, norm_smul, norm_smul]
  simp only [norm_inv, norm_norm, inv_mul_cancel₀ x0.ne', inv_mul_cancel₀ y0.ne', conj_trivial]
  have hi := real_inner_le_norm x y
  set i : ℝ := inner ℝ x y
  set a := ‖x‖
  set b := ‖y‖
  have hab : 1 ≤ a * b := by nlinarith
  have e : a⁻¹ * (b⁻¹ * i) = i / (a * b) := by field_simp
  rw [e]
  have h1 : i / (a * b) ≤ 1 := (div_le_one (by linarith)).2 hi
  have h2 : i = i / (a * b) * (a * b) := by field_simp
  nlinarith [sq_nonneg (a - b), mul_nonneg (sub_nonneg.2 h1) (sub_nonneg.2 hab)]

/-- The distances from the origin for which the local mode is right in 3d coordinates. -/
def FarOut (p : List (Obj (EuclideanSpace ℝ (Fin d)))) : Prop :=
  1 ≤ ‖(centerSize p).1‖ ∧ ∀ o ∈ p, 1 ≤ ‖o.pos‖

theorem collapseNear_of {threeD : Bool} {c p : List (Obj (EuclideanSpace ℝ (Fin d)))}
    (h : threeD = true → FarOut c ∧ FarOut p) : CollapseNear threeD (centerSize c).1 p := by
  cases threeD with
  | false => exact collapseNear_false _ _
  | true =>
    obtain ⟨h1, h2⟩ := h rfl
    exact ⟨collapse_le h2.1 h1.1, fun o ho => collapse_le (h2.2 o ho) h1.1⟩

/-- A patch is part of its own expanded patch. -/
theorem expand_self {threeD : Bool} {maxsep : ℝ} (hm : 0 < maxsep) {c : ℕ × List (Obj (EuclideanSpace ℝ (Fin d)))}
    {cats : List (ℕ × List (Obj (EuclideanSpace ℝ (Fin d))))} (hc : c ∈ cats)
    (hn : CollapseNear threeD (centerSize c.2).1 c.2) :
    ∀ o ∈ c.2, o ∈ (cats.map Prod.snd).flatMap (keptRows threeD maxsep c.2) := by
  intro o ho
  refine List.mem_flatMap.2 ⟨c.2, List.mem_map.2 ⟨c, hc, rfl⟩, ?_⟩
  have h0 : 0 ≤ (centerSize c.2).2 := Real.sqrt_nonneg _
  unfold keptRows
  rw [if_neg (by rw [dist_self]; linarith)]
  refine List.mem_filter.2 ⟨ho, decide_eq_true ?_⟩
  have := hn.2 o ho
  have := centerSize_le c.2 o ho
  linarith

theorem treeKit_sumw (A : StdAlg (EuclideanSpace ℝ (Fin d))) (fp : FieldParams)
    (B : BinHelper (EuclideanSpace ℝ (Fin d))) (M : MetricHelper (EuclideanSpace ℝ (Fin d))) (p : Params) (nn : Bool)
    (cats : List (ℕ × List (Obj (EuclideanSpace ℝ (Fin d))))) :
    (cats.map fun c => (treeKit A fp B M p nn).sumw c.2).sum = ((cats.flatMap Prod.snd).map Obj.w).sum := by
  induction cats with
  | nil => rfl
  | cons c t ih =>
    rw [List.map_cons, List.sum_cons, ih, List.flatMap_cons, List.map_append, List.sum_append]
    rfl

end
end
end TreeCorr
