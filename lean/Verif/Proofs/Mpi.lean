import Verif.Proofs.Patch
import Verif.Proofs.AtMostOnce
import Mathlib.Algebra.BigOperators.Group.Finset.Basic
import Mathlib.Algebra.Order.BigOperators.Group.Finset

/-! Dividing the jobs over processes and collecting the results. -/

namespace TreeCorr
open Classical
noncomputable section
variable {C : Type}

/-! ### Who owns an index -/

theorem step_unique (f : ℕ → ℕ) (hf : Monotone f) {i size : ℕ} (h0 : f 0 ≤ i) (h1 : i < f size) :
    ∃! r, r < size ∧ f r ≤ i ∧ i < f (r + 1) := by
  have ex : ∃ r, r < size ∧ f r ≤ i ∧ i < f (r + 1) := by
    induction size with
    | zero => omega
    | succ n ih =>
      by_cases h : i < f n
      · obtain ⟨r, hr, h2⟩ := ih h
        exact ⟨r, by omega, h2⟩
      · exact ⟨n, by omega, by omega, h1⟩
  obtain ⟨r, hr⟩ := ex
  refine ⟨r, hr, ?_⟩
  rintro s ⟨hs, s1, s2⟩
  obtain ⟨_, r1, r2⟩ := hr
  by_contra hne
  rcases Nat.lt_or_gt_of_ne hne with h | h
  · have := hf (show s + 1 ≤ r by omega)
    omega
  · have := hf (show r + 1 ≤ s by omega)
    omega

theorem owner_unique {n size i : ℕ} (hs : 0 < size) (hi : i < n) :
    ∃! r, r < size ∧ myIndex n size r i := by
  have hf : Monotone (fun r => n * r / size) := by
    intro a b h
    exact Nat.div_le_div_right (Nat.mul_le_mul_left _ h)
  have := step_unique (fun r => n * r / size) hf (i := i) (size := size) (by simp)
    (by simpa [Nat.mul_div_cancel _ hs] using hi)
  exact this

/-! ### Dividing a list -/

theorem flatMap_range_coe {α : Type} (f : ℕ → List α) (n : ℕ) :
    (((List.range n).flatMap f : List α) : Multiset α) = ∑ r ∈ Finset.range n, (f r : Multiset α) := by
  induction n with
  | zero => rfl
  | succ n ih =>
    rw [Finset.sum_range_succ, List.range_succ, List.flatMap_append, ← Multiset.coe_add, ih]
    simp

theorem divide_perm {α : Type} (L : List α) (mine : ℕ → α → Bool) (size : ℕ)
    (h : ∀ J ∈ L, ∃! r, r < size ∧ mine r J = true) :
    ((List.range size).flatMap (fun r => L.filter (mine r))).Perm L := by
  rw [← Multiset.coe_eq_coe, flatMap_range_coe]
  induction L with
  | nil => simp
  | cons J t ih =>
    obtain ⟨r, ⟨hr, hm⟩, hu⟩ := h J (by simp)
    have e : ∀ x, (((J :: t).filter (mine x) : List α) : Multiset α)
        = (if mine x J = true then {J} else 0) + ((t.filter (mine x) : List α) : Multiset α) := by
      intro x
      rw [List.filter_cons]
      split
      · rw [← Multiset.cons_coe, Multiset.singleton_add]
      · rw [zero_add]
    simp only [e, Finset.sum_add_distrib]
    rw [ih (fun J' hJ' => h J' (by simp [hJ']))]
    rw [Finset.sum_eq_single r]
    · rw [if_pos hm, Multiset.singleton_add, Multiset.cons_coe]
    · intro s hs hne
      rw [if_neg]
      intro hms
      exact hne (hu s ⟨Finset.mem_range.1 hs, hms⟩)
    · intro hns
      exact absurd (Finset.mem_range.2 hr) hns

/-! ### Dictionaries -/

theorem Dict.update_fresh (e : Dict) : ∀ (d : Dict), (e.map Prod.fst).Nodup →
    (∀ x ∈ e, x.1 ∉ d.map Prod.fst) → d.update e = d ++ e := by
  induction e with
  | nil => intro d _ _; simp [Dict.update]
  | cons x t ih =>
    intro d hnd hfr
    have : d.update (x :: t) = (d.set x.1 x.2).update t := rfl
    rw [this, Dict.set_fresh (hfr x (by simp)), ih]
    · simp
    · simp at hnd; simpa using hnd.2
    · intro y hy hm
      simp only [List.map_append, List.mem_append, List.map_cons, List.map_nil, List.mem_singleton] at hm
      rcases hm with hm | hm
      · exact hfr y (by simp [hy]) hm
      · simp only [List.map_cons, List.nodup_cons] at hnd
        exact hnd.1 (by rw [← hm]; exact List.mem_map_of_mem hy)

theorem Dict.get_iff {d : Dict} (h : (d.map Prod.fst).Nodup) (key : ℕ × ℕ) (v : Res) :
    d.get key = some v ↔ (key, v) ∈ d := by
  induction d with
  | nil => simp [Dict.get]
  | cons x t ih =>
    simp only [List.map_cons, List.nodup_cons] at h
    have e : Dict.get (x :: t) key = if key = x.1 then some x.2 else Dict.get t key := by
      simp only [Dict.get, List.lookup]
      by_cases hk : key = x.1
      · simp [hk]
      · have : (key == x.1) = false := by simpa using hk
        simp [this, hk]
    rw [e]
    by_cases hk : key = x.1
    · rw [if_pos hk]
      constructor
      · intro hv
        injection hv with hv
        rw [hk, ← hv]
        simp
      · intro hm
        rw [List.mem_cons] at hm
        rcases hm with hm | hm
        · rw [← hm]
        · exfalso
          apply h.1
          rw [← hk]
          exact List.mem_map_of_mem (f := Prod.fst) hm
    · rw [if_neg hk, ih h.2, List.mem_cons]
      constructor
      · exact Or.inr
      · rintro (hm | hm)
        · exact absurd (congrArg Prod.fst hm) hk
        · exact hm

theorem Dict.get_perm {d e : Dict} (h : (d.map Prod.fst).Nodup) (hp : d.Perm e) (key : ℕ × ℕ) :
    d.get key = e.get key := by
  have he : (e.map Prod.fst).Nodup := (hp.map _).nodup_iff.1 h
  apply Option.ext
  intro v
  rw [Dict.get_iff h, Dict.get_iff he, hp.mem_iff]

theorem stored_keys_nodup (K : Kit C) (js : List (Job C)) (h : (js.map Job.key).Nodup) :
    ((js.flatMap (Job.stored K)).map Prod.fst).Nodup := by
  have : (((js.flatMap (Job.stored K)).map Prod.fst)).Sublist (js.map Job.key) := by
    induction js with
    | nil => simp
    | cons J t ih =>
      simp only [List.map_cons, List.nodup_cons] at h
      rw [List.flatMap_cons, List.map_append, List.map_cons]
      have h1 : ((J.stored K).map Prod.fst).Sublist [J.key] := by
        cases J with
        | auto i c => simp [Job.stored, Job.key]
        | cross f i j c1 c2 =>
          simp only [Job.stored]
          split <;> simp [Job.key]
      exact h1.append (ih h.2)
  exact this.nodup h

/-! ### Collecting -/

theorem gather_fold (Ss : List Corr) : ∀ (S : Corr),
    ((S.results ++ Ss.flatMap Corr.results).map Prod.fst).Nodup → (∀ T ∈ Ss, T.self.acc.Good) →
    Ss.foldl (fun S T => ⟨S.self.iadd T.self, S.results.update T.results⟩) S
      = ⟨S.self + (Ss.map Corr.self).sum, S.results ++ Ss.flatMap Corr.results⟩ := by
  induction Ss with
  | nil => intro S _ _; simp
  | cons T t ih =>
    intro S hnd hg
    rw [List.foldl_cons, Res.iadd_eq _ (hg T (by simp))]
    rw [List.flatMap_cons, ← List.append_assoc, List.map_append, List.nodup_append] at hnd
    have h1 := hnd.1
    rw [List.map_append, List.nodup_append] at h1
    rw [Dict.update_fresh _ _ h1.2.1 (fun x hx hm =>
      h1.2.2 x.1 hm x.1 (List.mem_map_of_mem hx) rfl)]
    rw [ih]
    · simp [add_assoc]
    · simp only
      rw [List.map_append, List.nodup_append]
      exact hnd
    · exact fun T' hT' => hg T' (by simp [hT'])

/-- What the processes collect when every job is done by exactly one of them. -/
theorem gather_jobs {K : Kit C} (hK : K.Good) (L : List (Job C)) (hnd : (L.map Job.key).Nodup)
    (mine : ℕ → ℕ → ℕ → Prop) (size : ℕ) (hs : 0 < size)
    (hu : ∀ J ∈ L, ∃! r, r < size ∧ mine r J.key.1 J.key.2) :
    ∃ R, gather ((List.range size).map fun r => (L.filter (jobMine (mine r))).foldl (Job.run K) Corr.clear) = some R ∧
      R.self = (L.map (Job.val K)).sum ∧ R.results.Perm (L.flatMap (Job.stored K)) := by
  have hperm := divide_perm L (fun r => jobMine (mine r)) size (by
    intro J hJ
    simpa [jobMine] using hu J hJ)
  have hrun : ∀ r, (L.filter (jobMine (mine r))).foldl (Job.run K) Corr.clear
      = ⟨((L.filter (jobMine (mine r))).map (Job.val K)).sum, (L.filter (jobMine (mine r))).flatMap (Job.stored K)⟩ := by
    intro r
    rw [run_jobs hK _ _ ((List.Sublist.map _ List.filter_sublist).nodup hnd) (by simp [Corr.clear])]
    simp only [Corr.clear, List.nil_append]
    rw [← Res.zero_def, zero_add]
  simp only [hrun]
  set F : ℕ → Corr := fun r => ⟨((L.filter (jobMine (mine r))).map (Job.val K)).sum,
    (L.filter (jobMine (mine r))).flatMap (Job.stored K)⟩ with hF
  have hall : ((List.range size).map F).flatMap Corr.results
      = ((List.range size).flatMap fun r => L.filter (jobMine (mine r))).flatMap (Job.stored K) := by
    rw [List.flatMap_map, List.flatMap_assoc]
  have hsum : (((List.range size).map F).map Corr.self).sum
      = (((List.range size).flatMap fun r => L.filter (jobMine (mine r))).map (Job.val K)).sum := by
    rw [List.map_map]
    generalize List.range size = rs
    induction rs with
    | nil => rfl
    | cons r t ih =>
      rw [List.map_cons, List.sum_cons, ih, List.flatMap_cons, List.map_append, List.sum_append]
      rfl
  have hres := hperm.flatMap_right (Job.stored K)
  have hkeys : ((((List.range size).map F).flatMap Corr.results).map Prod.fst).Nodup := by
    rw [hall]
    exact (hres.map _).nodup_iff.2 (stored_keys_nodup K L hnd)
  have hgood : ∀ T ∈ (List.range size).map F, T.self.acc.Good := by
    intro T hT
    obtain ⟨r, _, rfl⟩ := List.mem_map.1 hT
    simp only [hF, Res.sum_acc, List.map_map]
    apply Acc.Good.sum
    intro A hA
    obtain ⟨J, _, rfl⟩ := List.mem_map.1 hA
    exact Job.val_good hK J
  obtain ⟨m, rfl⟩ : ∃ m, size = m + 1 := ⟨size - 1, by omega⟩
  rw [List.range_succ_eq_map, List.map_cons] at hkeys hgood hall hsum ⊢
  refine ⟨_, rfl, ?_, ?_⟩
  · rw [gather_fold _ _ (by simpa using hkeys) (fun T hT => hgood T (List.mem_cons_of_mem _ hT))]
    simp only
    rw [List.map_cons, List.sum_cons] at hsum
    rw [hsum, ← List.range_succ_eq_map]
    exact (hperm.map _).sum_eq
  · rw [gather_fold _ _ (by simpa using hkeys) (fun T hT => hgood T (List.mem_cons_of_mem _ hT))]
    simp only
    rw [List.flatMap_cons] at hall
    rw [hall, ← List.range_succ_eq_map]
    exact hres

/-! ### Sums over pairs of patches -/

theorem autoJobs_sum (K : Kit C) (cats : List (ℕ × C)) :
    ((autoJobs cats).map (Job.val K)).sum = (cats.map fun c1 => K.autoRes c1.2 +
      ((cats.filter (fun c2 => c1.1 < c2.1)).map
        (fun c2 => Job.val K (Job.cross false c1.1 c2.1 c1.2 c2.2))).sum).sum := by
  unfold autoJobs
  generalize hc : cats = l
  have : ∀ l' : List (ℕ × C), ((l'.flatMap (autoRowJobs l)).map (Job.val K)).sum = (l'.map fun c1 => K.autoRes c1.2 +
      ((l.filter (fun c2 => c1.1 < c2.1)).map
        (fun c2 => Job.val K (Job.cross false c1.1 c2.1 c1.2 c2.2))).sum).sum := by
    intro l'
    induction l' with
    | nil => rfl
    | cons c t ih =>
      rw [List.flatMap_cons, List.map_append, List.sum_append, ih, List.map_cons, List.sum_cons]
      congr 1
      simp only [autoRowJobs, List.map_cons, List.sum_cons, List.map_map]
      congr 1
      rw [List.filter_reverse, List.map_reverse, List.sum_reverse]
      rfl
  exact this l

/-- Sums over a list of patches and over the pairs with increasing patch numbers: the patches can be taken in the order of
their numbers. -/
theorem rows_perm {M : Type} [AddCommMonoid M] {a b : List (ℕ × C)} (h : a.Perm b) (f : ℕ × C → M)
    (g : ℕ × C → ℕ × C → M) :
    (a.map fun c1 => f c1 + ((a.filter (fun c2 => c1.1 < c2.1)).map (g c1)).sum).sum
      = (b.map fun c1 => f c1 + ((b.filter (fun c2 => c1.1 < c2.1)).map (g c1)).sum).sum := by
  have e : ∀ c1 : ℕ × C, ((a.filter (fun c2 => c1.1 < c2.1)).map (g c1)).sum
      = ((b.filter (fun c2 => c1.1 < c2.1)).map (g c1)).sum :=
    fun c1 => ((h.filter _).map _).sum_eq
  simp only [e]
  exact (h.map _).sum_eq

theorem rows_sorted {M : Type} [AddCommMonoid M] (f : ℕ × C → M) (g : ℕ × C → ℕ × C → M)
    (l : List (ℕ × C)) (h : l.Pairwise (fun x y => x.1 < y.1)) :
    (l.map fun c1 => f c1 + ((l.filter (fun c2 => c1.1 < c2.1)).map (g c1)).sum).sum
      = (l.map f).sum + ((autoPairs l).map fun q => g q.1 q.2).sum := by
  induction l with
  | nil => simp [autoPairs]
  | cons c t ih =>
    rw [List.pairwise_cons] at h
    rw [List.map_cons, List.sum_cons]
    have e1 : (c :: t).filter (fun c2 => decide (c.1 < c2.1)) = t := by
      rw [List.filter_cons_of_neg (by simp), List.filter_eq_self]
      intro x hx
      simpa using h.1 x hx
    have e2 : (t.map fun c1 => f c1 + (((c :: t).filter (fun c2 => decide (c1.1 < c2.1))).map (g c1)).sum)
        = t.map fun c1 => f c1 + ((t.filter (fun c2 => decide (c1.1 < c2.1))).map (g c1)).sum := by
      apply List.map_congr_left
      intro c1 hc1
      rw [List.filter_cons_of_neg]
      simpa using (h.1 c1 hc1).le
    rw [e1, e2, ih h.2]
    simp only [autoPairs, Multiset.map_add, Multiset.sum_add, Multiset.map_coe, Multiset.sum_coe, List.map_map,
      List.map_cons, List.sum_cons]
    have : ((fun q : (ℕ × C) × (ℕ × C) => g q.1 q.2) ∘ fun y => (c, y)) = g c := rfl
    rw [this]
    abel

theorem exists_sorted (cats : List (ℕ × C)) (h : (cats.map Prod.fst).Nodup) :
    ∃ l, cats.Perm l ∧ l.Pairwise (fun x y => x.1 < y.1) := by
  have : Std.Total (fun a b : ℕ × C => a.1 ≤ b.1) := ⟨fun a b => le_total _ _⟩
  have : IsTrans (ℕ × C) (fun a b : ℕ × C => a.1 ≤ b.1) := ⟨fun a b c => le_trans⟩
  refine ⟨cats.insertionSort (fun a b => a.1 ≤ b.1), (List.perm_insertionSort _ cats).symm, ?_⟩
  have h1 := List.pairwise_insertionSort (fun a b : ℕ × C => a.1 ≤ b.1) cats
  have h2 : ((cats.insertionSort (fun a b => a.1 ≤ b.1)).map Prod.fst).Nodup :=
    ((List.perm_insertionSort _ cats).map _).nodup_iff.2 h
  rw [List.Nodup, List.pairwise_map] at h2
  exact (h1.and h2).imp fun hab => lt_of_le_of_ne hab.1 hab.2

/-! ### The counting code yields good arrays -/

theorem finishProcess_good {P : Type} (e : Emit P) (h1 : e.c1.SumsOK) (h2 : e.c2.SumsOK) :
    (finishProcess Acc.zero e).Good := by
  have pos : ∀ c : Cell P, c.SumsOK → (1 : ℝ) ≤ c.n := by
    intro c hc
    have hne : c.objs ≠ [] := by
      induction c with
      | leaf d os => exact hc.1
      | node d s l r ihl _ =>
        simp only [Cell.SumsOK] at hc
        have := ihl hc.2.2.2.1
        simp [Cell.objs, this]
    rw [hc.n_eq]
    have := List.length_pos_iff.2 hne
    exact_mod_cast this
  have hn : 0 < (e.c1.n : ℝ) * (e.c2.n : ℝ) := by
    have := pos _ h1
    have := pos _ h2
    positivity
  intro k
  simp only [finishProcess, addAt2_apply, addAt_apply, Acc.zero]
  by_cases hk : e.k = k <;> by_cases hk2 : e.k2 = some k <;> simp [hk, hk2] <;>
    first
    | exact hn.le
    | (constructor
       · exact hn.le
       · intro h
         exfalso
         have := hn.ne'
         simp_all)

theorem accumulate_good {P : Type} (es : List (Emit P)) (h : ∀ e ∈ es, e.c1.SumsOK ∧ e.c2.SumsOK) :
    (accumulate Acc.zero es).Good := by
  induction es with
  | nil => exact Acc.Good.zero
  | cons e t ih =>
    have : accumulate Acc.zero (e :: t) = (finishProcess Acc.zero e).add (accumulate Acc.zero t) := by
      rw [← accumulate_zero]; rfl
    rw [this]
    exact (finishProcess_good e (h e (by simp)).1 (h e (by simp)).2).add (ih fun e' he' => h e' (by simp [he']))

theorem treeKit_good {d : ℕ} (A : StdAlg (EuclideanSpace ℝ (Fin d))) (fp : FieldParams)
    (B : BinHelper (EuclideanSpace ℝ (Fin d))) (M : MetricHelper (EuclideanSpace ℝ (Fin d))) (prm : Params)
    (nn : Bool) : (treeKit A fp B M prm nn).Good := by
  constructor
  · intro l
    simp only [treeKit]
    split
    · rename_i es hes
      exact accumulate_good es (auto_counted (buildField_holds A _ fp l) hes).2
    · exact Acc.Good.zero
  · intro l1 l2
    simp only [treeKit]
    split
    · rename_i es hes
      rw [processCross] at hes
      split at hes
      · injection hes with hes
        rw [← hes]
        exact Acc.Good.zero
      · exact accumulate_good es (crossLoop_counted (buildField_holds A _ fp l1) (buildField_holds A _ fp l2) hes).2
    · exact Acc.Good.zero

end
end TreeCorr
