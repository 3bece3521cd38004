import Verif.Model.Cov
import Verif.Proofs.PatchHist
import Mathlib.Algebra.Order.Star.Basic

/-! Helper lemmas for the covariance estimates. -/

namespace TreeCorr
open Classical
noncomputable section
variable {C : Type}

/-! ### Sums of stored results -/

theorem foldl_add_acc (l : List Acc) (A : Acc) : l.foldl Acc.add A = A + l.sum := by
  induction l generalizing A with
  | nil => simp
  | cons a t ih => rw [List.foldl_cons, ih, List.sum_cons, ← add_assoc]; rfl

theorem sumOthers_eq (nn : Bool) (l : List Res) (hg : ∀ r ∈ l, r.acc.Good) (ht : nn = false → ∀ r ∈ l, r.tot = 0) :
    sumOthers nn l = l.sum := by
  have z : (l.map Res.acc).foldl Acc.add Acc.zero = l.sum.acc := by
    rw [foldl_add_acc, ← Acc.zero_def, zero_add, Res.sum_acc]
  cases nn with
  | false =>
    apply Res.ext
    · exact z
    · rw [Res.sum_tot]
      symm
      apply List.sum_eq_zero
      intro x hx
      obtain ⟨r, hr, rfl⟩ := List.mem_map.1 hx
      exact ht rfl r hr
  | true =>
    simp only [sumOthers, if_true]
    apply Res.ext
    · have e : ((l.filter fun r => decide r.nonzero).map Res.acc).foldl Acc.add Acc.zero = l.sum.acc := by
        rw [foldl_add_acc, ← Acc.zero_def, zero_add, Res.sum_acc]
        clear z ht
        induction l with
        | nil => rfl
        | cons a t ih =>
          have := ih fun r hr => hg r (by simp [hr])
          by_cases h : a.nonzero
          · simp [h, this]
          · have : a.acc = 0 := (hg a (by simp)).eq_zero h
            simp [h, this, ih fun r hr => hg r (by simp [hr])]
      show (if _ then Acc.zero else _) = l.sum.acc
      split
      · rename_i h
        rw [h] at e
        exact e
      · exact e
    · exact (Res.sum_tot l).symm

theorem fetch_filter (d : Dict) (hnd : (d.map Prod.fst).Nodup) (p : ℕ × ℕ → Prop) :
    fetch d ((d.map Prod.fst).filter fun k => decide (p k)) = some ((d.filter fun x => decide (p x.1)).map Prod.snd) := by
  have key : ∀ e : Dict, (∀ x ∈ e, x ∈ d) →
      fetch d ((e.map Prod.fst).filter fun k => decide (p k)) = some ((e.filter fun x => decide (p x.1)).map Prod.snd) := by
    intro e he
    induction e with
    | nil => rfl
    | cons x t ih =>
      have iht := ih fun y hy => he y (by simp [hy])
      by_cases h : p x.1
      · have hg : d.get x.1 = some x.2 := (Dict.get_iff hnd _ _).2 (he x (by simp))
        unfold fetch at iht ⊢
        simp [h, hg, iht]
      · simpa [h] using iht
  exact key d fun x hx => hx

theorem stored_filter (K : Kit C) (p : ℕ × ℕ → Prop) (js : List (Job C)) :
    (js.flatMap (Job.stored K)).filter (fun x => decide (p x.1))
      = (js.filter fun J => decide (p J.key)).flatMap (Job.stored K) := by
  induction js with
  | nil => rfl
  | cons J t ih =>
    rw [List.flatMap_cons, List.filter_append, ih]
    by_cases h : p J.key
    · rw [List.filter_cons_of_pos (by simpa using h), List.flatMap_cons]
      congr 1
      rw [List.filter_eq_self]
      intro x hx
      rw [Job.stored_keys K J x hx]
      simpa using h
    · rw [List.filter_cons_of_neg (by simpa using h)]
      have : (J.stored K).filter (fun x => decide (p x.1)) = [] := by
        rw [List.filter_eq_nil_iff]
        intro x hx
        rw [Job.stored_keys K J x hx]
        simpa using h
      rw [this, List.nil_append]

theorem autoJobs_filter (cats : List (ℕ × C)) (i : ℕ) :
    (autoJobs cats).filter (fun J => decide (J.key.1 ≠ i ∧ J.key.2 ≠ i))
      = autoJobs (cats.filter fun c => decide (c.1 ≠ i)) := by
  have row : ∀ c1 : ℕ × C, (autoRowJobs cats c1).filter (fun J => decide (J.key.1 ≠ i ∧ J.key.2 ≠ i))
      = if c1.1 ≠ i then autoRowJobs (cats.filter fun c => decide (c.1 ≠ i)) c1 else [] := by
    intro c1
    by_cases h : c1.1 = i
    · rw [if_neg (by simpa using h), List.filter_eq_nil_iff]
      intro J hJ
      rcases List.mem_cons.1 hJ with rfl | hJ
      · simp [Job.key, h]
      · obtain ⟨c2, _, rfl⟩ := List.mem_map.1 hJ
        simp [Job.key, h]
    · rw [if_pos (by simpa using h)]
      unfold autoRowJobs
      rw [List.filter_cons_of_pos (by simp [Job.key, h])]
      congr 1
      rw [← List.filter_reverse, List.filter_map, List.filter_filter, List.filter_filter]
      congr 1
      apply List.filter_congr
      intro c2 _
      simp only [Function.comp, Job.key]
      by_cases h2 : c1.1 < c2.1 <;> by_cases h3 : c2.1 = i <;> simp [h, h2, h3]
  unfold autoJobs
  rw [List.filter_flatMap]
  simp only [row]
  generalize (fun c1 => autoRowJobs (cats.filter fun c => decide (c.1 ≠ i)) c1) = f
  have : ∀ l : List (ℕ × C), ∀ f : ℕ × C → List (Job C),
      (l.flatMap fun c => if c.1 ≠ i then f c else []) = (l.filter fun c => decide (c.1 ≠ i)).flatMap f := by
    intro l f
    induction l with
    | nil => rfl
    | cons c t ih =>
      by_cases h : c.1 = i
      · simp [h] at ih ⊢; exact ih
      · simp [h] at ih ⊢; exact ih
  exact this cats _

theorem crossJobs_filter (n1 n2 : ℕ) (cats1 cats2 : List (ℕ × C)) (p q : ℕ → Prop) :
    (crossJobs n1 n2 cats1 cats2).filter (fun J => decide (p J.key.1 ∧ q J.key.2))
      = crossJobs n1 n2 (cats1.filter fun c => decide (p c.1)) (cats2.filter fun c => decide (q c.1)) := by
  unfold crossJobs
  rw [List.filter_flatMap]
  induction cats1 with
  | nil => rfl
  | cons c t ih =>
    rw [List.flatMap_cons, ih]
    by_cases h : p c.1
    · rw [List.filter_cons_of_pos (by simpa using h), List.flatMap_cons]
      congr 1
      rw [List.filter_map]
      congr 1
      apply List.filter_congr
      intro c2 _
      simp [Function.comp, Job.key, h]
    · rw [List.filter_cons_of_neg (by simpa using h)]
      have : ((cats2.map fun c2 => Job.cross (decide (c.1 = c2.1) || decide (n1 = 1) || decide (n2 = 1)) c.1 c2.1 c.2
          c2.2).filter fun J => decide (p J.key.1 ∧ q J.key.2)) = [] := by
        rw [List.filter_eq_nil_iff]
        intro J hJ
        obtain ⟨c2, _, rfl⟩ := List.mem_map.1 hJ
        simp [Job.key, h]
      rw [this, List.nil_append]

theorem autoJobs_filter' (cats : List (ℕ × C)) (i : ℕ) (f : Job C → Bool) (g : ℕ × C → Bool)
    (hf : ∀ J, f J = true ↔ J.key.1 ≠ i ∧ J.key.2 ≠ i) (hg : ∀ c, g c = true ↔ c.1 ≠ i) :
    (autoJobs cats).filter f = autoJobs (cats.filter g) := by
  have e1 : f = fun J => decide (J.key.1 ≠ i ∧ J.key.2 ≠ i) :=
    funext fun J => Bool.eq_iff_iff.2 ((hf J).trans (by simp))
  have e2 : g = fun c => decide (c.1 ≠ i) := funext fun c => Bool.eq_iff_iff.2 ((hg c).trans (by simp))
  rw [e1, e2]
  exact autoJobs_filter cats i

theorem crossJobs_filter' (n1 n2 : ℕ) (cats1 cats2 : List (ℕ × C)) (p q : ℕ → Prop) (f : Job C → Bool) (g1 g2 : ℕ × C → Bool)
    (hf : ∀ J, f J = true ↔ p J.key.1 ∧ q J.key.2) (h1 : ∀ c, g1 c = true ↔ p c.1) (h2 : ∀ c, g2 c = true ↔ q c.1) :
    (crossJobs n1 n2 cats1 cats2).filter f = crossJobs n1 n2 (cats1.filter g1) (cats2.filter g2) := by
  have e : f = fun J => decide (p J.key.1 ∧ q J.key.2) := funext fun J => Bool.eq_iff_iff.2 ((hf J).trans (by simp))
  have e1 : g1 = fun c => decide (p c.1) := funext fun c => Bool.eq_iff_iff.2 ((h1 c).trans (by simp))
  have e2 : g2 = fun c => decide (q c.1) := funext fun c => Bool.eq_iff_iff.2 ((h2 c).trans (by simp))
  rw [e, e1, e2]
  exact crossJobs_filter n1 n2 cats1 cats2 p q

theorem stored_good {K : Kit C} (hK : K.Good) (js : List (Job C)) :
    ∀ r ∈ ((js.flatMap (Job.stored K)).map Prod.snd), r.acc.Good ∧ (K.nn = false → r.tot = 0) := by
  intro r hr
  obtain ⟨x, hx, rfl⟩ := List.mem_map.1 hr
  obtain ⟨J, _, hJ⟩ := List.mem_flatMap.1 hx
  rw [Job.stored_keys K J x hJ]
  refine ⟨Job.val_good hK J, fun hnn => ?_⟩
  cases J <;> simp [Job.val, Kit.autoRes, hnn]

/-- The sum over the stored results with a property of their keys is the sum over the jobs with that property. -/
theorem row_sum {K : Kit C} (hK : K.Good) (js : List (Job C)) (hnd : (js.map Job.key).Nodup) (p : ℕ × ℕ → Prop) :
    ∃ rs, fetch (js.flatMap (Job.stored K))
        (((js.flatMap (Job.stored K)).map Prod.fst).filter fun k => decide (p k)) = some rs ∧
      sumOthers K.nn rs = ((js.filter fun J => decide (p J.key)).map (Job.val K)).sum := by
  refine ⟨_, fetch_filter _ (stored_keys_nodup K js hnd) p, ?_⟩
  rw [stored_filter]
  have g := stored_good hK (js.filter fun J => decide (p J.key))
  rw [sumOthers_eq _ _ (fun r hr => (g r hr).1) (fun h r hr => (g r hr).2 h), stored_total]

/-! ### Multiplicities -/

theorem count_filter_nodup {α : Type} [BEq α] [LawfulBEq α] {l : List α} (h : l.Nodup) (p : α → Bool) (a : α) :
    (l.filter p).count a = if a ∈ l ∧ p a = true then 1 else 0 := by
  by_cases hm : a ∈ l ∧ p a = true
  · rw [if_pos hm, List.count_eq_one_of_mem (h.filter p) (List.mem_filter.2 hm)]
  · rw [if_neg hm, List.count_eq_zero]
    rwa [List.mem_filter]

theorem count_row (index : List ℕ) (p : ℕ → Bool) (a b : ℕ) (i : ℕ) :
    ((index.filter p).map fun j => (i, j)).count (a, b) = if i = a ∧ p b = true then index.count b else 0 := by
  induction index with
  | nil => simp
  | cons x t ih =>
    by_cases hp : p x = true
    · rw [List.filter_cons_of_pos hp, List.map_cons, List.count_cons, ih, List.count_cons]
      by_cases h1 : i = a ∧ p b = true
      · simp only [if_pos h1]
        by_cases hx : x = b
        · simp [hx, h1.1]
        · simp [hx]
      · simp only [if_neg h1]
        have : ¬ ((i, x) = (a, b)) := by
          rintro h
          rw [Prod.mk.injEq] at h
          exact h1 ⟨h.1, h.2 ▸ hp⟩
        simpa using this
    · rw [List.filter_cons_of_neg hp, ih, List.count_cons]
      by_cases h1 : i = a ∧ p b = true
      · have : x ≠ b := by rintro rfl; exact hp h1.2
        simp [h1, this]
      · simp [h1]

theorem count_flatMap_rows (index : List ℕ) (f : ℕ → List (ℕ × ℕ)) (g : ℕ → ℕ → ℕ)
    (hf : ∀ i a b, (f i).count (a, b) = if i = a then g a b else 0) (a b : ℕ) :
    (index.flatMap f).count (a, b) = index.count a * g a b := by
  induction index with
  | nil => simp
  | cons x t ih =>
    rw [List.flatMap_cons, List.count_append, ih, hf, List.count_cons]
    by_cases h : x = a
    · simp [h]; ring
    · simp [h]

theorem count_diag (index : List ℕ) (p : ℕ → Bool) (a b : ℕ) :
    ((index.filter p).map fun i => (i, i)).count (a, b) = if a = b ∧ p a = true then index.count a else 0 := by
  induction index with
  | nil => simp
  | cons x t ih =>
    by_cases hp : p x = true
    · rw [List.filter_cons_of_pos hp, List.map_cons, List.count_cons, ih, List.count_cons]
      by_cases h1 : a = b ∧ p a = true
      · obtain ⟨rfl, h2⟩ := h1
        by_cases hx : x = a <;> simp [hx, h2]
      · simp only [if_neg h1]
        have : ¬ ((x, x) = (a, b)) := by
          rintro h
          rw [Prod.mk.injEq] at h
          exact h1 ⟨h.1.symm.trans h.2, h.1 ▸ hp⟩
        simpa using this
    · rw [List.filter_cons_of_neg hp, ih, List.count_cons]
      by_cases h1 : a = b ∧ p a = true
      · obtain ⟨rfl, h2⟩ := h1
        have : x ≠ a := by rintro rfl; exact hp h2
        simp [h2, this]
      · simp [h1]

theorem count_fst (index : List ℕ) (p : ℕ → Bool) (a b : ℕ) :
    ((index.filter p).map fun i => (i, 0)).count (a, b) = if b = 0 ∧ p a = true then index.count a else 0 := by
  induction index with
  | nil => simp
  | cons x t ih =>
    by_cases hp : p x = true
    · rw [List.filter_cons_of_pos hp, List.map_cons, List.count_cons, ih, List.count_cons]
      by_cases h1 : b = 0 ∧ p a = true
      · obtain ⟨rfl, h2⟩ := h1
        by_cases hx : x = a <;> simp [hx, h2]
      · simp only [if_neg h1]
        have : ¬ ((x, 0) = (a, b)) := by
          rintro h
          rw [Prod.mk.injEq] at h
          exact h1 ⟨h.2.symm, h.1 ▸ hp⟩
        simpa using this
    · rw [List.filter_cons_of_neg hp, ih, List.count_cons]
      by_cases h1 : b = 0 ∧ p a = true
      · have : x ≠ a := by rintro rfl; exact hp h1.2
        simp [h1, this]
      · simp [h1]

/-! ### The design matrix -/

section
variable {σ V W : Type}

/-- What `designRows` returns if the value of a row does not depend on the rows before it. -/
def maskedRows {X : Type} [Zero X] (rank size : ℕ) : List (Option X) → ℕ → Option (List X)
  | [], _ => some []
  | x :: xs, row =>
    if row % size = rank then do
      let a ← x
      let rest ← maskedRows rank size xs (row + 1)
      return a :: rest
    else do
      let rest ← maskedRows rank size xs (row + 1)
      return 0 :: rest

/-- The value of a row computed from the objects `ss`. -/
def rowVal (Os : List (CovObj σ V)) (func : List V → W) (ss : List σ) (pairs : List (List (ℕ × ℕ))) : Option (W × ℝ) :=
  (stepAll Os ss pairs).map fun t => (func (List.zipWith CovObj.stat Os t), (List.zipWith CovObj.weight Os t).sum)

theorem designRows_eq [Zero W] (Os : List (CovObj σ V)) (func : List V → W) (rank size : ℕ) (Inv : List σ → Prop)
    (ss0 : List σ) (plist : List (List (List (ℕ × ℕ)))) :
    ∀ (row : ℕ) (ss : List σ), Inv ss →
    (∀ pairs ∈ plist, ∀ s t, Inv s → stepAll Os s pairs = some t → Inv t) →
    (∀ pairs ∈ plist, ∀ s, Inv s → rowVal Os func s pairs = rowVal Os func ss0 pairs) →
    designRows Os func rank size plist row ss = maskedRows rank size (plist.map (rowVal Os func ss0)) row := by
  induction plist with
  | nil => intro row ss _ _ _; rfl
  | cons pairs plist ih =>
    intro row ss hI hstep hval
    have ih' := fun row ss hI => ih row ss hI (fun p hp => hstep p (by simp [hp])) (fun p hp => hval p (by simp [hp]))
    rw [designRows, List.map_cons, maskedRows]
    by_cases hr : row % size = rank
    · rw [if_pos hr, if_pos hr]
      have hv := hval pairs (by simp) ss hI
      rw [← hv]
      unfold rowVal
      cases hs : stepAll Os ss pairs with
      | none => rfl
      | some t =>
        simp only [Option.bind_eq_bind, Option.bind_some, Option.map_some]
        rw [ih' _ _ (hstep pairs (by simp) _ _ hI hs)]
        rfl
    · rw [if_neg hr, if_neg hr, ih' _ _ hI]
      rfl

theorem maskedRows_none {X : Type} [Zero X] (size : ℕ) (xs : List (Option X)) (hx : none ∈ xs) (hs : 0 < size) :
    ∀ row, ∃ rank, rank < size ∧ maskedRows rank size xs row = none := by
  induction xs with
  | nil => simp at hx
  | cons x xs ih =>
    intro row
    by_cases h : x = none
    · refine ⟨row % size, Nat.mod_lt _ hs, ?_⟩
      rw [maskedRows, if_pos rfl, h]
      rfl
    · obtain ⟨rank, hr, hn⟩ := ih (by
        rcases List.mem_cons.1 hx with h' | h'
        · exact absurd h'.symm h
        · exact h') (row + 1)
      refine ⟨rank, hr, ?_⟩
      rw [maskedRows, hn]
      split
      · cases x <;> rfl
      · rfl

/-- `maskedRows` without failures. -/
def masked {X : Type} [Zero X] (rank size : ℕ) : List X → ℕ → List X
  | [], _ => []
  | x :: xs, row => (if row % size = rank then x else 0) :: masked rank size xs (row + 1)

theorem maskedRows_some {X : Type} [Zero X] (rank size : ℕ) (xs : List X) :
    ∀ row, maskedRows rank size (xs.map some) row = some (masked rank size xs row) := by
  induction xs with
  | nil => intro row; rfl
  | cons x xs ih =>
    intro row
    rw [List.map_cons, maskedRows, ih, masked]
    split <;> rfl

theorem allreduce_cons {X : Type} [AddCommMonoid X] (heads : List X) (tails : List (List X))
    (h : heads.length = tails.length) : ∀ (a : X) (as : List X),
    (List.zipWith List.cons heads tails).foldl (fun a v => List.zipWith (· + ·) a v) (a :: as)
      = (a + heads.sum) :: tails.foldl (fun a v => List.zipWith (· + ·) a v) as := by
  induction heads generalizing tails with
  | nil =>
    intro a as
    have : tails = [] := List.eq_nil_of_length_eq_zero h.symm
    subst this
    simp
  | cons x xs ih =>
    intro a as
    cases tails with
    | nil => simp at h
    | cons t ts =>
      rw [List.zipWith_cons_cons, List.foldl_cons, List.zipWith_cons_cons, ih ts (by simpa using h), List.sum_cons,
        List.foldl_cons, add_assoc]

theorem sum_owner {X : Type} [AddCommMonoid X] (size r : ℕ) (hr : r < size) (x : X) :
    ((List.range size).map fun rank => if r = rank then x else 0).sum = x := by
  have : ((List.range size).map fun rank => if r = rank then x else 0).sum
      = ∑ rank ∈ Finset.range size, if r = rank then x else 0 := by
    rw [← List.sum_toFinset _ List.nodup_range]
    apply Finset.sum_congr _ fun _ _ => rfl
    ext; simp
  rw [this, Finset.sum_ite_eq, if_pos (Finset.mem_range.2 hr)]

theorem allreduce_masked {X : Type} [AddCommMonoid X] (size : ℕ) (hs : 0 < size) (xs : List X) :
    ∀ (row : ℕ) (a : List X), a.length = xs.length →
    ((List.range size).map fun rank => masked rank size xs row).foldl (fun a v => List.zipWith (· + ·) a v) a
      = List.zipWith (· + ·) a xs := by
  induction xs with
  | nil =>
    intro row a ha
    have : a = [] := List.eq_nil_of_length_eq_zero ha
    subst this
    generalize List.range size = l
    induction l with
    | nil => rfl
    | cons r t ih => simpa [masked] using ih
  | cons x xs ih =>
    intro row a ha
    cases a with
    | nil => simp at ha
    | cons a as =>
      have e : ((List.range size).map fun rank => masked rank size (x :: xs) row)
          = List.zipWith List.cons ((List.range size).map fun rank => if row % size = rank then x else 0)
            ((List.range size).map fun rank => masked rank size xs (row + 1)) := by
        rw [List.zipWith_map, List.zipWith_self]
        rfl
      rw [e, allreduce_cons _ _ (by simp), ih _ _ (by simpa using ha), sum_owner _ _ (Nat.mod_lt _ hs),
        List.zipWith_cons_cons]

theorem mapM_none {α β : Type} (f : α → Option β) (l : List α) (h : ∃ a ∈ l, f a = none) : l.mapM f = none := by
  induction l with
  | nil => simp at h
  | cons a t ih =>
    rw [List.mapM_cons]
    cases hf : f a with
    | none => rfl
    | some b =>
      obtain ⟨c, hc, hn⟩ := h
      rcases List.mem_cons.1 hc with rfl | hc
      · rw [hf] at hn; cases hn
      · rw [ih ⟨c, hc, hn⟩]; rfl

theorem mapM_some {α β : Type} (f : α → Option β) (g : α → β) (l : List α) (h : ∀ a ∈ l, f a = some (g a)) :
    l.mapM f = some (l.map g) := by
  induction l with
  | nil => rfl
  | cons a t ih =>
    rw [List.mapM_cons, h a (by simp), ih fun b hb => h b (by simp [hb])]
    rfl

theorem design_mpi_of [AddCommMonoid W] (Os : List (CovObj σ V)) (func : List V → W) (size : ℕ) (hs : 0 < size)
    (Inv : List σ → Prop) (ss : List σ) (h0 : Inv ss) (plist : List (List (List (ℕ × ℕ))))
    (hstep : ∀ pairs ∈ plist, ∀ s t, Inv s → stepAll Os s pairs = some t → Inv t)
    (hval : ∀ pairs ∈ plist, ∀ s, Inv s → rowVal Os func s pairs = rowVal Os func ss pairs) :
    designMatrixMpi Os func size plist ss = designMatrix Os func plist ss := by
  have key := fun rank size => designRows_eq Os func rank size Inv ss plist 0 ss h0 hstep hval
  unfold designMatrixMpi designMatrix
  simp only [key]
  by_cases hn : none ∈ plist.map (rowVal Os func ss)
  · obtain ⟨r0, hr0, h1⟩ := maskedRows_none 1 _ hn one_pos 0
    have : r0 = 0 := by omega
    subst this
    rw [h1]
    obtain ⟨r1, hr1, h2⟩ := maskedRows_none size _ hn hs 0
    rw [mapM_none _ _ ⟨r1, List.mem_range.2 hr1, h2⟩]
    rfl
  · obtain ⟨xs, hxs⟩ : ∃ xs : List (W × ℝ), plist.map (rowVal Os func ss) = xs.map some := by
      refine ⟨(plist.map (rowVal Os func ss)).map fun x => x.getD 0, ?_⟩
      rw [List.map_map]
      nth_rw 1 [← List.map_id (plist.map (rowVal Os func ss))]
      apply List.map_congr_left
      intro x hx
      cases x with
      | none => exact absurd hx hn
      | some a => rfl
    have hlen : plist.length = xs.length := by
      have := congrArg List.length hxs
      simpa using this
    simp only [hxs, maskedRows_some]
    rw [mapM_some _ (fun rank => masked rank size xs 0) _ fun _ _ => rfl]
    simp only [Option.bind_eq_bind, Option.bind_some, allreduce, hlen]
    rw [allreduce_masked size hs xs 0 _ (by simp)]
    have z1 : List.zipWith (· + ·) (List.replicate xs.length (0 : W × ℝ)) xs = xs := by
      clear hxs hlen
      induction xs with
      | nil => rfl
      | cons x t ih => rw [List.length_cons, List.replicate_succ, List.zipWith_cons_cons, ih, zero_add]
    have z2 : masked 0 1 xs 0 = xs := by
      have : ∀ row, masked 0 1 xs row = xs := by
        clear hxs hlen z1
        induction xs with
        | nil => intro; rfl
        | cons x t ih => intro row; rw [masked, ih, if_pos (Nat.mod_one _)]
      exact this 0
    rw [z1, z2]
    rfl

end

end
end TreeCorr
