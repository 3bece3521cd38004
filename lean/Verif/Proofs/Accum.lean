import Verif.Proofs.LogDecide
import Verif.Spec.Brute
import Mathlib.Algebra.BigOperators.Ring.Finset
import Mathlib.Algebra.Order.BigOperators.Group.Finset

/-! Accumulated arrays as sums over the covered pairs. -/

namespace TreeCorr
open Classical
variable {P : Type}

theorem pairsAt_cons (e : Emit P) (es : List (Emit P)) (k : ℤ) :
    pairsAt (e :: es) k = (if e.k = k then e.pairs else 0) + pairsAt es k := by
  unfold pairsAt
  by_cases h : e.k = k
  · simp [h, pairsOf]
  · simp [h]

theorem sum_product_mul {α β : Type} (f : α → ℝ) (g : β → ℝ) (xs : List α) (ys : List β) :
    (((xs : Multiset α) ×ˢ (ys : Multiset β)).map (fun q => f q.1 * g q.2)).sum
      = (xs.map f).sum * (ys.map g).sum := by
  change ((crossPairs xs ys).map (fun q => f q.1 * g q.2)).sum = _
  induction xs with
  | nil => simp
  | cons x xs ih =>
    have h1 : crossPairs (x :: xs) ys = crossPairs [x] ys + crossPairs xs ys :=
      crossPairs_append_left [x] xs ys
    rw [h1, Multiset.map_add, Multiset.sum_add, ih, crossPairs_singleton, Multiset.map_coe,
      Multiset.sum_coe, List.map_map, List.map_cons, List.sum_cons, add_mul]
    congr 1
    have : ((fun q : α × β => f q.1 * g q.2) ∘ fun y => (x, y)) = fun y => f x * g y := rfl
    rw [this, List.sum_map_mul_left]

theorem Emit.n_pairs (e : Emit P) (h1 : e.c1.SumsOK) (h2 : e.c2.SumsOK) :
    (e.c1.n : ℝ) * e.c2.n = bruteN e.pairs := by
  unfold bruteN Emit.pairs
  rw [Multiset.card_product, h1.n_eq, h2.n_eq]
  simp

theorem Emit.w_pairs (e : Emit P) (h1 : e.c1.SumsOK) (h2 : e.c2.SumsOK) :
    e.c1.w * e.c2.w = bruteW e.pairs := by
  unfold bruteW Emit.pairs
  rw [sum_product_mul, h1.w_eq, h2.w_eq]

theorem Emit.nk_pairs (e : Emit P) (h1 : e.c1.SumsOK) (h2 : e.c2.SumsOK) :
    e.c1.w * e.c2.wk = bruteNK e.pairs := by
  unfold bruteNK Emit.pairs
  rw [sum_product_mul, h1.w_eq, h2.wk_eq]

theorem Emit.kk_pairs (e : Emit P) (h1 : e.c1.SumsOK) (h2 : e.c2.SumsOK) :
    e.c1.wk * e.c2.wk = bruteKK e.pairs := by
  unfold bruteKK Emit.pairs
  rw [sum_product_mul, h1.wk_eq, h2.wk_eq]

theorem bruteN_add (a b : Multiset (Obj P × Obj P)) : bruteN (a + b) = bruteN a + bruteN b := by
  simp [bruteN]
theorem bruteW_add (a b : Multiset (Obj P × Obj P)) : bruteW (a + b) = bruteW a + bruteW b := by
  simp [bruteW]
theorem bruteNK_add (a b : Multiset (Obj P × Obj P)) : bruteNK (a + b) = bruteNK a + bruteNK b := by
  simp [bruteNK]
theorem bruteKK_add (a b : Multiset (Obj P × Obj P)) : bruteKK (a + b) = bruteKK a + bruteKK b := by
  simp [bruteKK]

theorem addAt_apply (f : ℤ → ℝ) (k : ℤ) (v : ℝ) (j : ℤ) :
    addAt f k v j = f j + if k = j then v else 0 := by
  unfold addAt
  by_cases h : j = k
  · simp [h]
  · simp [h, Ne.symm h]

/-- Without reversed bins the arrays are the brute-force sums over the covered pairs. -/
theorem accumulate_eq (A : Acc) (es : List (Emit P)) (hk2 : ∀ e ∈ es, e.k2 = none)
    (h : ∀ e ∈ es, e.c1.SumsOK ∧ e.c2.SumsOK) (k : ℤ) :
    (accumulate A es).npairs k = A.npairs k + bruteN (pairsAt es k) ∧
    (accumulate A es).weight k = A.weight k + bruteW (pairsAt es k) ∧
    (accumulate A es).nk k = A.nk k + bruteNK (pairsAt es k) ∧
    (accumulate A es).kk k = A.kk k + bruteKK (pairsAt es k) := by
  induction es generalizing A with
  | nil => simp [accumulate, pairsAt, bruteN, bruteW, bruteNK, bruteKK]
  | cons e es ih =>
    have he := h e (by simp)
    have h2 := hk2 e (by simp)
    have := ih (finishProcess A e) (fun e he => hk2 e (by simp [he])) (fun e he => h e (by simp [he]))
    obtain ⟨i1, i2, i3, i4⟩ := this
    have hacc : accumulate A (e :: es) = accumulate (finishProcess A e) es := rfl
    rw [hacc, i1, i2, i3, i4, pairsAt_cons, bruteN_add, bruteW_add, bruteNK_add, bruteKK_add]
    simp only [finishProcess, h2, addAt2, addAt_apply]
    rw [e.n_pairs he.1 he.2, e.w_pairs he.1 he.2, e.nk_pairs he.1 he.2, e.kk_pairs he.1 he.2]
    split
    · refine ⟨?_, ?_, ?_, ?_⟩ <;> ring
    · simp [bruteN, bruteW, bruteNK, bruteKK]

theorem pairsAtRev_cons (e : Emit P) (es : List (Emit P)) (k : ℤ) :
    pairsAtRev (e :: es) k = (if e.k2 = some k then e.pairs else 0) + pairsAtRev es k := by
  unfold pairsAtRev
  by_cases h : e.k2 = some k
  · simp [h, pairsOf]
  · simp [h]

theorem addAt2_apply (f : ℤ → ℝ) (k : ℤ) (k2 : Option ℤ) (v : ℝ) (j : ℤ) :
    addAt2 f k k2 v j = f j + (if k = j then v else 0) + (if k2 = some j then v else 0) := by
  cases k2 with
  | none => simp [addAt2, addAt_apply]
  | some k2 => simp [addAt2, addAt_apply]

/-- With reversed bins. -/
theorem accumulate_eq_rev (A : Acc) (es : List (Emit P))
    (h : ∀ e ∈ es, e.c1.SumsOK ∧ e.c2.SumsOK) (k : ℤ) :
    (accumulate A es).npairs k = A.npairs k + bruteN (pairsAt es k) + bruteN (pairsAtRev es k) ∧
    (accumulate A es).weight k = A.weight k + bruteW (pairsAt es k) + bruteW (pairsAtRev es k) ∧
    (accumulate A es).kk k = A.kk k + bruteKK (pairsAt es k) + bruteKK (pairsAtRev es k) := by
  induction es generalizing A with
  | nil => simp [accumulate, pairsAt, pairsAtRev, bruteN, bruteW, bruteKK]
  | cons e es ih =>
    have he := h e (by simp)
    have := ih (finishProcess A e) (fun e he => h e (by simp [he]))
    obtain ⟨i1, i2, i4⟩ := this
    have hacc : accumulate A (e :: es) = accumulate (finishProcess A e) es := rfl
    rw [hacc, i1, i2, i4, pairsAt_cons, pairsAtRev_cons]
    simp only [bruteN_add, bruteW_add, bruteKK_add]
    simp only [finishProcess, addAt2_apply]
    rw [e.n_pairs he.1 he.2, e.w_pairs he.1 he.2, e.kk_pairs he.1 he.2]
    have z1 : bruteN (0 : Multiset (Obj P × Obj P)) = 0 := by simp [bruteN]
    have z2 : bruteW (0 : Multiset (Obj P × Obj P)) = 0 := by simp [bruteW]
    have z3 : bruteKK (0 : Multiset (Obj P × Obj P)) = 0 := by simp [bruteKK]
    split <;> split <;> (try simp only [z1, z2, z3]) <;> refine ⟨?_, ?_, ?_⟩ <;> ring

theorem bruteN_nonneg (m : Multiset (Obj P × Obj P)) : 0 ≤ bruteN m := by simp [bruteN]

theorem sum_pairsAt_le (es : List (Emit P)) (S : Finset ℤ) :
    ∑ k ∈ S, bruteN (pairsAt es k) ≤ bruteN (pairsOf es) := by
  induction es with
  | nil => simp [pairsAt, bruteN]
  | cons e es ih =>
    have h1 : pairsOf (e :: es) = e.pairs + pairsOf es := by simp [pairsOf]
    simp only [pairsAt_cons, bruteN_add, h1, Finset.sum_add_distrib]
    apply add_le_add _ ih
    have : ∀ k, bruteN (if e.k = k then e.pairs else 0) = if e.k = k then bruteN e.pairs else 0 := by
      intro k; split <;> simp [bruteN]
    simp only [this, Finset.sum_ite_eq]
    split
    · exact le_rfl
    · exact bruteN_nonneg _

theorem sum_pairsAtRev_le (es : List (Emit P)) (S : Finset ℤ) :
    ∑ k ∈ S, bruteN (pairsAtRev es k) ≤ bruteN (pairsOf es) := by
  induction es with
  | nil => simp [pairsAtRev, bruteN]
  | cons e es ih =>
    have h1 : pairsOf (e :: es) = e.pairs + pairsOf es := by simp [pairsOf]
    simp only [pairsAtRev_cons, bruteN_add, h1, Finset.sum_add_distrib]
    apply add_le_add _ ih
    cases hk : e.k2 with
    | none => simp [bruteN]
    | some j =>
      have : ∀ k, bruteN (if some j = some k then e.pairs else 0) = if j = k then bruteN e.pairs else 0 := by
        intro k
        by_cases h : j = k <;> simp [bruteN, h]
      simp only [this, Finset.sum_ite_eq]
      split
      · exact le_rfl
      · exact bruteN_nonneg _

theorem pairsAt_le (es : List (Emit P)) (k : ℤ) : pairsAt es k ≤ pairsOf es := by
  induction es with
  | nil => simp [pairsAt]
  | cons e es ih =>
    rw [pairsAt_cons]
    have : pairsOf (e :: es) = e.pairs + pairsOf es := by simp [pairsOf]
    rw [this]
    apply add_le_add _ ih
    split
    · exact le_rfl
    · exact zero_le

theorem mem_pairsOf {es : List (Emit P)} {q : Obj P × Obj P} (h : q ∈ pairsOf es) :
    ∃ e ∈ es, q.1 ∈ e.c1.objs ∧ q.2 ∈ e.c2.objs := by
  induction es with
  | nil => simp at h
  | cons e es ih =>
    have : pairsOf (e :: es) = e.pairs + pairsOf es := by simp [pairsOf]
    rw [this, Multiset.mem_add] at h
    rcases h with h | h
    · refine ⟨e, by simp, ?_⟩
      exact (mem_crossPairs _ _ _).1 h
    · obtain ⟨e', h1, h2⟩ := ih h
      exact ⟨e', by simp [h1], h2⟩

theorem mem_pairsAt {es : List (Emit P)} {k : ℤ} {q : Obj P × Obj P} (h : q ∈ pairsAt es k) :
    ∃ e ∈ es, e.k = k ∧ q.1 ∈ e.c1.objs ∧ q.2 ∈ e.c2.objs := by
  obtain ⟨e, he, h'⟩ := mem_pairsOf h
  simp only [List.mem_filter, decide_eq_true_eq] at he
  exact ⟨e, he.1, he.2, h'⟩

/-- If the covered pairs of every call satisfy exactly the predicate of its bin, the pairs at bin `k` are the
pairs satisfying predicate `k`. -/
theorem pairsAt_eq_filter (es : List (Emit P)) (k : ℤ) (inBin : ℤ → Obj P × Obj P → Prop)
    (hin : ∀ e ∈ es, ∀ q : Obj P × Obj P, q.1 ∈ e.c1.objs → q.2 ∈ e.c2.objs →
      (inBin k q ↔ e.k = k)) :
    pairsAt es k = (pairsOf es).filter (inBin k) := by
  induction es with
  | nil => simp [pairsAt]
  | cons e es ih =>
    rw [pairsAt_cons, ih (fun e he => hin e (by simp [he]))]
    have : pairsOf (e :: es) = e.pairs + pairsOf es := by simp [pairsOf]
    rw [this, Multiset.filter_add]
    congr 1
    have hq : ∀ q ∈ e.pairs, (inBin k q ↔ e.k = k) := by
      intro q hq
      have := (mem_crossPairs _ _ _).1 hq
      exact hin e (by simp) q this.1 this.2
    split
    · rename_i h
      symm
      rw [Multiset.filter_eq_self]
      intro q h'
      exact (hq q h').2 h
    · rename_i h
      symm
      rw [Multiset.filter_eq_nil]
      intro q h' hb
      exact h ((hq q h').1 hb)

end TreeCorr
