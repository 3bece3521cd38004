import Verif.Proofs.RuvExact
import Verif.Proofs.Spin

/-! The arrays of a three-point correlation as sums over triples, and the independence of the order of the rows. -/

namespace TreeCorr
open Classical
variable {P : Type}

theorem triplesAt_cons (e : Emit3 P) (es : List (Emit3 P)) (k : ℤ) :
    triplesAt (e :: es) k = (if e.index = k then e.triples else 0) + triplesAt es k := by
  rw [← triplesAt_single]
  exact triplesAt_append [e] es k

theorem sum_triple_mul {α : Type} (f g h : α → ℝ) (xs ys zs : List α) :
    ((crossTriples xs ys zs).map (fun q => f q.1 * g q.2.1 * h q.2.2)).sum = (xs.map f).sum * (ys.map g).sum * (zs.map h).sum := by
  have key : ∀ m : Multiset (α × α), ((((xs : Multiset α) ×ˢ m)).map (fun q => f q.1 * g q.2.1 * h q.2.2)).sum =
      (xs.map f).sum * (m.map fun q => g q.1 * h q.2).sum := by
    intro m
    obtain ⟨l, rfl⟩ : ∃ l : List (α × α), m = (l : Multiset (α × α)) := ⟨m.toList, (Multiset.coe_toList m).symm⟩
    rw [Multiset.map_coe, Multiset.sum_coe, ← sum_product_mul f (fun q : α × α => g q.1 * h q.2) xs l]
    congr 1
    apply Multiset.map_congr rfl
    intro q _
    ring
  unfold crossTriples
  rw [key, sum_product_mul]
  ring

theorem Emit3.n_triples (e : Emit3 P) (h1 : e.c1.SumsOK) (h2 : e.c2.SumsOK) (h3 : e.c3.SumsOK) :
    (e.c1.n : ℝ) * e.c2.n * e.c3.n = brute3N e.triples := by
  unfold brute3N Emit3.triples crossTriples
  rw [Multiset.card_product, Multiset.card_product, h1.n_eq, h2.n_eq, h3.n_eq]
  simp [mul_assoc]

theorem Emit3.k_triples (e : Emit3 P) (h1 : e.c1.SumsOK) (h2 : e.c2.SumsOK) (h3 : e.c3.SumsOK) :
    e.c1.wk * e.c2.wk * e.c3.wk = brute3K e.triples := by
  unfold brute3K Emit3.triples
  rw [sum_triple_mul, h1.wk_eq, h2.wk_eq, h3.wk_eq]

theorem Emit3.w_triples (e : Emit3 P) (h1 : e.c1.SumsOK) (h2 : e.c2.SumsOK) (h3 : e.c3.SumsOK) (x : ℝ)
    (f : Obj P × Obj P × Obj P → ℝ) (hf : ∀ t ∈ e.triples, x = f t) : e.c1.w * e.c2.w * e.c3.w * x = brute3 f e.triples := by
  have : brute3 f e.triples = brute3 (fun _ => x) e.triples := by
    unfold brute3
    congr 1
    apply Multiset.map_congr rfl
    intro t ht
    rw [hf t ht]
  rw [this]
  unfold brute3
  rw [Multiset.sum_map_mul_right]
  unfold Emit3.triples
  rw [sum_triple_mul, h1.w_eq, h2.w_eq, h3.w_eq]

theorem brute3_add (f : Obj P × Obj P × Obj P → ℝ) (a b : Multiset (Obj P × Obj P × Obj P)) :
    brute3 f (a + b) = brute3 f a + brute3 f b := by
  simp [brute3]
theorem brute3N_add (a b : Multiset (Obj P × Obj P × Obj P)) : brute3N (a + b) = brute3N a + brute3N b := by
  simp [brute3N]
theorem brute3K_add (a b : Multiset (Obj P × Obj P × Obj P)) : brute3K (a + b) = brute3K a + brute3K b := by
  simp [brute3K]

/-- All arrays at once: array `g` adds `www * x` of each call. -/
theorem addAt_sum {es : List (Emit3 P)} {g : Acc3 → ℤ → ℝ} {x : Emit3 P → ℝ} {F : Multiset (Obj P × Obj P × Obj P) → ℝ}
    (hg : ∀ A e, g (finish3 A e) = addAt (g A) e.index (x e)) (h0 : F 0 = 0) (hF : ∀ a b, F (a + b) = F a + F b)
    (hx : ∀ e ∈ es, x e = F e.triples) (A : Acc3) (k : ℤ) : g (accumulate3 A es) k = g A k + F (triplesAt es k) := by
  induction es generalizing A with
  | nil => simp [accumulate3, triplesAt, triplesOf, h0]
  | cons e es ih =>
    have hacc : accumulate3 A (e :: es) = accumulate3 (finish3 A e) es := rfl
    rw [hacc, ih (fun e he => hx e (by simp [he])), triplesAt_cons, hF, hg, addAt_apply, hx e (by simp)]
    split
    · ring
    · rw [h0]
      ring

variable [PseudoMetricSpace P]

theorem mem_triples {e : Emit3 P} {t : Obj P × Obj P × Obj P} (h : t ∈ e.triples) :
    t.1 ∈ e.c1.objs ∧ t.2.1 ∈ e.c2.objs ∧ t.2.2 ∈ e.c3.objs := mem_crossTriples.1 h

/-- Triples with a row of weight zero add nothing. -/
theorem brute3_weightless {f : Obj P × Obj P × Obj P → ℝ} {D : Multiset (Obj P × Obj P × Obj P)} (hD : ∀ q ∈ D, Weightless q) :
    brute3 f D = 0 ∧ brute3K D = 0 := by
  constructor
  · unfold brute3
    apply Multiset.sum_eq_zero
    intro x hx
    obtain ⟨q, hq, rfl⟩ := Multiset.mem_map.1 hx
    rcases hD q hq with h | h | h <;> simp [h.1]
  · unfold brute3K
    apply Multiset.sum_eq_zero
    intro x hx
    obtain ⟨q, hq, rfl⟩ := Multiset.mem_map.1 hx
    rcases hD q hq with h | h | h <;> simp [h.2]

/-- From the covered triples to the arrays. -/
theorem holds_of_ex3 {inBin : ℤ → Obj P × Obj P × Obj P → Prop} {fu fv : Obj P × Obj P × Obj P → ℝ}
    {all : Multiset (Obj P × Obj P × Obj P)} {es : List (Emit3 P)} (h : Ex3 inBin Weightless (Call3 fu fv) all es) (k : ℤ) :
    (accumulate3 Acc3.zero es).Holds k (all.filter (inBin k)) fu fv := by
  obtain ⟨D, hD, hZ⟩ := h.1 k
  have hE := h.2
  have hk := (brute3_weightless (f := fu) hZ).2
  have key : ∀ (f : Obj P × Obj P × Obj P → ℝ), brute3 f (all.filter (inBin k)) = brute3 f (triplesAt es k) := by
    intro f
    rw [← hD, brute3_add, (brute3_weightless (f := f) hZ).1, add_zero]
  have w : ∀ {g : Acc3 → ℤ → ℝ} {x : Emit3 P → ℝ} {f : Obj P × Obj P × Obj P → ℝ},
      (∀ A e, g (finish3 A e) = addAt (g A) e.index (e.c1.w * e.c2.w * e.c3.w * x e)) → g Acc3.zero k = 0 →
      (∀ e ∈ es, ∀ t ∈ e.triples, x e = f t) → g (accumulate3 Acc3.zero es) k = brute3 f (all.filter (inBin k)) := by
    intro g x f hg h0 hx
    rw [key, addAt_sum hg (by simp [brute3]) (brute3_add f) (fun e he =>
      e.w_triples (hE e he).1.1 (hE e he).1.2.1 (hE e he).1.2.2 _ _ (hx e he)), h0, zero_add]
  have sides : ∀ e ∈ es, ∀ t ∈ e.triples, TrueSides e t ∧ e.u = fu t ∧ e.v = fv t := by
    rintro e he ⟨o1, o2, o3⟩ ht
    obtain ⟨a, b, c⟩ := mem_triples ht
    exact (hE e he).2 o1 a o2 b o3 c
  constructor
  · refine w (g := Acc3.weight) (x := fun _ => 1) (fun A e => ?_) rfl (fun _ _ _ _ => rfl)
    simp [finish3]
  · rw [← hD, brute3K_add, hk, add_zero,
      addAt_sum (g := Acc3.zeta) (x := fun e => e.c1.wk * e.c2.wk * e.c3.wk) (F := brute3K) (fun A e => rfl) (by simp [brute3K])
        brute3K_add (fun e he => e.k_triples (hE e he).1.1 (hE e he).1.2.1 (hE e he).1.2.2)]
    simp [Acc3.zero]
  · exact w (g := Acc3.meand1) (x := Emit3.d1) (fun A e => rfl) rfl (fun e he t ht => (sides e he t ht).1.d1)
  · exact w (g := Acc3.meand2) (x := Emit3.d2) (fun A e => rfl) rfl (fun e he t ht => (sides e he t ht).1.d2)
  · exact w (g := Acc3.meand3) (x := Emit3.d3) (fun A e => rfl) rfl (fun e he t ht => (sides e he t ht).1.d3)
  · exact w (g := Acc3.meanlogd1) (x := Emit3.logd1) (fun A e => rfl) rfl (fun e he t ht => (sides e he t ht).1.l1)
  · exact w (g := Acc3.meanlogd2) (x := Emit3.logd2) (fun A e => rfl) rfl (fun e he t ht => (sides e he t ht).1.l2)
  · exact w (g := Acc3.meanlogd3) (x := Emit3.logd3) (fun A e => rfl) rfl (fun e he t ht => (sides e he t ht).1.l3)
  · exact w (g := Acc3.meanu) (x := Emit3.u) (fun A e => rfl) rfl (fun e he t ht => (sides e he t ht).2.1)
  · exact w (g := Acc3.meanv) (x := Emit3.v) (fun A e => rfl) rfl (fun e he t ht => (sides e he t ht).2.2)
  · intro hpos
    have : D = 0 := by
      rw [Multiset.eq_zero_iff_forall_notMem]
      intro q hq
      have hw := hpos q (by rw [← hD]; exact Multiset.mem_add.2 (Or.inr hq))
      rcases hZ q hq with h | h | h
      · exact hw.1.ne' h.1
      · exact hw.2.1.ne' h.1
      · exact hw.2.2.ne' h.1
    rw [← hD, this, add_zero,
      addAt_sum (g := Acc3.ntri) (x := fun e => (e.c1.n : ℝ) * e.c2.n * e.c3.n) (F := brute3N) (fun A e => rfl) (by simp [brute3N])
        brute3N_add (fun e he => e.n_triples (hE e he).1.1 (hE e he).1.2.1 (hE e he).1.2.2)]
    simp [Acc3.zero]

/-! ### The order of the rows does not matter -/

omit [PseudoMetricSpace P]

theorem orders_swap23 {α : Type} {O : Ord3} (hO : O ≠ .fixed) (a b c : α) : O.orders (a, c, b) = O.orders (a, b, c) := by
  cases O with
  | any => simp only [Ord3.orders, orders6]; abel
  | first => simp only [Ord3.orders, orders2]; abel
  | fixed => exact absurd rfl hO

theorem from12_perm {α : Type} {O : Ord3} (hO : O ≠ .fixed) {l1 l1' l2 l2' : List α} (h1 : l1.Perm l1') (h2 : l2.Perm l2') :
    from12 O l1 l2 = from12 O l1' l2' := by
  unfold from12
  rw [Multiset.coe_eq_coe.2 h1]
  congr 1
  funext a
  exact autoPairs_perm_sum_monoid h2 (fun q => O.orders (a, q.1, q.2)) (fun b c => orders_swap23 hO a c b)

theorem from111_perm_list {α : Type} {O : Ord3} {l1 l1' l2 l2' l3 l3' : List α} (h1 : l1.Perm l1') (h2 : l2.Perm l2')
    (h3 : l3.Perm l3') : from111 O l1 l2 l3 = from111 O l1' l2' l3' := by
  unfold from111
  rw [Multiset.coe_eq_coe.2 h1, Multiset.coe_eq_coe.2 h2, Multiset.coe_eq_coe.2 h3]

theorem orderedTriples_perm {α : Type} {l l' : List α} (h : l.Perm l') : orderedTriples l = orderedTriples l' := by
  induction h with
  | nil => rfl
  | cons x h ih =>
    rename_i l1 l2
    have e : ∀ m : List α, orderedTriples (x :: m) = orderedTriples ([x] ++ m) := fun _ => rfl
    rw [e, e, autoTriples_append_bind, autoTriples_append_bind, ih, from12_perm (by simp) (List.Perm.refl [x]) h, from12_perm (by simp) h (List.Perm.refl [x])]
  | swap x y l =>
    have e : ∀ x y : α, orderedTriples (x :: y :: l) = orderedTriples (([x] ++ [y]) ++ l) := fun _ _ => rfl
    rw [e, e]
    simp only [autoTriples_append_bind, from12_append1, from12_append2]
    rw [from111_swap23 .any (by simp) l [x] [y]]
    abel
  | trans _ _ ih1 ih2 => exact ih1.trans ih2

theorem from12_any_eq {α : Type} (l1 l2 : List α) : from12 .any l1 l2 = mixedTriples l1 l2 := by
  unfold from12 mixedTriples
  show _ = Multiset.bind (Multiset.bind (l1 : Multiset α) fun a => (autoPairs l2).map (Prod.mk a)) orders6
  rw [Multiset.bind_assoc]
  congr 1
  funext a
  rw [Multiset.bind_map]
  rfl

theorem from12_first_eq {α : Type} (l1 l2 : List α) : from12 .first l1 l2 = cross12Triples l1 l2 := by
  unfold from12 cross12Triples orderedPairs
  show _ = Multiset.bind (l1 : Multiset α) fun a => Multiset.map (Prod.mk a) _
  congr 1
  funext a
  simp only [Multiset.map_add, Multiset.map_map, Ord3.orders, orders2]
  rw [Multiset.bind_add]
  simp [Multiset.bind_singleton, Function.comp_def, Prod.swap]

theorem from111_any_eq {α : Type} (l1 l2 l3 : List α) : from111 .any l1 l2 l3 = mixed3Triples l1 l2 l3 := by
  unfold mixed3Triples
  rw [crossTriples_eq]
  unfold from111
  simp only [Ord3.orders, Multiset.bind_assoc, Multiset.singleton_bind]

end TreeCorr
