import Verif.Proofs.Exact
import Verif.Spec.Triples

/-! The three-point recursion visits every triple of rows, for any binning whose decisions are exact. -/

namespace TreeCorr
open Classical
variable {P : Type}

/-! ## Multisets of triples -/

/-- The orders in which a triple may be counted. -/
def Ord3.orders {α : Type} : Ord3 → α × α × α → Multiset (α × α × α)
  | .any => orders6
  | .first => orders2
  | .fixed => fun t => {t}

/-- The orders other than the one given. -/
def Ord3.others {α : Type} : Ord3 → α × α × α → Multiset (α × α × α)
  | .any => fun t => {(t.1, t.2.2, t.2.1)} + {(t.2.1, t.1, t.2.2)} + {(t.2.1, t.2.2, t.1)} +
    {(t.2.2, t.1, t.2.1)} + {(t.2.2, t.2.1, t.1)}
  | .first => fun t => {(t.1, t.2.2, t.2.1)}
  | .fixed => fun _ => 0

theorem orders_eq {α : Type} (O : Ord3) (t : α × α × α) : O.orders t = {t} + O.others t := by
  obtain ⟨a, b, c⟩ := t
  cases O
  · simp only [Ord3.orders, Ord3.others, orders6]
    abel
  · rfl
  · simp [Ord3.orders, Ord3.others]

/-- The triples with one row from each list, in the orders of `O`. -/
def from111 {α : Type} (O : Ord3) (l1 l2 l3 : List α) : Multiset (α × α × α) :=
  (l1 : Multiset α).bind fun a => (l2 : Multiset α).bind fun b => (l3 : Multiset α).bind fun c => O.orders (a, b, c)

/-- The triples with one row from the first list and two distinct ones from the second. -/
def from12 {α : Type} (O : Ord3) (l1 l2 : List α) : Multiset (α × α × α) :=
  (l1 : Multiset α).bind fun a => (autoPairs l2).bind fun q => O.orders (a, q)

theorem from111_swap23 {α : Type} (O : Ord3) (hO : O ≠ .fixed) (l1 l2 l3 : List α) :
    from111 O l1 l3 l2 = from111 O l1 l2 l3 := by
  unfold from111
  congr 1
  funext a
  rw [Multiset.bind_bind]
  congr 1
  funext b
  congr 1
  funext c
  cases O
  · simp only [Ord3.orders, orders6]
    abel
  · simp only [Ord3.orders, orders2]
    abel
  · exact absurd rfl hO

theorem from111_swap12 {α : Type} (l1 l2 l3 : List α) :
    from111 .any l2 l1 l3 = from111 .any l1 l2 l3 := by
  unfold from111
  rw [Multiset.bind_bind]
  congr 1
  funext a
  congr 1
  funext b
  congr 1
  funext c
  simp only [Ord3.orders, orders6]
  abel

theorem from111_perm {α : Type} (σ : Perm3) (l1 l2 l3 : List α) :
    from111 .any (σ.apply l1 l2 l3).1 (σ.apply l1 l2 l3).2.1 (σ.apply l1 l2 l3).2.2 = from111 .any l1 l2 l3 := by
  have h12 := @from111_swap12 α
  have h23 := fun a b c => @from111_swap23 α .any (by simp) a b c
  cases σ <;> simp only [Perm3.apply]
  · exact h23 ..
  · exact h12 ..
  · rw [h23, h12]
  · rw [h12, h23]
  · rw [h12, h23, h12]

theorem bind3_add {α : Type} (l1 l2 l3 : Multiset α) (f g : α → α → α → Multiset (α × α × α)) :
    (l1.bind fun a => l2.bind fun b => l3.bind fun c => f a b c + g a b c) =
      (l1.bind fun a => l2.bind fun b => l3.bind fun c => f a b c) +
      (l1.bind fun a => l2.bind fun b => l3.bind fun c => g a b c) := by
  simp only [Multiset.bind_add]

theorem from111_any_first {α : Type} (l1 l2 l3 : List α) :
    from111 .any l1 l2 l3 = from111 .first l1 l2 l3 + (from111 .first l3 l1 l2 + from111 .first l2 l3 l1) := by
  have e2 : from111 .first l3 l1 l2 = (l1 : Multiset α).bind fun a => (l2 : Multiset α).bind fun b =>
      (l3 : Multiset α).bind fun c => orders2 (c, a, b) := by
    unfold from111
    rw [Multiset.bind_bind]
    congr 1
    funext a
    rw [Multiset.bind_bind]
    rfl
  have e3 : from111 .first l2 l3 l1 = (l1 : Multiset α).bind fun a => (l2 : Multiset α).bind fun b =>
      (l3 : Multiset α).bind fun c => orders2 (b, c, a) := by
    unfold from111
    have : ∀ b : α, ((l3 : Multiset α).bind fun c => (l1 : Multiset α).bind fun a => Ord3.first.orders (b, c, a)) =
        (l1 : Multiset α).bind fun a => (l3 : Multiset α).bind fun c => orders2 (b, c, a) := by
      intro b
      rw [Multiset.bind_bind]
      rfl
    simp only [this]
    rw [Multiset.bind_bind]
  rw [e2, e3]
  unfold from111
  rw [← bind3_add, ← bind3_add]
  congr 1
  funext a
  congr 1
  funext b
  congr 1
  funext c
  simp only [Ord3.orders, orders6, orders2]
  abel

theorem from111_first_fixed {α : Type} (l1 l2 l3 : List α) :
    from111 .first l1 l2 l3 = from111 .fixed l1 l2 l3 + from111 .fixed l1 l3 l2 := by
  have e2 : from111 .fixed l1 l3 l2 = (l1 : Multiset α).bind fun a => (l2 : Multiset α).bind fun b =>
      (l3 : Multiset α).bind fun c => {(a, c, b)} := by
    unfold from111
    congr 1
    funext a
    rw [Multiset.bind_bind]
    rfl
  rw [e2]
  unfold from111
  rw [← bind3_add]
  rfl

/-- Handing three lists on in the order decided by `arrange` loses and repeats no triple. -/
theorem from111_arrange {α : Type} (M : Metric3 P) (sort swap23 : Bool) (O : Ord3) (p1 p2 p3 : P) (l1 l2 l3 : List α) :
    from111 O l1 l2 l3 = ((arrange M sort swap23 O p1 p2 p3).map fun oσ =>
      from111 oσ.1 (oσ.2.apply l1 l2 l3).1 (oσ.2.apply l1 l2 l3).2.1 (oσ.2.apply l1 l2 l3).2.2).sum := by
  have h23 := @from111_swap23 α .first (by simp)
  unfold arrange
  cases O
  · simp only
    split
    · split_ifs <;> simp [from111_perm]
    · split
      · split_ifs
        · simp only [List.map_cons, List.map_nil, List.sum_cons, List.sum_nil, Perm3.apply, add_zero]
          rw [from111_any_first]
        · simp only [List.map_cons, List.map_nil, List.sum_cons, List.sum_nil, Perm3.apply, add_zero]
          rw [from111_any_first, h23 l1 l2 l3, ← h23 l3 l1 l2, ← h23 l2 l3 l1]
          abel
      · simp only [List.map_cons, List.map_nil, List.sum_cons, List.sum_nil, Perm3.apply, add_zero]
        rw [from111_any_first]
        simp only [from111_first_fixed]
        abel
  · simp only
    split
    · split_ifs
      · simp [Perm3.apply]
      · simp [Perm3.apply, h23]
    · split
      · split_ifs
        · simp [Perm3.apply]
        · simp [Perm3.apply, h23 l1 l2 l3]
      · simp [Perm3.apply, from111_first_fixed]
  · simp [Perm3.apply]

theorem from111_append1 {α : Type} (O : Ord3) (a b l2 l3 : List α) :
    from111 O (a ++ b) l2 l3 = from111 O a l2 l3 + from111 O b l2 l3 := by
  unfold from111
  rw [← Multiset.coe_add, Multiset.add_bind]

theorem from111_append2 {α : Type} (O : Ord3) (a b l1 l3 : List α) :
    from111 O l1 (a ++ b) l3 = from111 O l1 a l3 + from111 O l1 b l3 := by
  unfold from111
  simp only [← Multiset.coe_add, Multiset.add_bind, Multiset.bind_add]

theorem from111_append3 {α : Type} (O : Ord3) (a b l1 l2 : List α) :
    from111 O l1 l2 (a ++ b) = from111 O l1 l2 a + from111 O l1 l2 b := by
  unfold from111
  simp only [← Multiset.coe_add, Multiset.add_bind, Multiset.bind_add]

theorem from12_append1 {α : Type} (O : Ord3) (a b l2 : List α) :
    from12 O (a ++ b) l2 = from12 O a l2 + from12 O b l2 := by
  unfold from12
  rw [← Multiset.coe_add, Multiset.add_bind]

theorem crossPairs_bind {α β γ : Type} (a : List α) (b : List β) (f : α × β → Multiset γ) :
    (crossPairs a b).bind f = (a : Multiset α).bind fun x => (b : Multiset β).bind fun y => f (x, y) := by
  unfold crossPairs
  show (Multiset.bind (a : Multiset α) fun x => (b : Multiset β).map (Prod.mk x)).bind f = _
  rw [Multiset.bind_assoc]
  congr 1
  funext x
  rw [Multiset.bind_map]

theorem from12_append2 {α : Type} (O : Ord3) (l1 a b : List α) :
    from12 O l1 (a ++ b) = from12 O l1 a + from12 O l1 b + from111 O l1 a b := by
  unfold from12 from111
  simp only [autoPairs_append, Multiset.add_bind, Multiset.bind_add, crossPairs_bind]

theorem autoTriples_append_bind {α : Type} (a b : List α) :
    orderedTriples (a ++ b) = orderedTriples a + orderedTriples b + from12 .any a b + from12 .any b a := by
  unfold orderedTriples
  induction a with
  | nil => simp [autoTriples, from12, autoPairs]
  | cons x xs ih =>
    have e1 : from12 .any (x :: xs) b = ((autoPairs b).bind fun q => orders6 (x, q)) + from12 .any xs b := by
      simp only [from12, Ord3.orders, ← Multiset.cons_coe, Multiset.cons_bind]
    have e2 : from12 .any b (x :: xs) = ((b : Multiset α).bind fun z => (xs : Multiset α).bind fun y => orders6 (z, x, y)) +
        from12 .any b xs := by
      simp only [from12, autoPairs, Multiset.add_bind, Multiset.bind_add, Ord3.orders]
      congr 1
      congr 1
      funext z
      rw [← Multiset.map_coe, Multiset.bind_map]
    have e3 : ((crossPairs xs b).map fun q => (x, q)).bind orders6 =
        ((b : Multiset α).bind fun z => (xs : Multiset α).bind fun y => orders6 (z, x, y)) := by
      rw [Multiset.bind_map, crossPairs_bind, Multiset.bind_bind]
      congr 1
      funext z
      congr 1
      funext y
      simp only [orders6]
      abel
    rw [List.cons_append, autoTriples, autoTriples, autoPairs_append, Multiset.add_bind, ih, Multiset.map_add,
      Multiset.map_add, Multiset.add_bind, Multiset.add_bind, Multiset.add_bind, e1, e2, e3, Multiset.bind_map,
      Multiset.bind_map]
    abel

/-! ## Covering up to rows without weight -/

/-- The calls `es` cover, for every bin, exactly those of the triples `all` that belong to the bin, except for triples in `Z`; and
each call satisfies `E`. -/
def Ex3 (inBin : ℤ → Obj P × Obj P × Obj P → Prop) (Z : Obj P × Obj P × Obj P → Prop) (E : Emit3 P → Prop)
    (all : Multiset (Obj P × Obj P × Obj P)) (es : List (Emit3 P)) : Prop :=
  (∀ k, ∃ D, triplesAt es k + D = all.filter (inBin k) ∧ ∀ q ∈ D, Z q) ∧ ∀ e ∈ es, E e

variable {inBin : ℤ → Obj P × Obj P × Obj P → Prop} {Z : Obj P × Obj P × Obj P → Prop} {E : Emit3 P → Prop}

theorem triplesAt_append (a b : List (Emit3 P)) (k : ℤ) : triplesAt (a ++ b) k = triplesAt a k + triplesAt b k := by
  simp [triplesAt, triplesOf]

theorem triplesAt_single (e : Emit3 P) (k : ℤ) : triplesAt [e] k = if e.index = k then e.triples else 0 := by
  by_cases h : e.index = k <;> simp [triplesAt, triplesOf, h]

theorem Ex3.nil {all : Multiset (Obj P × Obj P × Obj P)} (h : ∀ q ∈ all, ∀ k, inBin k q → Z q) : Ex3 inBin Z E all [] := by
  refine ⟨fun k => ⟨all.filter (inBin k), by simp [triplesAt, triplesOf], ?_⟩, by simp⟩
  intro q hq
  rw [Multiset.mem_filter] at hq
  exact h q hq.1 k hq.2

theorem Ex3.zero : Ex3 inBin Z E 0 ([] : List (Emit3 P)) := Ex3.nil (by simp)

theorem Ex3.add {a b : Multiset (Obj P × Obj P × Obj P)} {es fs : List (Emit3 P)} (h1 : Ex3 inBin Z E a es)
    (h2 : Ex3 inBin Z E b fs) : Ex3 inBin Z E (a + b) (es ++ fs) := by
  refine ⟨fun k => ?_, ?_⟩
  · obtain ⟨D1, e1, z1⟩ := h1.1 k
    obtain ⟨D2, e2, z2⟩ := h2.1 k
    refine ⟨D1 + D2, ?_, ?_⟩
    · rw [Multiset.filter_add, ← e1, ← e2, triplesAt_append]
      abel
    · intro q hq
      rcases Multiset.mem_add.1 hq with hq | hq
      · exact z1 q hq
      · exact z2 q hq
  · intro e he
    rcases List.mem_append.1 he with he | he
    · exact h1.2 e he
    · exact h2.2 e he

theorem concatM_ex {α : Type} {f : α → Option (List (Emit3 P))} {g : α → Multiset (Obj P × Obj P × Obj P)} {l : List α}
    {es : List (Emit3 P)} (h : concatM f l = some es)
    (hf : ∀ x ∈ l, ∀ fs, f x = some fs → Ex3 inBin Z E (g x) fs) : Ex3 inBin Z E ((l.map g).sum) es := by
  induction l generalizing es with
  | nil =>
    simp only [concatM, Option.some.injEq] at h
    subst h
    exact Ex3.zero
  | cons x xs ih =>
    simp only [concatM, bind, Option.bind_eq_some_iff, pure, Option.some.injEq] at h
    obtain ⟨a, ha, b, hb, rfl⟩ := h
    rw [List.map_cons, List.sum_cons]
    exact (hf x (by simp) a ha).add (ih hb fun y hy => hf y (by simp [hy]))

theorem concatM_total {α β : Type} {f : α → Option (List β)} {l : List α} (hf : ∀ x ∈ l, ∃ fs, f x = some fs) :
    ∃ es, concatM f l = some es := by
  induction l with
  | nil => exact ⟨[], rfl⟩
  | cons x xs ih =>
    obtain ⟨a, ha⟩ := hf x (by simp)
    obtain ⟨b, hb⟩ := ih fun y hy => hf y (by simp [hy])
    exact ⟨a ++ b, by simp [concatM, ha, hb]⟩

/-- Cells in an order `arrange` may have chosen. -/
def Arranged (B : Bin3 P) (M : Metric3 P) (O : Ord3) (p1 p2 p3 : P) : Prop :=
  ∃ O' q1 q2 q3 σ, (O, σ) ∈ arrange M B.sort B.swap23 O' q1 q2 q3 ∧ σ.apply q1 q2 q3 = (p1, p2, p3)

/-- The decisions of a binning scheme are exact with respect to `inBin`, up to triples in `Z`, for triples satisfying `G`
(which may depend on the orders allowed). -/
structure Exact3 (B : Bin3 P) (M : Metric3 P) (minsep : ℝ) (Q : Cell P → Prop) (G : Ord3 → Obj P × Obj P × Obj P → Prop)
    (inBin : ℤ → Obj P × Obj P × Obj P → Prop) (Z : Obj P × Obj P × Obj P → Prop) (E : Emit3 P → Prop) : Prop where
  mono : ∀ O p1 p2 p3 O' σ, (O', σ) ∈ arrange M B.sort B.swap23 O p1 p2 p3 → ∀ q, G O q → G O' q
  direct : ∀ O c1 c2 c3 e, Q c1 → Q c2 → Q c3 → Arranged B M O c1.pos c2.pos c3.pos → B.act O c1 c2 c3 = .direct e →
    (e.c1 = c1 ∧ e.c2 = c2 ∧ e.c3 = c3) ∧ E e ∧ ∀ o1 ∈ c1.objs, ∀ o2 ∈ c2.objs, ∀ o3 ∈ c3.objs,
      (∀ q ∈ O.orders (o1, o2, o3), G O q) →
      (∀ k, inBin k (o1, o2, o3) ↔ e.index = k) ∧ ∀ q ∈ O.others (o1, o2, o3), ∀ k, ¬ inBin k q
  drop : ∀ O c1 c2 c3, Q c1 → Q c2 → Q c3 → Arranged B M O c1.pos c2.pos c3.pos → B.act O c1 c2 c3 = .drop →
    ∀ o1 ∈ c1.objs, ∀ o2 ∈ c2.objs, ∀ o3 ∈ c3.objs, ∀ q ∈ O.orders (o1, o2, o3), G O q → ∀ k, inBin k q → Z q
  split : ∀ O c1 c2 c3 f1 f2 f3, Q c1 → Q c2 → Q c3 → B.act O c1 c2 c3 = .split f1 f2 f3 →
    (splitCells f1 f2 f3 c1 c2 c3).isSome
  zero : ∀ c, Q c → c.w = 0 → ∀ o ∈ c.objs, ∀ q : Obj P × Obj P × Obj P, (q.1 = o ∨ q.2.1 = o ∨ q.2.2 = o) → Z q
  skip12 : ∀ O c1 c2, O ≠ .fixed → Q c1 → Q c2 → c1.w ≠ 0 → c2.w ≠ 0 → skip12 B M O c1 c2 →
    ∀ o1 ∈ c1.objs, ∀ o2 ∈ c2.objs, ∀ o3 ∈ c2.objs, ∀ q ∈ O.orders (o1, o2, o3), G O q → ∀ k, inBin k q → Z q
  leaf12 : ∀ O c1 c2, Q c1 → Q c2 → ¬ TreeCorr.skip12 B M O c1 c2 → 0 < c2.size
  small3 : ∀ c, Q c → c.size < 0.5 * minsep → ∀ o1 ∈ c.objs, ∀ o2 ∈ c.objs, ∀ o3 ∈ c.objs, ∀ k,
    inBin k (o1, o2, o3) → Z (o1, o2, o3)

theorem Cell.nodes_pos (c : Cell P) : 0 < c.nodes := by
  cases c <;> simp [Cell.nodes]

/-- The triples from three cells. -/
def cells111 (O : Ord3) (t : Cell P × Cell P × Cell P) : Multiset (Obj P × Obj P × Obj P) :=
  from111 O t.1.objs t.2.1.objs t.2.2.objs

theorem halves_spec {f : Bool} {c : Cell P} {a : List (Cell P)} (h : halves f c = some a) :
    (f = false ∧ a = [c]) ∨ (∃ d s l r, f = true ∧ c = .node d s l r ∧ a = [l, r]) := by
  cases f with
  | false => exact Or.inl ⟨rfl, by simpa [halves] using h.symm⟩
  | true =>
    cases c with
    | leaf d os => simp [halves] at h
    | node d s l r => exact Or.inr ⟨d, s, l, r, rfl, rfl, by simpa [halves] using h.symm⟩

theorem halves_mem {Q : Cell P → Prop} (hQ : Hered Q) {f : Bool} {c : Cell P} (q : Q c) {a : List (Cell P)}
    (h : halves f c = some a) {x : Cell P} (hx : x ∈ a) : Q x ∧ x.nodes ≤ c.nodes ∧ (f = true → x.nodes < c.nodes) := by
  rcases halves_spec h with ⟨g, rfl⟩ | ⟨d, s, l, r, g, rfl, rfl⟩
  · simp only [List.mem_singleton] at hx
    subst hx
    simp [q, g]
  · obtain ⟨ql, qr⟩ := hQ _ _ _ _ q
    simp only [List.mem_cons, List.not_mem_nil, or_false] at hx
    have hl := l.nodes_pos
    have hr := r.nodes_pos
    rcases hx with rfl | rfl
    · refine ⟨ql, ?_, fun _ => ?_⟩ <;> simp only [Cell.nodes] <;> omega
    · refine ⟨qr, ?_, fun _ => ?_⟩ <;> simp only [Cell.nodes] <;> omega

theorem sum_halves {β : Type} [AddCommMonoid β] {f : Bool} {c : Cell P} {a : List (Cell P)} (h : halves f c = some a)
    (g : List (Obj P) → β) (hg : ∀ x y, g (x ++ y) = g x + g y) : g c.objs = (a.map fun x => g x.objs).sum := by
  rcases halves_spec h with ⟨_, rfl⟩ | ⟨d, s, l, r, _, rfl, rfl⟩
  · simp
  · simp [Cell.objs, hg]

theorem List.sum_flatMap' {α β : Type} [AddCommMonoid β] (l : List α) (f : α → List β) :
    (l.flatMap f).sum = (l.map fun x => (f x).sum).sum := by
  induction l with
  | nil => rfl
  | cons x xs ih => simp [List.flatMap_cons, ih]

theorem splitCells_spec {Q : Cell P → Prop} (hQ : Hered Q) (O : Ord3) {f1 f2 f3 : Bool} {c1 c2 c3 : Cell P} (q1 : Q c1)
    (q2 : Q c2) (q3 : Q c3) {ts : List (Cell P × Cell P × Cell P)} (h : splitCells f1 f2 f3 c1 c2 c3 = some ts) :
    cells111 O (c1, c2, c3) = (ts.map (cells111 O)).sum ∧
      ∀ t ∈ ts, (Q t.1 ∧ Q t.2.1 ∧ Q t.2.2) ∧
        t.1.nodes + t.2.1.nodes + t.2.2.nodes < c1.nodes + c2.nodes + c3.nodes := by
  simp only [splitCells, bind, Option.bind_eq_some_iff, pure, Option.some.injEq] at h
  obtain ⟨a, ha, b, hb, c, hc, rfl⟩ := h
  refine ⟨?_, ?_⟩
  · simp only [cells111]
    rw [sum_halves ha (fun l => from111 O l c2.objs c3.objs) (fun _ _ => from111_append1 ..)]
    have h1 : (fun x : Cell P => from111 O x.objs c2.objs c3.objs) =
        fun x => (b.map fun y => (c.map fun z => cells111 O (x, y, z)).sum).sum := by
      funext x
      rw [sum_halves hb (fun l => from111 O x.objs l c3.objs) (fun _ _ => from111_append2 ..)]
      congr 1
      apply List.map_congr_left
      intro y _
      exact sum_halves hc (fun l => from111 O x.objs y.objs l) (fun _ _ => from111_append3 ..)
    rw [h1]
    simp only [List.map_flatMap, List.map_map, Function.comp_def, List.sum_flatMap']
  · intro t ht
    simp only [List.mem_flatMap, List.mem_map] at ht
    obtain ⟨x, hx, y, hy, z, hz, rfl⟩ := ht
    have k1 := halves_mem hQ q1 ha hx
    have k2 := halves_mem hQ q2 hb hy
    have k3 := halves_mem hQ q3 hc hz
    refine ⟨⟨k1.1, k2.1, k3.1⟩, ?_⟩
    have hf : (f1 || (!f2 && !f3)) = true ∨ f2 = true ∨ f3 = true := by
      cases f1 <;> cases f2 <;> cases f3 <;> simp
    simp only
    rcases hf with hf | hf | hf
    · have := k1.2.2 hf
      omega
    · have := k2.2.2 hf
      omega
    · have := k3.2.2 hf
      omega

theorem mem_from111 {α : Type} {O : Ord3} {l1 l2 l3 : List α} {q : α × α × α} :
    q ∈ from111 O l1 l2 l3 ↔ ∃ a ∈ l1, ∃ b ∈ l2, ∃ c ∈ l3, q ∈ O.orders (a, b, c) := by
  simp [from111, Multiset.mem_bind]

theorem mem_orders_comp {α : Type} {O : Ord3} {a b c : α} {q : α × α × α} (h : q ∈ O.orders (a, b, c)) :
    (q.1 = a ∨ q.2.1 = a ∨ q.2.2 = a) ∧ (q.1 = b ∨ q.2.1 = b ∨ q.2.2 = b) ∧ (q.1 = c ∨ q.2.1 = c ∨ q.2.2 = c) := by
  cases O <;> simp only [Ord3.orders, orders6, orders2, Multiset.mem_add, Multiset.mem_singleton] at h
  · rcases h with ((((rfl | rfl) | rfl) | rfl) | rfl) | rfl <;> simp
  · rcases h with rfl | rfl <;> simp
  · subst h
    simp

theorem crossTriples_eq {α : Type} (l1 l2 l3 : List α) : crossTriples l1 l2 l3 = from111 .fixed l1 l2 l3 := by
  show (Multiset.bind (l1 : Multiset α) fun a => ((l2 : Multiset α) ×ˢ (l3 : Multiset α)).map (Prod.mk a)) = _
  unfold from111
  congr 1
  funext a
  show Multiset.map (Prod.mk a) (Multiset.bind (l2 : Multiset α) fun b => (l3 : Multiset α).map (Prod.mk b)) = _
  rw [Multiset.map_bind]
  congr 1
  funext b
  rw [Multiset.map_map]
  simp only [Ord3.orders]
  rw [Multiset.bind_singleton]
  rfl

theorem mem_crossTriples {α : Type} {l1 l2 l3 : List α} {q : α × α × α} :
    q ∈ crossTriples l1 l2 l3 ↔ q.1 ∈ l1 ∧ q.2.1 ∈ l2 ∧ q.2.2 ∈ l3 := by
  unfold crossTriples
  rw [Multiset.mem_product, Multiset.mem_product, Multiset.mem_coe, Multiset.mem_coe, Multiset.mem_coe]

/-- The triples in an order other than the one of the cells. -/
def rest111 {α : Type} (O : Ord3) (l1 l2 l3 : List α) : Multiset (α × α × α) :=
  (l1 : Multiset α).bind fun a => (l2 : Multiset α).bind fun b => (l3 : Multiset α).bind fun c => O.others (a, b, c)

theorem from111_rest {α : Type} (O : Ord3) (l1 l2 l3 : List α) :
    from111 O l1 l2 l3 = crossTriples l1 l2 l3 + rest111 O l1 l2 l3 := by
  rw [crossTriples_eq]
  unfold from111 rest111
  rw [← bind3_add]
  congr 1
  funext a
  congr 1
  funext b
  congr 1
  funext c
  exact orders_eq O (a, b, c)

variable {B : Bin3 P} {M : Metric3 P} {minsep : ℝ} {Q : Cell P → Prop} {G : Ord3 → Obj P × Obj P × Obj P → Prop}

theorem process111N_ex (hx : Exact3 B M minsep Q G inBin Z E) (hQ : Hered Q) (n : ℕ) (O : Ord3) (c1 c2 c3 : Cell P)
    (q1 : Q c1) (q2 : Q c2) (q3 : Q c3) (hG : ∀ q ∈ cells111 O (c1, c2, c3), G O q) {es : List (Emit3 P)}
    (h : process111N B M n O c1 c2 c3 = some es) : Ex3 inBin Z E (cells111 O (c1, c2, c3)) es := by
  induction n generalizing O c1 c2 c3 es with
  | zero => simp [process111N] at h
  | succ n ih =>
    rw [process111N] at h
    split at h
    · rename_i hw
      simp only [Option.some.injEq] at h
      subst h
      apply Ex3.nil
      intro q hq k _
      obtain ⟨a, ha, b, hb, c, hc, hq⟩ := mem_from111.1 hq
      obtain ⟨ma, mb, mc⟩ := mem_orders_comp hq
      rcases hw with hw | hw | hw
      · exact hx.zero c1 q1 hw a ha q ma
      · exact hx.zero c2 q2 hw b hb q mb
      · exact hx.zero c3 q3 hw c hc q mc
    · have harr : cells111 O (c1, c2, c3) = ((arrange M B.sort B.swap23 O c1.pos c2.pos c3.pos).map fun oσ =>
          cells111 oσ.1 (oσ.2.apply c1 c2 c3)).sum := by
        unfold cells111
        rw [from111_arrange M B.sort B.swap23 O c1.pos c2.pos c3.pos]
        congr 1
        apply List.map_congr_left
        rintro ⟨O', σ⟩ _
        cases σ <;> rfl
      rw [harr]
      refine concatM_ex h ?_
      rintro ⟨O', σ⟩ hmem fs hfs
      have hGs : ∀ q ∈ cells111 O' (σ.apply c1 c2 c3), G O' q := by
        intro q hq
        apply hx.mono O _ _ _ O' σ hmem
        apply hG
        rw [harr]
        exact Multiset.mem_of_le (List.single_le_sum (by simp) _ (List.mem_map.2 ⟨(O', σ), hmem, rfl⟩)) hq
      have hAr : Arranged B M O' (σ.apply c1 c2 c3).1.pos (σ.apply c1 c2 c3).2.1.pos (σ.apply c1 c2 c3).2.2.pos :=
        ⟨O, c1.pos, c2.pos, c3.pos, σ, hmem, by cases σ <;> rfl⟩
      have hq : Q (σ.apply c1 c2 c3).1 ∧ Q (σ.apply c1 c2 c3).2.1 ∧ Q (σ.apply c1 c2 c3).2.2 := by
        cases σ <;> simp [Perm3.apply, q1, q2, q3]
      simp only at hfs
      generalize σ.apply c1 c2 c3 = t at hfs hGs hAr hq ⊢
      obtain ⟨a1, a2, a3⟩ := t
      simp only at hfs hGs hAr hq ⊢
      cases hact : B.act O' a1 a2 a3 with
      | drop =>
        rw [hact] at hfs
        simp only [Option.some.injEq] at hfs
        subst hfs
        apply Ex3.nil
        intro q hm k hk
        obtain ⟨a, ha, b, hb, c, hc, hm'⟩ := mem_from111.1 hm
        exact hx.drop O' a1 a2 a3 hq.1 hq.2.1 hq.2.2 hAr hact a ha b hb c hc q hm' (hGs q hm) k hk
      | direct e =>
        rw [hact] at hfs
        simp only [Option.some.injEq] at hfs
        subst hfs
        obtain ⟨⟨e1, e2, e3⟩, hE, hd⟩ := hx.direct O' a1 a2 a3 e hq.1 hq.2.1 hq.2.2 hAr hact
        refine ⟨fun k => ⟨0, ?_, by simp⟩, by simpa using hE⟩
        rw [add_zero, triplesAt_single]
        unfold cells111
        rw [from111_rest, Multiset.filter_add]
        have hr : (rest111 O' a1.objs a2.objs a3.objs).filter (inBin k) = 0 := by
          rw [Multiset.filter_eq_nil]
          intro q hm
          simp only [rest111, Multiset.mem_bind, Multiset.mem_coe] at hm
          obtain ⟨a, ha, b, hb, c, hc, hm⟩ := hm
          exact (hd a ha b hb c hc (fun q hq' => hGs q (mem_from111.2 ⟨a, ha, b, hb, c, hc, hq'⟩))).2 q hm k
        rw [hr, add_zero]
        have hiff : ∀ q ∈ crossTriples a1.objs a2.objs a3.objs, (inBin k q ↔ e.index = k) := by
          rintro ⟨o1, o2, o3⟩ hm
          rw [mem_crossTriples] at hm
          exact (hd o1 hm.1 o2 hm.2.1 o3 hm.2.2
            (fun q hq' => hGs q (mem_from111.2 ⟨o1, hm.1, o2, hm.2.1, o3, hm.2.2, hq'⟩))).1 k
        split
        · rename_i hk
          rw [Multiset.filter_eq_self.2 (fun q hm => (hiff q hm).2 hk)]
          simp [Emit3.triples, e1, e2, e3]
        · rename_i hk
          rw [Multiset.filter_eq_nil.2 (fun q hm hb => hk ((hiff q hm).1 hb))]
      | split f1 f2 f3 =>
        rw [hact] at hfs
        simp only [bind, Option.bind_eq_some_iff] at hfs
        obtain ⟨ts, hts, hfs⟩ := hfs
        obtain ⟨hsum, hmem'⟩ := splitCells_spec hQ O' hq.1 hq.2.1 hq.2.2 hts
        rw [hsum]
        refine concatM_ex hfs ?_
        rintro ⟨b1, b2, b3⟩ hb fs' hfs'
        have hh := (hmem' _ hb).1
        refine ih O' b1 b2 b3 hh.1 hh.2.1 hh.2.2 ?_ hfs'
        intro q hm
        apply hGs
        rw [hsum]
        exact Multiset.mem_of_le (List.single_le_sum (by simp) _ (List.mem_map.2 ⟨_, hb, rfl⟩)) hm

theorem process111N_total (hx : Exact3 B M minsep Q G inBin Z E) (hQ : Hered Q) (n : ℕ) (O : Ord3) (c1 c2 c3 : Cell P)
    (q1 : Q c1) (q2 : Q c2) (q3 : Q c3) (hn : c1.nodes + c2.nodes + c3.nodes ≤ n) (hn0 : 0 < n) :
    ∃ es, process111N B M n O c1 c2 c3 = some es := by
  induction n generalizing O c1 c2 c3 with
  | zero => omega
  | succ n ih =>
    rw [process111N]
    split
    · exact ⟨[], rfl⟩
    · apply concatM_total
      rintro ⟨O', σ⟩ hmem
      have hq : Q (σ.apply c1 c2 c3).1 ∧ Q (σ.apply c1 c2 c3).2.1 ∧ Q (σ.apply c1 c2 c3).2.2 := by
        cases σ <;> simp [Perm3.apply, q1, q2, q3]
      have hnn : (σ.apply c1 c2 c3).1.nodes + (σ.apply c1 c2 c3).2.1.nodes + (σ.apply c1 c2 c3).2.2.nodes ≤ n + 1 := by
        cases σ <;> simp only [Perm3.apply] <;> omega
      simp only
      generalize σ.apply c1 c2 c3 = t at hq hnn ⊢
      obtain ⟨a1, a2, a3⟩ := t
      simp only at hq hnn ⊢
      cases hact : B.act O' a1 a2 a3 with
      | drop => exact ⟨[], rfl⟩
      | direct e => exact ⟨[e], rfl⟩
      | split f1 f2 f3 =>
        have hs := hx.split O' a1 a2 a3 f1 f2 f3 hq.1 hq.2.1 hq.2.2 hact
        obtain ⟨ts, hts⟩ := Option.isSome_iff_exists.1 hs
        obtain ⟨_, hmem'⟩ := splitCells_spec hQ O' hq.1 hq.2.1 hq.2.2 hts
        obtain ⟨es, hes⟩ : ∃ es, concatM (fun s : Cell P × Cell P × Cell P => process111N B M n O' s.1 s.2.1 s.2.2) ts =
            some es := by
          apply concatM_total
          rintro ⟨b1, b2, b3⟩ hb
          have hh := hmem' _ hb
          have h0 := b1.nodes_pos
          simp only at hh
          exact ih O' b1 b2 b3 hh.1.1 hh.1.2.1 hh.1.2.2 (by omega) (by omega)
        exact ⟨es, by simp [hts, hes]⟩

theorem process111_ex (hx : Exact3 B M minsep Q G inBin Z E) (hQ : Hered Q) (O : Ord3) (c1 c2 c3 : Cell P)
    (q1 : Q c1) (q2 : Q c2) (q3 : Q c3) (hG : ∀ q ∈ cells111 O (c1, c2, c3), G O q) :
    ∃ es, process111 B M O c1 c2 c3 = some es ∧ Ex3 inBin Z E (cells111 O (c1, c2, c3)) es := by
  obtain ⟨es, hes⟩ := process111N_total hx hQ (c1.nodes + c2.nodes + c3.nodes) O c1 c2 c3 q1 q2 q3 le_rfl
    (by have := c1.nodes_pos; omega)
  exact ⟨es, hes, process111N_ex hx hQ _ O c1 c2 c3 q1 q2 q3 hG hes⟩

theorem mem_autoPairs_list {α : Type} {l : List α} {q : α × α} (h : q ∈ autoPairs l) : q.1 ∈ l ∧ q.2 ∈ l := by
  induction l with
  | nil => simp [autoPairs] at h
  | cons x xs ih =>
    rw [autoPairs, Multiset.mem_add] at h
    rcases h with h | h
    · simp only [Multiset.mem_coe, List.mem_map] at h
      obtain ⟨y, hy, rfl⟩ := h
      simp [hy]
    · simp [ih h]

theorem mem_from12 {α : Type} {O : Ord3} {l1 l2 : List α} {q : α × α × α} (h : q ∈ from12 O l1 l2) :
    ∃ a ∈ l1, ∃ b ∈ l2, ∃ c ∈ l2, q ∈ O.orders (a, b, c) := by
  simp only [from12, Multiset.mem_bind, Multiset.mem_coe] at h
  obtain ⟨a, ha, p, hp, hq⟩ := h
  have := mem_autoPairs_list hp
  exact ⟨a, ha, p.1, this.1, p.2, this.2, hq⟩

/-- `process12` covers the triples with one row in the first cell and two in the second. -/
theorem process12_ex (hx : Exact3 B M minsep Q G inBin Z E) (hQ : Hered Q) (O : Ord3) (hO : O ≠ .fixed) (c2 : Cell P) :
    ∀ c1 : Cell P, Q c1 → Q c2 → (∀ q ∈ from12 O c1.objs c2.objs, G O q) →
    ∃ es, process12 B M O c1 c2 = some es ∧ Ex3 inBin Z E (from12 O c1.objs c2.objs) es := by
  have hskip : ∀ c1 c2 : Cell P, Q c1 → Q c2 → (∀ q ∈ from12 O c1.objs c2.objs, G O q) → skip12 B M O c1 c2 →
      Ex3 inBin Z E (from12 O c1.objs c2.objs) [] := by
    intro c1 c2 q1 q2 hG hs
    apply Ex3.nil
    intro q hq k hk
    obtain ⟨a, ha, b, hb, c, hc, hq'⟩ := mem_from12 hq
    obtain ⟨ma, mb, mc⟩ := mem_orders_comp hq'
    by_cases h1 : c1.w = 0
    · exact hx.zero c1 q1 h1 a ha q ma
    by_cases h2 : c2.w = 0
    · exact hx.zero c2 q2 h2 b hb q mb
    exact hx.skip12 O c1 c2 hO q1 q2 h1 h2 hs a ha b hb c hc q hq' (hG q hq) k hk
  induction c2 with
  | leaf d os =>
    intro c1 q1 q2 hG
    rw [process12]
    by_cases hs : skip12 B M O c1 (.leaf d os)
    · rw [if_pos hs]
      exact ⟨[], rfl, hskip _ _ q1 q2 hG hs⟩
    · have := hx.leaf12 O c1 _ q1 q2 hs
      simp [Cell.size] at this
  | node d s l r ihl ihr =>
    intro c1 q1 q2 hG
    obtain ⟨ql, qr⟩ := hQ _ _ _ _ q2
    rw [process12.eq_def]
    simp only
    by_cases hs : skip12 B M O c1 (.node d s l r)
    · rw [if_pos hs]
      exact ⟨[], rfl, hskip _ _ q1 q2 hG hs⟩
    rw [if_neg hs]
    have hsz : 0 < s := hx.leaf12 O c1 _ q1 q2 hs
    by_cases hlt : s < c1.size
    · rw [if_pos hlt]
      cases c1 with
      | leaf d1 os1 => simp [Cell.size] at hlt; linarith
      | node d1 s1 l1 r1 =>
        obtain ⟨ql1, qr1⟩ := hQ _ _ _ _ q1
        have hsum : from12 O (Cell.node d1 s1 l1 r1).objs (Cell.node d s l r).objs =
            from12 O l1.objs l.objs + from12 O l1.objs r.objs + from12 O r1.objs l.objs + from12 O r1.objs r.objs +
            cells111 O (l1, l, r) + cells111 O (r1, l, r) := by
          simp only [Cell.objs, from12_append1, from12_append2, from111_append1, cells111]
          abel
        rw [hsum] at hG ⊢
        simp only [Multiset.mem_add, or_imp, forall_and] at hG
        obtain ⟨⟨⟨⟨⟨g1, g2⟩, g3⟩, g4⟩, g5⟩, g6⟩ := hG
        obtain ⟨x1, h1, e1⟩ := ihl l1 ql1 ql g1
        obtain ⟨x2, h2, e2⟩ := ihr l1 ql1 qr g2
        obtain ⟨x3, h3, e3⟩ := ihl r1 qr1 ql g3
        obtain ⟨x4, h4, e4⟩ := ihr r1 qr1 qr g4
        obtain ⟨x5, h5, e5⟩ := process111_ex hx hQ O l1 l r ql1 ql qr g5
        obtain ⟨x6, h6, e6⟩ := process111_ex hx hQ O r1 l r qr1 ql qr g6
        exact ⟨_, by simp [h1, h2, h3, h4, h5, h6], ((((e1.add e2).add e3).add e4).add e5).add e6⟩
    · rw [if_neg hlt]
      have hsum : from12 O c1.objs (Cell.node d s l r).objs =
          from12 O c1.objs l.objs + from12 O c1.objs r.objs + cells111 O (c1, l, r) := by
        simp only [Cell.objs, from12_append2, cells111]
      rw [hsum] at hG ⊢
      simp only [Multiset.mem_add, or_imp, forall_and] at hG
      obtain ⟨⟨g1, g2⟩, g3⟩ := hG
      obtain ⟨x1, h1, e1⟩ := ihl c1 q1 ql g1
      obtain ⟨x2, h2, e2⟩ := ihr c1 q1 qr g2
      obtain ⟨x3, h3, e3⟩ := process111_ex hx hQ O c1 l r q1 ql qr g3
      exact ⟨_, by simp [h1, h2, h3], (e1.add e2).add e3⟩

theorem mem_autoTriples {α : Type} {l : List α} {q : α × α × α} (h : q ∈ autoTriples l) : q.1 ∈ l ∧ q.2.1 ∈ l ∧ q.2.2 ∈ l := by
  induction l with
  | nil => simp [autoTriples] at h
  | cons x xs ih =>
    rw [autoTriples, Multiset.mem_add] at h
    rcases h with h | h
    · simp only [Multiset.mem_map] at h
      obtain ⟨y, hy, rfl⟩ := h
      have := mem_autoPairs_list hy
      simp [this]
    · simp [ih h]

theorem mem_orderedTriples {α : Type} {l : List α} {q : α × α × α} (h : q ∈ orderedTriples l) :
    q.1 ∈ l ∧ q.2.1 ∈ l ∧ q.2.2 ∈ l := by
  simp only [orderedTriples, Multiset.mem_bind] at h
  obtain ⟨⟨a, b, c⟩, hp, hq⟩ := h
  have := mem_autoTriples hp
  simp only [orders6, Multiset.mem_add, Multiset.mem_singleton] at hq
  rcases hq with ((((rfl | rfl) | rfl) | rfl) | rfl) | rfl <;> simp [this]

/-- `process3` covers the triples of rows of one cell. -/
theorem process3_ex (hx : Exact3 B M minsep Q G inBin Z E) (hQ : Hered Q) (hm : 0 < minsep) (c : Cell P) (qc : Q c)
    (hG : ∀ q ∈ orderedTriples c.objs, G .any q) :
    ∃ es, process3 B M minsep c = some es ∧ Ex3 inBin Z E (orderedTriples c.objs) es := by
  have hzero : ∀ c : Cell P, Q c → c.w = 0 → Ex3 inBin Z E (orderedTriples c.objs) [] := by
    intro c qc hw
    apply Ex3.nil
    intro q hq k _
    exact hx.zero c qc hw q.1 (mem_orderedTriples hq).1 q (Or.inl rfl)
  have hsmall : ∀ c : Cell P, Q c → c.size < 0.5 * minsep → Ex3 inBin Z E (orderedTriples c.objs) [] := by
    intro c qc hs
    apply Ex3.nil
    intro q hq k hk
    have := mem_orderedTriples hq
    exact hx.small3 c qc hs q.1 this.1 q.2.1 this.2.1 q.2.2 this.2.2 k hk
  induction c with
  | leaf d os =>
    rw [process3]
    by_cases hw : d.w = 0
    · rw [if_pos hw]
      exact ⟨[], rfl, hzero _ qc hw⟩
    · have hpos : (0 : ℝ) < 0.5 * minsep := by positivity
      rw [if_neg hw, if_pos hpos]
      exact ⟨[], rfl, hsmall _ qc hpos⟩
  | node d s l r ihl ihr =>
    obtain ⟨ql, qr⟩ := hQ _ _ _ _ qc
    rw [process3]
    by_cases hw : d.w = 0
    · rw [if_pos hw]
      exact ⟨[], rfl, hzero _ qc hw⟩
    rw [if_neg hw]
    by_cases hs : s < 0.5 * minsep
    · rw [if_pos hs]
      exact ⟨[], rfl, hsmall _ qc hs⟩
    rw [if_neg hs]
    have hsum : orderedTriples (Cell.node d s l r).objs = orderedTriples l.objs + orderedTriples r.objs +
        from12 .any l.objs r.objs + from12 .any r.objs l.objs := by
      simp only [Cell.objs]
      exact autoTriples_append_bind _ _
    rw [hsum] at hG ⊢
    simp only [Multiset.mem_add, or_imp, forall_and] at hG
    obtain ⟨⟨⟨g1, g2⟩, g3⟩, g4⟩ := hG
    obtain ⟨x1, h1, e1⟩ := ihl ql g1
    obtain ⟨x2, h2, e2⟩ := ihr qr g2
    obtain ⟨x3, h3, e3⟩ := process12_ex hx hQ .any (by simp) r l ql qr g3
    obtain ⟨x4, h4, e4⟩ := process12_ex hx hQ .any (by simp) l r qr ql g4
    exact ⟨_, by simp [h1, h2, h3, h4], ((e1.add e2).add e3).add e4⟩

theorem loop111_ex (hx : Exact3 B M minsep Q G inBin Z E) (hQ : Hered Q) (O : Ord3) (c1 c2 : Cell P) (q1 : Q c1) (q2 : Q c2)
    (cs : List (Cell P)) (hcs : ∀ c ∈ cs, Q c) (hG : ∀ q ∈ from111 O c1.objs c2.objs (objsOf cs), G O q) :
    ∃ es, loop111 B M O c1 c2 cs = some es ∧ Ex3 inBin Z E (from111 O c1.objs c2.objs (objsOf cs)) es := by
  induction cs with
  | nil => exact ⟨[], rfl, by simpa [from111, objsOf] using Ex3.zero⟩
  | cons c cs ih =>
    have hsum : from111 O c1.objs c2.objs (objsOf (c :: cs)) = cells111 O (c1, c2, c) +
        from111 O c1.objs c2.objs (objsOf cs) := by
      simp only [objsOf, List.flatMap_cons, from111_append3, cells111]
    rw [hsum] at hG ⊢
    simp only [Multiset.mem_add, or_imp, forall_and] at hG
    obtain ⟨x1, h1, e1⟩ := process111_ex hx hQ O c1 c2 c q1 q2 (hcs c (by simp)) hG.1
    obtain ⟨x2, h2, e2⟩ := ih (fun c hc => hcs c (by simp [hc])) hG.2
    unfold loop111 at h2
    exact ⟨_, by simp [loop111, concatM, h1, h2], e1.add e2⟩

theorem autoLoop2_ex (hx : Exact3 B M minsep Q G inBin Z E) (hQ : Hered Q) (c1 : Cell P) (q1 : Q c1) (cs : List (Cell P))
    (hcs : ∀ c ∈ cs, Q c) (hG : ∀ q ∈ from12 .any c1.objs (objsOf cs) + from12 .any (objsOf cs) c1.objs, G .any q) :
    ∃ es, autoLoop2 B M c1 cs = some es ∧
      Ex3 inBin Z E (from12 .any c1.objs (objsOf cs) + from12 .any (objsOf cs) c1.objs) es := by
  induction cs with
  | nil => exact ⟨[], rfl, by simpa [from12, objsOf, autoPairs] using Ex3.zero⟩
  | cons c cs ih =>
    have hsum : from12 .any c1.objs (objsOf (c :: cs)) + from12 .any (objsOf (c :: cs)) c1.objs =
        from12 .any c1.objs c.objs + from12 .any c.objs c1.objs + from111 .any c1.objs c.objs (objsOf cs) +
        (from12 .any c1.objs (objsOf cs) + from12 .any (objsOf cs) c1.objs) := by
      simp only [objsOf, List.flatMap_cons, from12_append1, from12_append2]
      abel
    rw [hsum] at hG ⊢
    have g1 := fun q hq => hG q (Multiset.mem_add.2 (Or.inl (Multiset.mem_add.2 (Or.inl (Multiset.mem_add.2 (Or.inl hq))))))
    have g2 := fun q hq => hG q (Multiset.mem_add.2 (Or.inl (Multiset.mem_add.2 (Or.inl (Multiset.mem_add.2 (Or.inr hq))))))
    have g3 := fun q hq => hG q (Multiset.mem_add.2 (Or.inl (Multiset.mem_add.2 (Or.inr hq))))
    have g4 := fun q hq => hG q (Multiset.mem_add.2 (Or.inr hq))
    have qc := hcs c (by simp)
    obtain ⟨x1, h1, e1⟩ := process12_ex hx hQ .any (by simp) c c1 q1 qc g1
    obtain ⟨x2, h2, e2⟩ := process12_ex hx hQ .any (by simp) c1 c qc q1 g2
    obtain ⟨x3, h3, e3⟩ := loop111_ex hx hQ .any c1 c q1 qc cs (fun c hc => hcs c (by simp [hc])) g3
    obtain ⟨x4, h4, e4⟩ := ih (fun c hc => hcs c (by simp [hc])) g4
    exact ⟨_, by simp [autoLoop2, h1, h2, h3, h4], ((e1.add e2).add e3).add e4⟩

/-- The auto-correlation covers the ordered triples of distinct rows. -/
theorem processAuto3_ex (hx : Exact3 B M minsep Q G inBin Z E) (hQ : Hered Q) (hm : 0 < minsep) (cs : List (Cell P))
    (hcs : ∀ c ∈ cs, Q c) (hG : ∀ q ∈ orderedTriples (objsOf cs), G .any q) :
    ∃ es, processAuto3 B M minsep cs = some es ∧ Ex3 inBin Z E (orderedTriples (objsOf cs)) es := by
  induction cs with
  | nil => exact ⟨[], rfl, by simpa [orderedTriples, objsOf, autoTriples] using Ex3.zero⟩
  | cons c cs ih =>
    have hsum : orderedTriples (objsOf (c :: cs)) = orderedTriples c.objs +
        (from12 .any c.objs (objsOf cs) + from12 .any (objsOf cs) c.objs) + orderedTriples (objsOf cs) := by
      simp only [objsOf, List.flatMap_cons]
      rw [autoTriples_append_bind]
      abel
    rw [hsum] at hG ⊢
    have g1 := fun q hq => hG q (Multiset.mem_add.2 (Or.inl (Multiset.mem_add.2 (Or.inl hq))))
    have g2 := fun q hq => hG q (Multiset.mem_add.2 (Or.inl (Multiset.mem_add.2 (Or.inr hq))))
    have g3 := fun q hq => hG q (Multiset.mem_add.2 (Or.inr hq))
    have qc := hcs c (by simp)
    obtain ⟨x1, h1, e1⟩ := process3_ex hx hQ hm c qc g1
    obtain ⟨x2, h2, e2⟩ := autoLoop2_ex hx hQ c qc cs (fun c hc => hcs c (by simp [hc])) g2
    obtain ⟨x3, h3, e3⟩ := ih (fun c hc => hcs c (by simp [hc])) g3
    exact ⟨_, by simp [processAuto3, h1, h2, h3], (e1.add e2).add e3⟩

theorem cross12Loop2_ex (hx : Exact3 B M minsep Q G inBin Z E) (hQ : Hered Q) (O : Ord3) (hO : O ≠ .fixed) (c1 : Cell P)
    (q1 : Q c1) (cs : List (Cell P)) (hcs : ∀ c ∈ cs, Q c) (hG : ∀ q ∈ from12 O c1.objs (objsOf cs), G O q) :
    ∃ es, cross12Loop2 B M O c1 cs = some es ∧ Ex3 inBin Z E (from12 O c1.objs (objsOf cs)) es := by
  induction cs with
  | nil => exact ⟨[], rfl, by simpa [from12, objsOf, autoPairs] using Ex3.zero⟩
  | cons c cs ih =>
    have hsum : from12 O c1.objs (objsOf (c :: cs)) =
        from12 O c1.objs c.objs + from111 O c1.objs c.objs (objsOf cs) + from12 O c1.objs (objsOf cs) := by
      simp only [objsOf, List.flatMap_cons, from12_append2]
      abel
    rw [hsum] at hG ⊢
    have g1 := fun q hq => hG q (Multiset.mem_add.2 (Or.inl (Multiset.mem_add.2 (Or.inl hq))))
    have g2 := fun q hq => hG q (Multiset.mem_add.2 (Or.inl (Multiset.mem_add.2 (Or.inr hq))))
    have g3 := fun q hq => hG q (Multiset.mem_add.2 (Or.inr hq))
    have qc := hcs c (by simp)
    obtain ⟨x1, h1, e1⟩ := process12_ex hx hQ O hO c c1 q1 qc g1
    obtain ⟨x2, h2, e2⟩ := loop111_ex hx hQ O c1 c q1 qc cs (fun c hc => hcs c (by simp [hc])) g2
    obtain ⟨x3, h3, e3⟩ := ih (fun c hc => hcs c (by simp [hc])) g3
    exact ⟨_, by simp [cross12Loop2, h1, h2, h3], (e1.add e2).add e3⟩

theorem processCross12_ex (hx : Exact3 B M minsep Q G inBin Z E) (hQ : Hered Q) (O : Ord3) (hO : O ≠ .fixed)
    (cs1 cs2 : List (Cell P)) (h1 : ∀ c ∈ cs1, Q c) (h2 : ∀ c ∈ cs2, Q c)
    (hG : ∀ q ∈ from12 O (objsOf cs1) (objsOf cs2), G O q) :
    ∃ es, processCross12 B M O cs1 cs2 = some es ∧ Ex3 inBin Z E (from12 O (objsOf cs1) (objsOf cs2)) es := by
  induction cs1 with
  | nil => exact ⟨[], rfl, by simpa [from12, objsOf] using Ex3.zero⟩
  | cons c cs ih =>
    have hsum : from12 O (objsOf (c :: cs)) (objsOf cs2) = from12 O c.objs (objsOf cs2) +
        from12 O (objsOf cs) (objsOf cs2) := by
      have : objsOf (c :: cs) = c.objs ++ objsOf cs := by simp [objsOf]
      rw [this, from12_append1]
    rw [hsum] at hG ⊢
    simp only [Multiset.mem_add, or_imp, forall_and] at hG
    obtain ⟨x1, e1, f1⟩ := cross12Loop2_ex hx hQ O hO c (h1 c (by simp)) cs2 h2 hG.1
    obtain ⟨x2, e2, f2⟩ := ih (fun c hc => h1 c (by simp [hc])) hG.2
    unfold processCross12 at e2
    exact ⟨_, by simp [processCross12, concatM, e1, e2], f1.add f2⟩

theorem processCross123_ex (hx : Exact3 B M minsep Q G inBin Z E) (hQ : Hered Q) (O : Ord3)
    (cs1 cs2 cs3 : List (Cell P)) (h1 : ∀ c ∈ cs1, Q c) (h2 : ∀ c ∈ cs2, Q c) (h3 : ∀ c ∈ cs3, Q c)
    (hG : ∀ q ∈ from111 O (objsOf cs1) (objsOf cs2) (objsOf cs3), G O q) :
    ∃ es, processCross123 B M O cs1 cs2 cs3 = some es ∧
      Ex3 inBin Z E (from111 O (objsOf cs1) (objsOf cs2) (objsOf cs3)) es := by
  have inner : ∀ c1, Q c1 → ∀ cs2 : List (Cell P), (∀ c ∈ cs2, Q c) →
      (∀ q ∈ from111 O c1.objs (objsOf cs2) (objsOf cs3), G O q) →
      ∃ es, concatM (fun c2 => loop111 B M O c1 c2 cs3) cs2 = some es ∧
        Ex3 inBin Z E (from111 O c1.objs (objsOf cs2) (objsOf cs3)) es := by
    intro c1 q1 cs2 h2 hG
    induction cs2 with
    | nil => exact ⟨[], rfl, by simpa [from111, objsOf] using Ex3.zero⟩
    | cons c cs ih =>
      have hsum : from111 O c1.objs (objsOf (c :: cs)) (objsOf cs3) = from111 O c1.objs c.objs (objsOf cs3) +
          from111 O c1.objs (objsOf cs) (objsOf cs3) := by
        have : objsOf (c :: cs) = c.objs ++ objsOf cs := by simp [objsOf]
        rw [this, from111_append2]
      rw [hsum] at hG ⊢
      simp only [Multiset.mem_add, or_imp, forall_and] at hG
      obtain ⟨x1, e1, f1⟩ := loop111_ex hx hQ O c1 c q1 (h2 c (by simp)) cs3 h3 hG.1
      obtain ⟨x2, e2, f2⟩ := ih (fun c hc => h2 c (by simp [hc])) hG.2
      exact ⟨_, by simp [concatM, e1, e2], f1.add f2⟩
  induction cs1 with
  | nil => exact ⟨[], rfl, by simpa [from111, objsOf] using Ex3.zero⟩
  | cons c cs ih =>
    have hsum : from111 O (objsOf (c :: cs)) (objsOf cs2) (objsOf cs3) = from111 O c.objs (objsOf cs2) (objsOf cs3) +
        from111 O (objsOf cs) (objsOf cs2) (objsOf cs3) := by
      have : objsOf (c :: cs) = c.objs ++ objsOf cs := by simp [objsOf]
      rw [this, from111_append1]
    rw [hsum] at hG ⊢
    simp only [Multiset.mem_add, or_imp, forall_and] at hG
    obtain ⟨x1, e1, f1⟩ := inner c (h1 c (by simp)) cs2 h2 hG.1
    obtain ⟨x2, e2, f2⟩ := ih (fun c hc => h1 c (by simp [hc])) hG.2
    unfold processCross123 at e2
    exact ⟨_, by simp [processCross123, concatM, e1, e2], f1.add f2⟩

end TreeCorr
