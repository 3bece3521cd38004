import Verif.Proofs.Sums3
import Verif.Proofs.MpTotals

/-! The triples of rows that the runs of the multipole algorithm add up to. -/

namespace TreeCorr
open Classical

theorem crossTriples_bind {α : Type} (a b c : List α) : crossTriples a b c =
    (a : Multiset α).bind fun x => (b : Multiset α).bind fun y => (c : Multiset α).bind fun z => {(x, y, z)} := by
  rw [crossTriples_eq]; rfl

/-- All six orders, catalogue by catalogue. -/
theorem mixed3_eq {α : Type} (l1 l2 l3 : List α) : mixed3Triples l1 l2 l3 =
    crossTriples l2 l1 l3 + crossTriples l2 l3 l1 + (crossTriples l3 l1 l2 + crossTriples l3 l2 l1 +
      (crossTriples l1 l2 l3 + crossTriples l1 l3 l2)) := by
  rw [← from111_any_eq]
  unfold from111
  simp only [Ord3.orders, orders6, Multiset.bind_add]
  have e1 : crossTriples l1 l3 l2 = (l1 : Multiset α).bind fun x => (l2 : Multiset α).bind fun y => (l3 : Multiset α).bind fun z =>
      {(x, z, y)} := by
    rw [crossTriples_bind]
    congr 1; funext x
    exact Multiset.bind_bind _ _
  have e2 : crossTriples l2 l1 l3 = (l1 : Multiset α).bind fun x => (l2 : Multiset α).bind fun y => (l3 : Multiset α).bind fun z =>
      {(y, x, z)} := by
    rw [crossTriples_bind]
    exact Multiset.bind_bind _ _
  have e3 : crossTriples l2 l3 l1 = (l1 : Multiset α).bind fun x => (l2 : Multiset α).bind fun y => (l3 : Multiset α).bind fun z =>
      {(y, z, x)} := by
    rw [crossTriples_bind]
    rw [Multiset.bind_bind (l1 : Multiset α)]
    congr 1; funext y
    exact Multiset.bind_bind _ _
  have e4 : crossTriples l3 l1 l2 = (l1 : Multiset α).bind fun x => (l2 : Multiset α).bind fun y => (l3 : Multiset α).bind fun z =>
      {(z, x, y)} := by
    rw [crossTriples_bind, Multiset.bind_bind]
    congr 1; funext x
    exact Multiset.bind_bind _ _
  have e5 : crossTriples l3 l2 l1 = (l1 : Multiset α).bind fun x => (l2 : Multiset α).bind fun y => (l3 : Multiset α).bind fun z =>
      {(z, y, x)} := by
    rw [crossTriples_bind, Multiset.bind_bind, Multiset.bind_bind (l1 : Multiset α)]
    congr 1; funext y
    exact Multiset.bind_bind _ _
  rw [e1, e2, e3, e4, e5, crossTriples_bind l1 l2 l3]
  abel

theorem self_product {α : Type} (l : List α) :
    (l : Multiset α) ×ˢ (l : Multiset α) = orderedPairs l + (l : Multiset α).map fun o => (o, o) := by
  unfold orderedPairs
  induction l with
  | nil => rfl
  | cons x l ih =>
    rw [autoPairs_cons, ← Multiset.cons_coe, Multiset.cons_product, Multiset.product_cons, Multiset.map_cons, Multiset.map_cons, ih,
      Multiset.map_add]
    simp only [Multiset.map_coe, List.map_map]
    have : (l.map (Prod.swap ∘ fun y => (x, y))) = l.map fun a => (a, x) := rfl
    rw [this, ← Multiset.singleton_add, ← Multiset.singleton_add]
    have e2 : (l.map (Prod.mk x)) = l.map fun y => (x, y) := rfl
    rw [e2]
    abel

theorem product_filter_zero {α β γ : Type} (m : Multiset α) (n : Multiset β) (f : α → β → γ) (A : γ → Prop)
    (h : ∀ x ∈ m, ∀ y ∈ n, ¬ A (f x y)) : ((m.bind fun x => n.bind fun y => {f x y}).filter A) = 0 := by
  rw [Multiset.filter_eq_nil]
  intro t ht
  simp only [Multiset.mem_bind, Multiset.mem_singleton] at ht
  obtain ⟨x, hx, y, hy, rfl⟩ := ht
  exact h x hx y hy

/-- One row from the first catalogue and two distinct ones from the second, in all orders, as three runs have it. -/
theorem mixed_filter {α : Type} (l1 l2 : List α) (A : α × α × α → Prop) (h1 : ∀ q, A q → q.1 ≠ q.2.1) (h2 : ∀ q, A q → q.1 ≠ q.2.2) :
    (crossTriples l2 l1 l2 + crossTriples l2 l2 l1 + cross12Triples l1 l2).filter A = (mixedTriples l1 l2).filter A := by
  have s : ∀ (f : α → α × α → α × α × α) , ((l1 : Multiset α).bind fun x => (l2 : Multiset α).bind fun y => (l2 : Multiset α).bind fun z =>
      {f x (y, z)}) = ((l1 : Multiset α).bind fun x => (orderedPairs l2).bind fun q => {f x q}) +
        ((l1 : Multiset α).bind fun x => (l2 : Multiset α).bind fun y => {f x (y, y)}) := by
    intro f
    rw [← Multiset.bind_add]
    congr 1; funext x
    have e : ((l2 : Multiset α).bind fun y => (l2 : Multiset α).bind fun z => {f x (y, z)}) =
        ((l2 : Multiset α) ×ˢ (l2 : Multiset α)).bind fun q => {f x q} := by
      show _ = Multiset.bind (Multiset.bind (l2 : Multiset α) fun a => (l2 : Multiset α).map (Prod.mk a)) _
      rw [Multiset.bind_assoc]
      congr 1; funext y
      rw [Multiset.bind_map]
    rw [e, self_product, Multiset.add_bind, Multiset.bind_map]
  have e1 : crossTriples l2 l1 l2 = (l1 : Multiset α).bind fun x => (l2 : Multiset α).bind fun y => (l2 : Multiset α).bind fun z =>
      {(y, x, z)} := by
    rw [crossTriples_bind]
    exact Multiset.bind_bind _ _
  have e2 : crossTriples l2 l2 l1 = (l1 : Multiset α).bind fun x => (l2 : Multiset α).bind fun y => (l2 : Multiset α).bind fun z =>
      {(y, z, x)} := by
    rw [crossTriples_bind, Multiset.bind_bind (l1 : Multiset α)]
    congr 1; funext y
    exact Multiset.bind_bind _ _
  have z1 := product_filter_zero (l1 : Multiset α) (l2 : Multiset α) (fun x y => (y, x, y)) A
    (fun x _ y _ h => h2 _ h rfl)
  have z2 := product_filter_zero (l1 : Multiset α) (l2 : Multiset α) (fun x y => (y, y, x)) A
    (fun x _ y _ h => h1 _ h rfl)
  rw [e1, e2, s (fun x q => (q.1, x, q.2)), s (fun x q => (q.1, q.2, x))]
  simp only [Multiset.filter_add]
  rw [z1, z2, add_zero, add_zero, ← Multiset.filter_add, ← Multiset.filter_add, ← from12_any_eq, ← from12_first_eq]
  congr 1
  unfold from12 orderedPairs
  simp only [Ord3.orders, orders6, orders2, Multiset.add_bind, Multiset.bind_map, Multiset.bind_add, Prod.fst_swap, Prod.snd_swap]
  abel

theorem orderedTriples_cons {α : Type} (x : α) (l : List α) : orderedTriples (x :: l) = mixedTriples [x] l + orderedTriples l := by
  unfold orderedTriples mixedTriples
  show ((autoPairs l).map (fun q => (x, q)) + autoTriples l).bind orders6 = _
  rw [Multiset.add_bind]
  congr 2
  show _ = Multiset.bind (([x] : List α) : Multiset α) fun a => (autoPairs l).map (Prod.mk a)
  simp

theorem orderedPairs_cons {α : Type} (x : α) (l : List α) : orderedPairs (x :: l) =
    ([x] : List α) ×ˢ (l : Multiset α) + (l : Multiset α) ×ˢ ([x] : List α) + orderedPairs l := by
  unfold orderedPairs
  rw [autoPairs_cons, Multiset.map_add]
  have e1 : (([x] : List α) : Multiset α) ×ˢ (l : Multiset α) = ((l.map fun y => (x, y) : List (α × α)) : Multiset (α × α)) := by
    show Multiset.bind (([x] : List α) : Multiset α) (fun a => (l : Multiset α).map (Prod.mk a)) = _
    simp
  have e2 : (l : Multiset α) ×ˢ (([x] : List α) : Multiset α) = ((l.map fun y => (x, y) : List (α × α)) : Multiset (α × α)).map Prod.swap := by
    show Multiset.bind (l : Multiset α) (fun a => (([x] : List α) : Multiset α).map (Prod.mk a)) = _
    simp only [Multiset.coe_singleton, Multiset.map_singleton, Multiset.bind_singleton, Multiset.map_coe, List.map_map]
    rfl
  rw [e1, e2]
  abel

/-- The ordered triples of distinct rows, first member by first member. -/
theorem ordered_filter {α : Type} (l : List α) (A : α × α × α → Prop) (h1 : ∀ q, A q → q.1 ≠ q.2.1) (h2 : ∀ q, A q → q.1 ≠ q.2.2) :
    (cross12Triples l l).filter A = (orderedTriples l).filter A := by
  induction l with
  | nil => rfl
  | cons x l ih =>
    rw [orderedTriples_cons, Multiset.filter_add, ← ih, ← mixed_filter [x] l A h1 h2]
    unfold cross12Triples crossTriples
    have e : ((x :: l : List α) : Multiset α) = (([x] : List α) : Multiset α) + (l : Multiset α) := rfl
    rw [orderedPairs_cons, e, Multiset.add_product]
    simp only [Multiset.product_add, Multiset.filter_add]
    have z1 : ((([x] : List α) : Multiset α) ×ˢ ((([x] : List α) : Multiset α) ×ˢ (l : Multiset α))).filter A = 0 := by
      rw [Multiset.filter_eq_nil]
      rintro ⟨a, b, c⟩ h hA
      simp only [Multiset.mem_product, Multiset.mem_coe, List.mem_singleton] at h
      exact h1 _ hA (by rw [h.1, h.2.1])
    have z2 : ((([x] : List α) : Multiset α) ×ˢ ((l : Multiset α) ×ˢ (([x] : List α) : Multiset α))).filter A = 0 := by
      rw [Multiset.filter_eq_nil]
      rintro ⟨a, b, c⟩ h hA
      simp only [Multiset.mem_product, Multiset.mem_coe, List.mem_singleton] at h
      exact h2 _ hA (by rw [h.1, h.2.2])
    rw [z1, z2]
    abel

variable {P : Type} [PseudoMetricSpace P]

theorem InSides.ne {p : Params} (hp : LogParams p) {k2 k3 : ℤ} {q : Obj P × Obj P × Obj P} (h : InSides p k2 k3 q) :
    dist q.1.pos q.2.1.pos ≠ 0 ∧ dist q.1.pos q.2.2.pos ≠ 0 :=
  ⟨(h.2.pos hp.minsep).ne', (h.1.pos hp.minsep).ne'⟩

theorem InSides.ne1 {p : Params} (hp : LogParams p) {k2 k3 : ℤ} (q : Obj P × Obj P × Obj P) (h : InSides p k2 k3 q) :
    q.1 ≠ q.2.1 := fun e => (h.ne hp).1 (by rw [e, dist_self])

theorem InSides.ne2 {p : Params} (hp : LogParams p) {k2 k3 : ℤ} (q : Obj P × Obj P × Obj P) (h : InSides p k2 k3 q) :
    q.1 ≠ q.2.2 := fun e => (h.ne hp).2 (by rw [e, dist_self])

end TreeCorr
