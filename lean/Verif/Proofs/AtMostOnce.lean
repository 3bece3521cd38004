import Verif.Proofs.Exact
import Mathlib.Data.Sym.Sym2
import Mathlib.Data.Nat.Choose.Basic

/-! Counting at most once. -/

namespace TreeCorr
open Classical
variable {P : Type}

theorem autoPairs_sym_perm {α : Type} {a b : List α} (h : a.Perm b) :
    (autoPairs a).map (fun q => s(q.1, q.2)) = (autoPairs b).map (fun q => s(q.1, q.2)) := by
  induction h with
  | nil => rfl
  | cons x h ih =>
    simp only [autoPairs, Multiset.map_add, ih]
    congr 1
    simp only [Multiset.map_coe, List.map_map, Multiset.coe_eq_coe]
    exact h.map _
  | swap x y l =>
    simp only [autoPairs, Multiset.map_add, List.map_cons, Multiset.map_coe, List.map_map]
    have : s(x, y) = s(y, x) := Sym2.eq_swap
    rw [this, ← Multiset.cons_coe, ← Multiset.cons_coe, Multiset.cons_add, Multiset.cons_add]
    congr 1
    abel
  | trans h1 h2 ih1 ih2 => rw [ih1, ih2]

theorem card_autoPairs {α : Type} (l : List α) : Multiset.card (autoPairs l) = l.length.choose 2 := by
  induction l with
  | nil => rfl
  | cons x xs ih =>
    simp only [autoPairs, Multiset.card_add, Multiset.coe_card, List.length_map, ih, List.length_cons]
    rw [Nat.choose_succ_succ' xs.length 1, Nat.choose_one_right]

theorem card_crossPairs {α β : Type} (xs : List α) (ys : List β) :
    Multiset.card (crossPairs xs ys) = xs.length * ys.length := by
  rw [crossPairs, Multiset.card_product, Multiset.coe_card, Multiset.coe_card]

/-- What is needed of trees: they hold the rows `l` with the right sums. -/
structure Holds (cells : List (Cell P)) (l : List (Obj P)) : Prop where
  perm : (objsOf cells).Perm l
  sums : ∀ c ∈ cells, c.SumsOK

theorem crossLoop_counted {B : BinHelper P} {M : MetricHelper P} {prm : Params} {R : Bool}
    {cs1 cs2 : List (Cell P)} {l1 l2 : List (Obj P)} (h1 : Holds cs1 l1) (h2 : Holds cs2 l2)
    {es : List (Emit P)} (h : processCrossLoop (decide11 B M prm R) cs1 cs2 = some es) :
    pairsOf es ≤ crossPairs l1 l2 ∧ ∀ e ∈ es, e.c1.SumsOK ∧ e.c2.SumsOK := by
  have hc := crossLoop_covers (decide11 B M prm R) (decide11_honest _ _ _ _) Cell.SumsOK Cell.SumsOK
    hered_sumsOK hered_sumsOK cs1 cs2 h1.sums h2.sums es h
  refine ⟨?_, hc.sumsOK (decide11_honest _ _ _ _) (fun _ h => h) (fun _ h => h)⟩
  obtain ⟨D, hD, _⟩ := hc
  rw [← crossPairs_perm h1.perm h2.perm, ← hD]
  exact Multiset.le_add_right _ _

theorem auto_counted {B : BinHelper P} {M : MetricHelper P} {prm : Params} {R : Bool}
    {cs : List (Cell P)} {l : List (Obj P)} (h1 : Holds cs l)
    {es : List (Emit P)} (h : processAuto (decide11 B M prm R) prm cs = some es) :
    (pairsOf es).map (fun q => s(q.1, q.2)) ≤ (autoPairs l).map (fun q => s(q.1, q.2)) ∧
      ∀ e ∈ es, e.c1.SumsOK ∧ e.c2.SumsOK := by
  have hc := processAuto_covers (decide11 B M prm R) (decide11_honest _ _ _ _) prm Cell.SumsOK
    hered_sumsOK cs h1.sums es h
  refine ⟨?_, hc.sumsOK (decide11_honest _ _ _ _) (fun _ h => h)⟩
  obtain ⟨D, D2, hD, _⟩ := hc
  rw [← autoPairs_sym_perm h1.perm, ← hD]
  simp only [Multiset.map_add, add_assoc]
  exact Multiset.le_add_right _ _

theorem buildField_holds (A : StdAlg P) (g : Geom P) (fp : FieldParams) (l : List (Obj P)) :
    Holds (buildField A g fp l).cells l where
  perm := buildField_objs A g fp l
  sums := by
    intro c hc
    simp only [buildField, List.mem_map] at hc
    obtain ⟨s, hs, rfl⟩ := hc
    exact buildCell_sumsOK A g _ _ _ (topCells_ne_nil A g _ _ _ _ _ s hs)

end TreeCorr
