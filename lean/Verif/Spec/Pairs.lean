import Mathlib.Data.Multiset.Bind

/-! Specification vocabulary for pair counting: which pairs of rows a correlation has to look at.
Independent of the model. -/

namespace TreeCorr

/-- All pairs (earlier, later) of distinct positions of a list, with multiplicity: the unordered pairs
of distinct rows of a catalogue. -/
def autoPairs {α : Type} : List α → Multiset (α × α)
  | [] => 0
  | x :: xs => (xs.map (fun y => (x, y)) : Multiset (α × α)) + autoPairs xs

/-- All pairs with one row from each of two lists. -/
def crossPairs {α β : Type} (xs : List α) (ys : List β) : Multiset (α × β) :=
  (xs : Multiset α) ×ˢ (ys : Multiset β)

/-- The ordered pairs of distinct rows: every unordered pair in both orders. -/
def orderedPairs {α : Type} (l : List α) : Multiset (α × α) :=
  autoPairs l + (autoPairs l).map Prod.swap

end TreeCorr
