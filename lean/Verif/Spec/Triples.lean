import Verif.Spec.Pairs
import Verif.Model.Corr3

/-! Specification vocabulary for triangle counting: which ordered triples of rows a three-point correlation has to look at, and which
ones a run has counted. -/

namespace TreeCorr
open Classical

/-- The triples of distinct positions of a list, earliest first: the unordered triples of distinct rows. -/
def autoTriples {α : Type} : List α → Multiset (α × α × α)
  | [] => 0
  | x :: xs => (autoPairs xs).map (fun q => (x, q)) + autoTriples xs

/-- A triple in all six orders. -/
def orders6 {α : Type} (t : α × α × α) : Multiset (α × α × α) :=
  {(t.1, t.2.1, t.2.2)} + {(t.1, t.2.2, t.2.1)} + {(t.2.1, t.1, t.2.2)} + {(t.2.1, t.2.2, t.1)} +
    {(t.2.2, t.1, t.2.1)} + {(t.2.2, t.2.1, t.1)}

/-- A triple with its second and third member in either order. -/
def orders2 {α : Type} (t : α × α × α) : Multiset (α × α × α) :=
  {(t.1, t.2.1, t.2.2)} + {(t.1, t.2.2, t.2.1)}

/-- The ordered triples of distinct rows of a catalogue. -/
def orderedTriples {α : Type} (l : List α) : Multiset (α × α × α) := (autoTriples l).bind orders6

/-- The ordered triples with the first row from one catalogue, the other two distinct rows of another. -/
def cross12Triples {α : Type} (xs ys : List α) : Multiset (α × α × α) :=
  (xs : Multiset α) ×ˢ orderedPairs ys

/-- The triples with one row from each of three catalogues, in the order of the catalogues. -/
def crossTriples {α : Type} (xs ys zs : List α) : Multiset (α × α × α) :=
  (xs : Multiset α) ×ˢ ((ys : Multiset α) ×ˢ (zs : Multiset α))

variable {P : Type}

/-- The triples of rows covered by one `finishProcess` call. -/
def Emit3.triples (e : Emit3 P) : Multiset (Obj P × Obj P × Obj P) := crossTriples e.c1.objs e.c2.objs e.c3.objs

/-- The triples covered by a list of calls, with multiplicity. -/
def triplesOf (es : List (Emit3 P)) : Multiset (Obj P × Obj P × Obj P) := (es.map Emit3.triples).sum

/-- The triples covered by the calls for bin `k`. -/
noncomputable def triplesAt (es : List (Emit3 P)) (k : ℤ) : Multiset (Obj P × Obj P × Obj P) :=
  triplesOf (es.filter (fun e => e.index = k))

/-- The number of triples. -/
noncomputable def brute3N (m : Multiset (Obj P × Obj P × Obj P)) : ℝ := (Multiset.card m : ℝ)
/-- The sum of a quantity over triples, each with the product of its three weights. -/
noncomputable def brute3 (f : Obj P × Obj P × Obj P → ℝ) (m : Multiset (Obj P × Obj P × Obj P)) : ℝ :=
  (m.map fun q => q.1.w * q.2.1.w * q.2.2.w * f q).sum
/-- The sum of the products of the weighted scalar values. -/
noncomputable def brute3K (m : Multiset (Obj P × Obj P × Obj P)) : ℝ :=
  (m.map fun q => q.1.wk * q.2.1.wk * q.2.2.wk).sum

end TreeCorr
