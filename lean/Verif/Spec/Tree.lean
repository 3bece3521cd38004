import Mathlib.Topology.MetricSpace.Pseudo.Defs
import Mathlib.Tactic.Linarith
import Verif.Model.Cell

/-! What it means for a tree to describe its objects correctly. -/

namespace TreeCorr
variable {P : Type}

/-- The stored counts and sums of every cell are those of the objects below it, and no leaf is empty. -/
def Cell.SumsOK : Cell P → Prop
  | .leaf d os => os ≠ [] ∧ d.n = os.length ∧ d.w = (os.map Obj.w).sum ∧ d.wk = (os.map Obj.wk).sum
  | .node d s l r =>
      let os := (Cell.node d s l r).objs
      d.n = os.length ∧ d.w = (os.map Obj.w).sum ∧ d.wk = (os.map Obj.wk).sum ∧ l.SumsOK ∧ r.SumsOK

/-- Every object is within the cell's size of the cell's position.  A leaf is stored with size 0, its
objects are within `δ` of its position (`δ = 0`: all objects of a leaf coincide). -/
def Cell.Bounded [PseudoMetricSpace P] (δ : ℝ) : Cell P → Prop
  | .leaf d os => ∀ o ∈ os, dist o.pos d.pos ≤ δ
  | .node d s l r =>
      0 < s ∧ (∀ o ∈ l.objs ++ r.objs, dist o.pos d.pos ≤ s) ∧ l.Bounded δ ∧ r.Bounded δ

/-- The lists of rows held by the leaves. -/
def Cell.leafLists : Cell P → List (List (Obj P))
  | .leaf _ os => [os]
  | .node _ _ l r => l.leafLists ++ r.leafLists

/-- All weights are positive. -/
def Cell.PosW (c : Cell P) : Prop := ∀ o ∈ c.objs, 0 < o.w

end TreeCorr
