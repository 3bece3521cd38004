import Mathlib.Data.Real.Basic
import Mathlib.Algebra.BigOperators.Group.List.Basic

/-!
Model of the tree cells of TreeCorr.

Models `/repo/include/Cell.h` (CellData, BaseCell, Cell, LeafInfo, ListLeafInfo) and the accessors
used by the correlation code.  Simplifications: doubles and floats are exact reals, a leaf carries
the objects themselves rather than their indices, and "both children null or both non-null" is built
in to the type.
-/

namespace TreeCorr

/-- One row of a catalogue as seen by the tree: position, weight, weight times scalar field value and
row index.  Models the arguments `x,y,z,k,w,wpos` of the `Field` constructor, /repo/src/Field.cpp:154-228
(`wpos` is the weight when none is given, `get_wpos`, :146-152). -/
structure Obj (P : Type) where
  pos : P
  w : ℝ
  wk : ℝ
  idx : ℕ
  wpos : ℝ := w

/-- The data stored in a cell: mean position, number of objects, total weight, total of `w*k`.
Models `BaseCellData`/`CellData<KData,C>` in /repo/include/Cell.h:60-330. -/
structure CellData (P : Type) where
  pos : P
  n : ℕ
  w : ℝ
  wk : ℝ

/-- A tree cell, /repo/include/Cell.h:360-520 (`BaseCell`, `Cell`). A leaf has no size field of its own
(`_size` is 0 there) and lists the objects merged into it. -/
inductive Cell (P : Type) where
  | leaf (d : CellData P) (objs : List (Obj P)) : Cell P
  | node (d : CellData P) (size : ℝ) (left right : Cell P) : Cell P

namespace Cell
variable {P : Type}

/-- `getData()`, /repo/include/Cell.h. -/
def data : Cell P → CellData P
  | leaf d _ => d
  | node d _ _ _ => d

/-- `getPos()`. -/
def pos (c : Cell P) : P := c.data.pos
/-- `getW()`. -/
def w (c : Cell P) : ℝ := c.data.w
/-- `getWK()`. -/
def wk (c : Cell P) : ℝ := c.data.wk
/-- `getN()`. -/
def n (c : Cell P) : ℕ := c.data.n

/-- `getSize()`: zero for a leaf, /repo/include/Cell.h and BuildCell in /repo/src/Cell.cpp:556-615. -/
def size : Cell P → ℝ
  | leaf _ _ => 0
  | node _ s _ _ => s

/-- `getLeft()` and `getRight()`; `none` is the null pointer. -/
def children : Cell P → Option (Cell P × Cell P)
  | leaf _ _ => none
  | node _ _ l r => some (l, r)

/-- The objects held by the leaves below this cell, in tree order
(`getAllIndices`, /repo/src/Cell.cpp:650-668). -/
def objs : Cell P → List (Obj P)
  | leaf _ os => os
  | node _ _ l r => l.objs ++ r.objs

/-- Number of tree nodes: termination measure only. -/
def nodes : Cell P → ℕ
  | leaf _ _ => 1
  | node _ _ l r => l.nodes + r.nodes + 1

end Cell
end TreeCorr
