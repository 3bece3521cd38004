import Mathlib.Data.List.Sort
import Verif.Model.Tree

/-!
Model of the neighbour queries: `CountNear`, `GetNear` and the methods of `BaseField` calling them,
`/repo/src/Field.cpp:287-411`, and `Field.count_near`, `get_near`, `_count_near`, `_get_near`,
`/repo/treecorr/field.py:122-275`.

`none` stands for reading memory that was never written or that is not there.  The distance of two positions is the
distance of the metric space; the squared distance compared by the code is its square.  `parse_xyzsep`, which
turns the arguments into a position and a distance, is in `Model/NearArgs`.
-/

namespace TreeCorr
open Classical
noncomputable section
variable {P : Type} [PseudoMetricSpace P]

/-- `CountNear`, /repo/src/Field.cpp:287-328. -/
def Cell.countNear (p : P) (sep : ℝ) : Cell P → ℕ
  | .leaf d _ => if dist d.pos p ^ 2 ≤ sep ^ 2 then d.n else 0
  | .node d s l r =>
    let dsq := dist d.pos p ^ 2
    if s = 0 then (if dsq ≤ sep ^ 2 then d.n else 0)
    else if dsq > sep ^ 2 ∧ dsq > (sep + s) ^ 2 then 0
    else if dsq ≤ sep ^ 2 ∧ s < sep ∧ dsq ≤ (sep - s) ^ 2 then d.n
    else l.countNear p sep + r.countNear p sep

/-- `GetNear`, /repo/src/Field.cpp:346-393: `buf` holds the entries `indices[0..k)`, and `n` is the length
of the array.  The `Assert`s are not compiled in. -/
def Cell.getNear (p : P) (sep : ℝ) (n : ℕ) : Cell P → List ℕ → Option (List ℕ)
  | .leaf d os, buf =>
    if dist d.pos p ^ 2 ≤ sep ^ 2 then
      if buf.length + d.n > n then some buf
      else if os.length = d.n then some (buf ++ os.map Obj.idx) else none
    else some buf
  | .node d s l r, buf =>
    let dsq := dist d.pos p ^ 2
    if s = 0 then
      if dsq ≤ sep ^ 2 then (if buf.length + d.n > n then some buf else none) else some buf
    else if dsq > sep ^ 2 ∧ dsq > (sep + s) ^ 2 then some buf
    else (l.getNear p sep n buf).bind (r.getNear p sep n)

/-- `BaseField::countNear`, /repo/src/Field.cpp:330-344. -/
def Field.countNear (f : Field P) (p : P) (sep : ℝ) : ℕ :=
  f.cells.foldl (fun ntot c => ntot + c.countNear p sep) 0

/-- `BaseField::getNear`, /repo/src/Field.cpp:395-411: the entries written to `indices`. -/
def Field.getNear (f : Field P) (p : P) (sep : ℝ) (n : ℕ) : Option (List ℕ) :=
  f.cells.foldlM (fun buf c => c.getNear p sep n buf) []

/-- `_get_near`, /repo/treecorr/field.py:262-275: `np.empty(n)` filled by the C++ code.  Later code reads all
entries, so there is no answer if some were not written. -/
def Field.getNearArr (f : Field P) (p : P) (sep : ℝ) : Option (List ℕ) :=
  let n := f.countNear p sep
  (f.getNear p sep n).bind fun buf => if buf.length = n then some buf else none

/-- `rsq < sep**2` for the row `i` of the catalogue, /repo/treecorr/field.py:252-256. -/
def nearMask (rows : List (Obj P)) (p : P) (sep : ℝ) (i : ℕ) : Option Bool :=
  rows[i]?.map fun o => decide (dist o.pos p ^ 2 < sep ^ 2)

/-- `Field.get_near`, /repo/treecorr/field.py:242-260; `rows` is the catalogue, `minsize` is `self.min_size`. -/
def Field.getNearPy (f : Field P) (minsize : ℝ) (rows : List (Obj P)) (p : P) (sep : ℝ) : Option (List ℕ) :=
  if minsize = 0 then (f.getNearArr p sep).map (fun ind => ind.mergeSort)
  else
    (f.getNearArr p (sep + minsize)).bind fun ind =>
      (ind.mapM (nearMask rows p sep)).map fun near =>
        (((ind.zip near).filter Prod.snd).map Prod.fst).mergeSort

/-- `Field.count_near`, /repo/treecorr/field.py:175-183. -/
def Field.countNearPy (f : Field P) (minsize : ℝ) (rows : List (Obj P)) (p : P) (sep : ℝ) : Option ℕ :=
  if minsize = 0 then some (f.countNear p sep)
  else (f.getNearPy minsize rows p sep).map List.length

end
end TreeCorr
