import Mathlib.Data.List.Basic
import Verif.Model.Binning

/-!
Selection of the rows of a file: `first_row`, `last_row`, `every_nth`, and reading a single patch.

`/repo/treecorr/catalog.py` and `/repo/treecorr/reader.py`.
-/

namespace TreeCorr
namespace Rows

/-- A Python slice with a start that is not negative and a positive step; `stop = none` is the end of the data. -/
structure Slice where
  start : ℕ
  stop : Option ℕ
  step : ℕ
deriving DecidableEq

/-- `Catalog.__init__`, catalog.py:810-826: the slice from `first_row`, `last_row`, `every_nth`. -/
def mkSlice (firstRow lastRow everyNth : ℤ) : Except PyErr Slice :=
  if firstRow < 1 then .error .valueError
  else if 0 < lastRow ∧ lastRow < firstRow then .error .valueError
  else if everyNth < 1 then .error .valueError
  else .ok ⟨if 1 < firstRow then (firstRow - 1).toNat else 0, if 0 < lastRow then some lastRow.toNat else none, everyNth.toNat⟩

/-- `s == slice(None)` is used in this case, catalog.py:2020-2024. -/
def Slice.isAll (s : Slice) : Bool := s.start = 0 ∧ s.stop = none ∧ s.step = 1

/-- The number of items of a slice of data with `n` items (Python's definition of slices). -/
def Slice.count (s : Slice) (n : ℕ) : ℕ :=
  let stop := match s.stop with | some e => min e n | none => n
  if s.start < stop then (stop - s.start - 1) / s.step + 1 else 0

/-- `a[start:stop:step]` of numpy, also in the HDF, FITS and Parquet readers (reader.py:424-427, 557, 716-719) and in `makeArray`
(catalog.py:1640). -/
def Slice.apply {α : Type} (s : Slice) (l : List α) : List α :=
  (List.range (s.count l.length)).filterMap fun k => l[s.start + k * s.step]?

/-- `a[::step]` -/
def everyNth {α : Type} (step : ℕ) : List α → List α
  | [] => []
  | a :: l => a :: everyNth step (l.drop (step - 1))
termination_by l => l.length
decreasing_by simp

/-- The ASCII reader (reader.py:93-133) on the lines of the file after the header: skip `start` rows, read at most
`stop - start` rows, then `[::step]`.  (`max_rows=0` is not modelled: the constructor ensures `start < stop`.) -/
def asciiRead {α : Type} (s : Slice) (l : List α) : List α :=
  let data := l.drop s.start
  let data := match s.stop with | some e => data.take (e - s.start) | none => data
  everyNth s.step data

/-- The Pandas reader (reader.py:309-352): keep the lines selected by a function, and read at most `nrows` of them. -/
def pandasRead {α : Type} (s : Slice) (l : List α) : List α :=
  let kept := ((l.zipIdx).filter fun x => ¬ (x.2 < s.start ∨ (x.2 - s.start) % s.step ≠ 0)).map Prod.fst
  match s.stop with
  | some e => kept.take ((e - s.start - 1) / s.step + 1)
  | none => kept

/-- `data[indices]` of numpy; `none` is an IndexError. -/
def takeIdx {α : Type} (idx : List ℕ) (l : List α) : Option (List α) := idx.mapM fun i => l[i]?

/-- The Pandas reader on an array of indices (reader.py:334-338): the lines in the set, in the order of the file. -/
def pandasIdx {α : Type} (idx : List ℕ) (l : List α) : List α :=
  ((l.zipIdx).filter fun x => x.2 ∈ idx).map Prod.fst

/-- `np.where(patch == p)[0]`, catalog.py:1538. -/
def whereEq (patch : List ℤ) (p : ℤ) : List ℕ := (List.range patch.length).filter fun i => patch[i]? = some p

/-- The rows of the file to read for one patch, catalog.py:2096-2103; `use` are the rows of the slice in the patch.
The maximum of an empty array is a ValueError. -/
def patchRows (s : Slice) (use : List ℕ) : Except PyErr (List ℕ) :=
  if s.isAll then .ok use
  else match use.max? with
    | none => .error .valueError
    | some m =>
      let end1 := m * s.step + s.start + 1
      let arange := (List.range ((end1 - s.start - 1) / s.step + 1)).map fun k => s.start + k * s.step
      match takeIdx use arange with
      | some rows => .ok rows
      | none => .error .indexError

/-- Reading a file column for one patch with a patch column, catalog.py:2074-2127: the patch column is read with the slice, then
the other columns on the rows in the patch.  With no rows the function returns without reading the columns, and the position
columns are missing: an AssertionError in `_generate_xyz` (catalog.py:1570-1573). -/
def readPatch {α : Type} (s : Slice) (patchCol : List ℤ) (p : ℤ) (col : List α) : Except PyErr (List α) :=
  match patchRows s (whereEq (s.apply patchCol) p) with
  | .error e => .error e
  | .ok rows =>
    if rows = [] then .error .assertion
    else match takeIdx rows col with
      | some c => .ok c
      | none => .error .indexError

/-- Reading all rows and then selecting the patch: `_select_patch` (catalog.py:1583-1590) or the items of `get_patches`. -/
def selectPatch {α : Type} (s : Slice) (patchCol : List ℤ) (p : ℤ) (col : List α) : Except PyErr (List α) :=
  match takeIdx (whereEq (s.apply patchCol) p) (s.apply col) with
  | some c => .ok c
  | none => .error .indexError

/-- Reading with an integer `patch` from a file without patch column and without centres (as `read_patches` does,
catalog.py:2884): all rows are used, `use = slice(None)`.  With a proper slice, `np.max(slice(None)) * step` is a TypeError,
catalog.py:2100-2102. -/
def readPatchFile {α : Type} (s : Slice) (col : List α) : Except PyErr (List α) :=
  if s.isAll then .ok col else .error .typeError

end Rows
end TreeCorr
