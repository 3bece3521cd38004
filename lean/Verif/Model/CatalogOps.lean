import Mathlib.Data.List.Dedup
import Mathlib.Data.List.Sort
import Mathlib.Data.Rat.Defs
import Verif.Model.Catalog

/-!
Model of `get_patches`, `combine` and the variances of `/repo/treecorr/catalog.py`.
-/

namespace TreeCorr
namespace Catalog

open Rows (takeIdx whereEq)

variable {R : Type} [Field R] [DecidableEq R]

/-- `np.any(check_wpos == 0)`, catalog.py:1476-1477, 2980-2981. -/
def Cat.anyZero (C : Cat R) : Bool := ((C.tab.wpos.getD (C.tab.w.getD [])).any (· = some 0))

/-- The settings with which the parts are made: no flips, no flags; positions are given. -/
def partSettings (keepZero : Bool) : Settings R := ⟨fun _ => false, none, 0, keepZero, fun _ _ _ => (none, none, none)⟩

/-- One patch, catalog.py:2959-2991: the rows with this number; `w` is passed only if it is not trivial; no patch column. -/
def onePatch (C : Cat R) (P : List ℤ) (p : ℤ) : Except PyErr (Cat R) :=
  match select (whereEq P p) C.tab with
  | .error e => .error e
  | .ok t => finishInput (partSettings C.anyZero) { t with w := if C.nontrivial then t.w else none, flag := none, patch := none }

/-- `sorted(set(patch))` -/
def patchIds (P : List ℤ) : List ℤ := P.dedup.insertionSort (· ≤ ·)

/-- `get_patches` from memory, catalog.py:2917-2991 (no `save_patch_dir`, no `low_mem`): one patch is the catalogue itself, else one
catalogue for each number that occurs. -/
def getPatches (npatch : ℤ) (C : Cat R) : Except PyErr (List (Cat R)) :=
  if npatch = 1 then .ok [C]
  else match C.tab.patch with
    | none => .error .typeError
    | some P => (patchIds P).mapM (onePatch C P)

/-- `_set_npatch`, catalog.py:1527-1533: `cur` is the number from the settings, if any.  The maximum of nothing is a ValueError. -/
def setNpatch (cur : Option ℤ) (P : List ℤ) : Except PyErr ℤ :=
  match P.max? with
  | none => .error .valueError
  | some m =>
    match cur with
    | none => .ok (m + 1)
    | some c => if c ≠ 1 ∧ c < m + 1 then .error .valueError else .ok (m + 1)

/-- `a[mask]` with a mask of booleans, of the length of `a`. -/
def maskArr {α : Type} (mask : Option (List Bool)) (l : List α) : List α :=
  match mask with
  | none => l
  | some m => ((m.zip l).filter (·.1)).map (·.2)

/-- What is kept of the columns when combining, catalog.py:1483-1484: weights always, and columns and `wpos` if the first catalogue
has them.  Patch numbers and flags are not among them. -/
structure Keys where
  col : Col → Bool
  wpos : Bool

/-- Appending one more catalogue, catalog.py:1486-1506.  All arrays of a catalogue have one length, so a mask of another length is an
IndexError at the first of the columns, `x`, which every catalogue has; then a missing column is a ValueError. -/
def appendCat (keys : Keys) (acc : Tab R) (x : Cat R × Option (List Bool)) : Except PyErr (Tab R) :=
  if x.2.any (fun m => m.length ≠ x.1.tab.ntot) then .error .indexError
  else if (Col.all.any fun c => keys.col c && (x.1.tab.col c).isNone) || (keys.wpos && x.1.tab.wpos.isNone) then .error .valueError
  else .ok {
    col := fun c => if keys.col c then some ((acc.col c).getD [] ++ maskArr x.2 ((x.1.tab.col c).getD [])) else none
    w := some (acc.w.getD [] ++ maskArr x.2 (x.1.tab.w.getD []))
    wpos := if keys.wpos then some (acc.wpos.getD [] ++ maskArr x.2 (x.1.tab.wpos.getD [])) else none
    flag := none
    patch := none }

/-- The catalogues with their masks. -/
def parts (cats : List (Cat R)) (masks : Option (List (List Bool))) : List (Cat R × Option (List Bool)) :=
  match masks with
  | none => cats.map fun C => (C, none)
  | some ms => List.zipWith (fun C m => (C, some m)) cats ms

/-- `combine`, catalog.py:1449-1513: the first catalogue decides about the columns and about `keep_zero_weight`. -/
def combine (cats : List (Cat R)) (masks : Option (List (List Bool))) : Except PyErr (Cat R) :=
  match cats with
  | [] => .error .valueError
  | C :: _ =>
    if masks.any (fun m => m.length ≠ cats.length) then .error .valueError
    else
      let keys : Keys := ⟨fun c => (C.tab.col c).isSome, C.tab.wpos.isSome⟩
      let empty : Tab R := ⟨fun c => if keys.col c then some [] else none, some [], if keys.wpos then some [] else none, none, none⟩
      match (parts cats masks).foldlM (appendCat keys) empty with
      | .error e => .error e
      | .ok t => fromArrays (partSettings C.anyZero) none t

/-! ### Variances -/

/-- What the pooled variance reads of a catalogue: rows of weight and value, and whether weights are given. -/
structure WCat (R : Type) where
  rows : List (R × R)
  nontrivial : Bool

/-- `sumw`, `sumw2`, catalog.py:1252-1275 -/
def WCat.sumw (c : WCat R) : R := if c.nontrivial then (c.rows.map fun x => x.1).sum else (c.rows.length : R)
def WCat.sumw2 (c : WCat R) : R := if c.nontrivial then (c.rows.map fun x => x.1 ^ 2).sum else (c.rows.length : R)

/-- `_calculate_weighted_var`, catalog.py:1181-1195: the mean, the mean with squared weights, and the variance.  (The number of
objects of a catalogue with trivial weights is the number of rows.) -/
def WCat.weightedVar (c : WCat R) : R × R × R :=
  if c.nontrivial then
    let use := c.rows.filter fun x => x.1 ≠ 0
    let mean := (use.map fun x => x.1 * x.2).sum / c.sumw
    (mean, (use.map fun x => x.1 ^ 2 * x.2).sum / c.sumw2, (use.map fun x => x.1 ^ 2 * (x.2 - mean) ^ 2).sum / c.sumw)
  else
    let mean := (c.rows.map fun x => x.2).sum / (c.rows.length : R)
    (mean, mean, (c.rows.map fun x => (x.2 - mean) ^ 2).sum / (c.rows.length : R))

/-- `_compute_var_multi_cat`, catalog.py:3273-3296. -/
def poolVar (cats : List (WCat R)) : R :=
  let vark := (cats.map fun c => c.weightedVar.2.2 * c.sumw + c.weightedVar.1 * c.sumw2 * (2 * c.weightedVar.2.1 - c.weightedVar.1)).sum
  let sumw := (cats.map fun c => c.sumw).sum
  let sumw2 := (cats.map fun c => c.sumw2).sum
  let meank := (cats.map fun c => c.weightedVar.1 * c.sumw).sum / sumw
  let altmeank := (cats.map fun c => c.weightedVar.2.1 * c.sumw2).sum / sumw2
  (vark - meank * sumw2 * (2 * altmeank - meank)) / sumw

/-- `calculateVarK`, catalog.py:3298-3322. -/
def calculateVar (cats : List (WCat R)) : R :=
  match cats with
  | [c] => c.weightedVar.2.2
  | cats => poolVar cats

end Catalog
end TreeCorr
