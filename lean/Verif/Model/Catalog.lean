import Mathlib.Data.Int.Bitwise
import Mathlib.Algebra.Field.Defs
import Mathlib.Algebra.BigOperators.Group.List.Basic
import Verif.Model.Rows

/-!
Model of the tables of `/repo/treecorr/catalog.py`: finishing the input, selecting rows, combining, patches.

Columns are lists of `Option R`, where `none` is NaN; `R` is any field (no rounding, no infinities).
-/

namespace TreeCorr
namespace Catalog

open Rows (takeIdx)

/-- The columns other than weights, flags and patch numbers. -/
inductive Col where
  | x | y | z | ra | dec | r | k | z1 | z2 | v1 | v2 | g1 | g2 | t1 | t2 | q1 | q2
deriving DecidableEq

/-- All columns, in the order of the NaN checks, catalog.py:1367-1383. -/
def Col.all : List Col := [.x, .y, .z, .ra, .dec, .r, .k, .z1, .z2, .v1, .v2, .g1, .g2, .t1, .t2, .q1, .q2]

/-- The columns that may be flipped, catalog.py:1306-1349. -/
def Col.flippable : List Col := [.z1, .z2, .v1, .v2, .g1, .g2, .t1, .t2, .q1, .q2]

/-- The arrays of a catalogue. -/
structure Tab (R : Type) where
  col : Col → Option (List (Option R))
  w : Option (List (Option R))
  wpos : Option (List (Option R))
  flag : Option (List ℤ)
  patch : Option (List ℤ)

variable {R : Type} [Field R] [DecidableEq R]

/-- The settings that `_finish_input` reads: flips, the mask `ignore_flag` (or `~ok_flag`), `keep_zero_weight`, and
`GenerateXYZ` of the rows (catalog.py:1567-1581). -/
structure Settings (R : Type) where
  flip : Col → Bool
  ignoreFlag : Option ℤ
  okFlag : ℤ
  keepZero : Bool
  xyz : Option R → Option R → Option (Option R) → Option R × Option R × Option R

/-- `(flag & ignore_flag) != 0`, catalog.py:1353-1361. -/
def Settings.flagged (s : Settings R) (f : ℤ) : Bool :=
  Int.land f (match s.ignoreFlag with | some m => m | none => Int.lnot s.okFlag) ≠ 0

/-- `a[mask] = 0`: the mask must have the length of the array. -/
def zeroMask (mask : List Bool) (l : List (Option R)) : Except PyErr (List (Option R)) :=
  if mask.length = l.length then .ok (List.zipWith (fun m a => if m then some 0 else a) mask l) else .error .indexError

/-- `a[idx] = 0` -/
def zeroAt (idx : List ℕ) (l : List (Option R)) : Except PyErr (List (Option R)) :=
  if ∀ i ∈ idx, i < l.length then .ok (l.mapIdx fun i a => if i ∈ idx then some 0 else a) else .error .indexError

/-- `np.where(np.isnan(col))[0]` -/
def nanIdx (l : List (Option R)) : List ℕ := (List.range l.length).filter fun i => l[i]? = some none

/-- `np.sum`, NaN if an item is NaN. -/
def npSum (l : List (Option R)) : Option R := l.foldr (fun a b => match a, b with | some a, some b => some (a + b) | _, _ => none) (some 0)

/-- The flips, catalog.py:1306-1349: `-None` is a TypeError. -/
def flipCols (s : Settings R) (t : Tab R) : Except PyErr (Tab R) :=
  if ∀ c ∈ Col.flippable, s.flip c = true → (t.col c).isSome then
    .ok { t with col := fun c => if c ∈ Col.flippable ∧ s.flip c = true then (t.col c).map (List.map (Option.map (- ·))) else t.col c }
  else .error .typeError

/-- The flag becomes a weight, catalog.py:1352-1364. -/
def applyFlag (s : Settings R) (t : Tab R) : Except PyErr (Tab R) :=
  match t.flag with
  | none => .ok t
  | some fl =>
    let mask := fl.map s.flagged
    match zeroMask mask (t.w.getD (List.replicate fl.length (some 1))) with
    | .error e => .error e
    | .ok w =>
      match t.wpos with
      | none => .ok { t with w := some w }
      | some p =>
        match zeroMask mask p with
        | .error e => .error e
        | .ok p => .ok { t with w := some w, wpos := some p }

/-- What `checkForNaN` does with the weights, given one column, catalog.py:1643-1660. -/
def nanWeights (l : List (Option R)) (w : Option (List (Option R))) : Except PyErr (Option (List (Option R))) :=
  if nanIdx l = [] then .ok w
  else match zeroAt (nanIdx l) (w.getD (List.replicate l.length (some 1))) with
    | .ok w => .ok (some w)
    | .error e => .error e

/-- `col[index] = 0`, catalog.py:1662. -/
def nanZero (l : List (Option R)) : List (Option R) := l.map fun a => some (a.getD 0)

/-- `checkForNaN` of one of the columns. -/
def checkNaN (t : Tab R) (c : Col) : Except PyErr (Tab R) :=
  match t.col c with
  | none => .ok t
  | some l =>
    match nanWeights l t.w with
    | .ok w => .ok { t with w := w, col := fun c' => if c' = c then some (nanZero l) else t.col c' }
    | .error e => .error e

/-- `checkForNaN` of the weights, catalog.py:1384: the array itself is set to zero there. -/
def checkNaNw (t : Tab R) : Tab R := { t with w := t.w.map nanZero }

/-- `checkForNaN` of `wpos`, catalog.py:1385. -/
def checkNaNwpos (t : Tab R) : Except PyErr (Tab R) :=
  match t.wpos with
  | none => .ok t
  | some p =>
    match nanWeights p t.w with
    | .ok w => .ok { t with w := w, wpos := some (nanZero p) }
    | .error e => .error e

/-- `_generate_xyz`, catalog.py:1567-1581. -/
def generateXYZ (s : Settings R) (t : Tab R) : Except PyErr (Tab R) :=
  match t.col .x with
  | some _ => .ok t
  | none =>
    match t.col .y, t.col .z, t.col .ra, t.col .dec with
    | none, none, some ra, some dec =>
      let rows := (List.range ra.length).map fun i =>
        s.xyz ((ra[i]?).getD none) ((dec[i]?).getD none) ((t.col .r).map fun r => (r[i]?).getD none)
      .ok { t with col := fun c => match c with
        | .x => some (rows.map fun v => v.1)
        | .y => some (rows.map fun v => v.2.1)
        | .z => some (rows.map fun v => v.2.2)
        | c => t.col c }
    | _, _, _, _ => .error .assertion

/-- `ntot`: the length of `x`. -/
def Tab.ntot (t : Tab R) : ℕ := ((t.col .x).getD []).length

/-- Rows with `wpos = 0` get `w = 0`, catalog.py:1393-1406. -/
def wposZero (t : Tab R) : Except PyErr (Tab R) :=
  match t.wpos with
  | none => .ok t
  | some p =>
    if p.any (· = some 0) then
      match zeroMask (p.map (· = some 0)) (t.w.getD (List.replicate t.ntot (some 1))) with
      | .ok w => .ok { t with w := some w }
      | .error e => .error e
    else .ok t

/-- `select`, catalog.py:1592-1619.  The flags are not selected. -/
def select (idx : List ℕ) (t : Tab R) : Except PyErr (Tab R) :=
  if (∀ c ∈ Col.all, ∀ l, t.col c = some l → (takeIdx idx l).isSome) ∧ (∀ l, t.w = some l → (takeIdx idx l).isSome) ∧
      (∀ l, t.wpos = some l → (takeIdx idx l).isSome) ∧ (∀ l, t.patch = some l → (takeIdx idx l).isSome) then
    .ok { col := fun c => (t.col c).bind (takeIdx idx), w := t.w.bind (takeIdx idx), wpos := t.wpos.bind (takeIdx idx),
          flag := t.flag, patch := t.patch.bind (takeIdx idx) }
  else .error .indexError

/-- A finished catalogue. -/
structure Cat (R : Type) where
  tab : Tab R
  nontrivial : Bool
  sumw : Option R

/-- The weights and the removal of rows, catalog.py:1408-1422. -/
def finishWeights (s : Settings R) (t : Tab R) : Except PyErr (Cat R) :=
  match t.w with
  | none => .ok ⟨{ t with w := some (List.replicate t.ntot (some 1)) }, false, some (t.ntot : R)⟩
  | some w =>
    if npSum w = some 0 then .error .valueError
    else
      let p := t.wpos.getD w
      if s.keepZero = false ∧ p.any (· = some 0) then
        match select ((List.range p.length).filter fun i => p[i]? ≠ some (some 0)) t with
        | .ok t => .ok ⟨t, true, npSum w⟩
        | .error e => .error e
      else .ok ⟨t, true, npSum w⟩

/-- `_finish_input`, catalog.py:1302-1446, up to the assignment of patches. -/
def finishInput (s : Settings R) (t : Tab R) : Except PyErr (Cat R) := do
  let t ← flipCols s t
  let t ← applyFlag s t
  let t ← Col.all.foldlM checkNaN t
  let t ← checkNaNwpos (checkNaNw t)
  let t ← generateXYZ s t
  let t ← wposZero t
  finishWeights s t

/-- The vectors have one length, catalog.py:966-1002.  (The flag column is not checked.) -/
def lengthsOk (t : Tab R) : Bool :=
  let n := (t.col .x).elim ((t.col .ra).getD []).length List.length
  (Col.all.all fun c => (t.col c).all fun l => l.length = n) && (t.w.all fun l => l.length = n) &&
    (t.wpos.all fun l => l.length = n) && (t.patch.all fun l => l.length = n) && decide (n ≠ 0)

/-- The constructor from arrays, catalog.py:902-1059, with default rows and units; `use` are the rows of the one patch to be kept
(`_select_patch`, with centres), if any. -/
def fromArrays (s : Settings R) (use : Option (List ℕ)) (t : Tab R) : Except PyErr (Cat R) :=
  if ((t.col .x).isSome ∨ (t.col .y).isSome) ∧ ¬ ((t.col .x).isSome ∧ (t.col .y).isSome) then .error .typeError
  else if ((t.col .ra).isSome ∨ (t.col .dec).isSome) ∧ ¬ ((t.col .ra).isSome ∧ (t.col .dec).isSome) then .error .typeError
  else if lengthsOk t = false then .error .valueError
  else match use with
    | none => finishInput s t
    | some idx => do
      let t ← generateXYZ s t
      let t ← select idx { t with patch := none }
      finishInput s t

end Catalog
end TreeCorr
