import Verif.Model.CatalogOps

/-!
Model of writing a catalogue to a file, reading it back, and of the patches that are saved in a directory (`write`, `write_patches`,
`read_patches`, `get_patches` of /repo/treecorr/catalog.py).  A file is the table of its columns; numbers are kept exactly.  A patch that
is read from a file is loaded when it is made; the code loads it when it is first used.
-/

namespace TreeCorr
namespace Catalog

variable {R : Type} [Field R] [DecidableEq R]

/-- The units of positions. -/
structure Units (R : Type) where
  x : R
  y : R
  ra : R
  dec : R

/-- Radians everywhere. -/
def Units.one : Units R := ⟨1, 1, 1, 1⟩

/-- The unit of a column; only `x`, `y`, `ra`, `dec` have one. -/
def Units.of (u : Units R) : Col → R
  | .x => u.x
  | .y => u.y
  | .ra => u.ra
  | .dec => u.dec
  | _ => 1

/-- `col / units` -/
def divBy (u : R) (l : List (Option R)) : List (Option R) := l.map (Option.map (· / u))

/-- `col *= units`, /repo/treecorr/catalog.py:1556-1566. -/
def mulBy (u : R) (l : List (Option R)) : List (Option R) := l.map (Option.map (· * u))

/-- `write`, /repo/treecorr/catalog.py:3063-3131: `ra`, `dec`, `r` if there are `ra`, else `x`, `y`, `z`; weights only if they are not
trivial. -/
def Cat.toFile (u : Units R) (C : Cat R) : Tab R where
  col := fun c =>
    if (C.tab.col .ra).isSome then
      match c with
      | .x | .y | .z => none
      | c => (C.tab.col c).map (divBy (u.of c))
    else
      match c with
      | .ra | .dec | .r => none
      | c => (C.tab.col c).map (divBy (u.of c))
  w := if C.nontrivial then C.tab.w else none
  wpos := C.tab.wpos
  flag := none
  patch := C.tab.patch

/-- Which columns are asked for when a file is read. -/
structure Want where
  col : Col → Bool
  w : Bool
  wpos : Bool
  patch : Bool

/-- `Catalog(file_name, x_col='x', …)`: columns that are not there are an error (`_check_file`, /repo/treecorr/catalog.py:1664-1914),
units are applied (1556-1566), and the input is finished. -/
def readBack (s : Settings R) (q : Want) (u : Units R) (d : Tab R) : Except PyErr (Cat R) :=
  if (∃ c ∈ Col.all, q.col c = true ∧ d.col c = none) ∨ (q.w = true ∧ d.w = none) ∨ (q.wpos = true ∧ d.wpos = none) ∨
      (q.patch = true ∧ d.patch = none) then .error .valueError
  else finishInput s {
    col := fun c => if q.col c then (d.col c).map (mulBy (u.of c)) else none
    w := if q.w then d.w else none
    wpos := if q.wpos then d.wpos else none
    flag := none
    patch := if q.patch then d.patch else none }

/-- The files of a directory. -/
abbrev Disk (R : Type) := String → Option (Tab R)

/-- Errors: no such file, or another. -/
inductive Err where
  | os
  | py (e : PyErr)
  deriving DecidableEq

/-- A catalogue object with `save_patch_dir`: what it holds once it is loaded, whether it is loaded, whether it comes from a file, the
columns that its configuration names (none for arrays), the units of `x` and `y` in its configuration, the number of patches, whether
it has patch centres, what `Catalog(config, file_name, patch=i)` gives, the names of the files of patches (`get_patch_file_names`,
/repo/treecorr/catalog.py:2795-2808) and `_patches`. -/
structure Obj (R : Type) where
  cat : Cat R
  loaded : Bool
  fromFile : Bool
  cfg : Want
  units : R × R
  npatch : ℕ
  centers : Bool
  single : ℤ → Except PyErr (Cat R)
  name : ℕ → String
  patches : Option (List (Cat R))

/-- `kwargs`, /repo/treecorr/catalog.py:2867-2905: what is in memory, or named in the configuration.  With `ra` no `x`. -/
def Obj.want (o : Obj R) : Want :=
  let have_ (c : Col) : Bool := (o.loaded && (o.cat.tab.col c).isSome) || o.cfg.col c
  { col := fun c =>
      if have_ .ra then
        match c with
        | .x | .y | .z => false
        | .ra | .dec => true
        | c => have_ c
      else
        match c with
        | .x | .y => true
        | .ra | .dec | .r => false
        | c => have_ c
    w := (o.loaded && o.cat.nontrivial) || o.cfg.w
    wpos := (o.loaded && o.cat.tab.wpos.isSome) || o.cfg.wpos
    patch := false }

/-- The settings of a catalogue of which nothing but the columns is given. -/
def plainSettings (xyz : Option R → Option R → Option (Option R) → Option R × Option R × Option R) : Settings R :=
  ⟨fun _ => false, none, 0, false, xyz⟩

variable (xyz : Option R → Option R → Option (Option R) → Option R × Option R × Option R)

/-- An error that is not about files. -/
def asErr {α : Type} : Except PyErr α → Except Err α
  | .ok a => .ok a
  | .error e => .error (.py e)

/-- One patch from its file. -/
def readOne (o : Obj R) (disk : Disk R) (i : ℕ) : Except PyErr (Cat R) :=
  match disk (o.name i) with
  | some d => readBack (plainSettings xyz) o.want .one d
  | none => .error .valueError

/-- `read_patches`, /repo/treecorr/catalog.py:2867-2915. -/
def readPatches (o : Obj R) (disk : Disk R) : Except Err (List (Cat R)) :=
  if ∃ i ∈ List.range o.npatch, disk (o.name i) = none then .error .os
  else asErr ((List.range o.npatch).mapM (readOne xyz o disk))

/-- `write_patches`, /repo/treecorr/catalog.py:2827-2838: the old files are removed, the patches are written in order under the first
names; `ra` in radians, `x` and `y` in the units `u` of the patches. -/
def writePatches (o : Obj R) (u : R × R) (ps : List (Cat R)) (disk : Disk R) : Disk R := fun n =>
  if n ∈ (List.range o.npatch).map o.name then
    (((List.range o.npatch).zip ps).find? fun x => o.name x.1 = n).map fun x => x.2.toFile ⟨u.1, u.2, 1, 1⟩
  else disk n

/-- The patches that are made, the units of their positions, and whether the whole catalogue is in memory then:
/repo/treecorr/catalog.py:2946-2994. -/
def buildPatches (o : Obj R) (low : Bool) : Except PyErr (List (Cat R)) × (R × R) × Bool :=
  if low && o.fromFile then
    if o.centers then (((List.range o.npatch).map Int.ofNat).mapM o.single, o.units, o.loaded)
    else (match o.cat.tab.patch with
      | some P => (patchIds P).mapM o.single
      | none => .error .typeError, o.units, true)
  else (getPatches o.npatch o.cat, (1, 1), true)

/-- `get_patches` with `save_patch_dir`, /repo/treecorr/catalog.py:2933-3004.  `read_patches` sets `_patches` to an empty list before it
looks at the files. -/
def getPatchesDir (o : Obj R) (low : Bool) (disk : Disk R) : Except Err (List (Cat R)) × Disk R × Obj R :=
  match o.patches with
  | some ps => (.ok ps, disk, o)
  | none =>
    if o.npatch = 1 then (.ok [o.cat], disk, { o with patches := some [o.cat] })
    else match readPatches xyz o disk with
      | .ok ps => (.ok ps, disk, { o with patches := some ps })
      | .error (.py e) => (.error (.py e), disk, { o with patches := some [] })
      | .error .os =>
        match buildPatches o low with
        | (.error e, _, b) => (.error (.py e), disk, { o with patches := some [], loaded := b })
        | (.ok ps, u, b) =>
          let disk' := writePatches o u ps disk
          if low then
            match readPatches xyz { o with loaded := b } disk' with
            | .ok ps => (.ok ps, disk', { o with patches := some ps, loaded := b })
            | .error e => (.error e, disk', { o with patches := some [], loaded := b })
          else (.ok ps, disk', { o with patches := some ps, loaded := b })

end Catalog
end TreeCorr
