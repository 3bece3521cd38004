import Verif.Model.CatalogOps

/-!
Model of `__repr__` and `__eq__` of /repo/treecorr/catalog.py, and of the constructor called with what `__repr__` prints.  Numbers are
printed exactly and arrays in full; numpy prints 8 digits, and leaves out the middle of arrays of more than 1000 numbers, unless it is told otherwise.
-/

namespace TreeCorr
namespace Catalog

variable {R : Type} [Field R] [DecidableEq R]

/-- What is given, or printed, for `patch`: nothing, a number, an array. -/
inductive PatchArg where
  | absent
  | one (p : ℤ)
  | many (P : List ℤ)
deriving DecidableEq

/-- A catalogue that is loaded, with `_single_patch` and `_npatch`. -/
structure LCat (R : Type) where
  cat : Cat R
  single : Option ℤ
  npatch : ℤ

/-- The property `patch`, /repo/treecorr/catalog.py:1165-1171. -/
def LCat.patch (C : LCat R) : PatchArg :=
  match C.single with
  | some p => .one p
  | none => match C.cat.tab.patch with
    | some P => .many P
    | none => .absent

/-- The columns in `__repr__`, /repo/treecorr/catalog.py:3159-3178: `x`, `y`, `z` only without `ra`, the weights only if they are not trivial. -/
def Cat.printed (C : Cat R) : Tab R where
  col := fun c => match c with
    | .x | .y | .z => if (C.tab.col .ra).isNone then C.tab.col c else none
    | c => C.tab.col c
  w := if C.nontrivial then C.tab.w else none
  wpos := C.tab.wpos
  flag := none
  patch := none

/-- `int(patch)`, /repo/treecorr/catalog.py:828-833: it works for a number, and for an array of one number. -/
def PatchArg.single : PatchArg → Option ℤ
  | .absent => none
  | .one p => some p
  | .many [p] => some p
  | .many _ => none

/-- The array of patch numbers, if `int(patch)` did not work. -/
def PatchArg.array : PatchArg → Option (List ℤ)
  | .many [_] => none
  | .many P => some P
  | _ => none

/-- The constructor from arrays without `npatch` and `patch_centers`, /repo/treecorr/catalog.py:828-859 and 902-1059.  A number for `patch`
that is not 0 is an error (855); 0 stands for all rows (1553, 1598). -/
def construct (s : Settings R) (t : Tab R) (a : PatchArg) : Except PyErr (LCat R) :=
  match a.single with
  | some p =>
    if p ≠ 0 then .error .valueError
    else match fromArrays s none { t with patch := none } with
      | .ok C => .ok ⟨C, some p, 1⟩
      | .error e => .error e
  | none =>
    match a.array with
    | none => match fromArrays s none { t with patch := none } with
      | .ok C => .ok ⟨C, none, 1⟩
      | .error e => .error e
    | some P => match setNpatch (some 1) P with
      | .error e => .error e
      | .ok n => match fromArrays s none { t with patch := some P } with
        | .ok C => .ok ⟨C, none, n⟩
        | .error e => .error e

/-- `eval(repr(cat))` of a loaded catalogue, /repo/treecorr/catalog.py:3157-3183: `keep_zero_weight` if there are rows of zero weight. -/
def LCat.evalRepr (xyz : Option R → Option R → Option (Option R) → Option R × Option R × Option R) (C : LCat R) : Except PyErr (LCat R) :=
  construct { (partSettings C.cat.anyZero : Settings R) with xyz := xyz } C.cat.printed C.patch

/-- Equality of two numbers: NaN is not equal to NaN. -/
def numEq : Option R → Option R → Bool
  | some x, some y => decide (x = y)
  | _, _ => false

/-- `np.array_equal`: NaN is not equal to NaN; None is equal to None only. -/
def arrayEq : Option (List (Option R)) → Option (List (Option R)) → Bool
  | none, none => true
  | some a, some b => decide (a.length = b.length) && (a.zip b).all fun p => numEq p.1 p.2
  | _, _ => false

/-- `__eq__`, /repo/treecorr/catalog.py:3191-3213. -/
def LCat.eq (C D : LCat R) : Bool :=
  (Col.all.all fun c => arrayEq (C.cat.tab.col c) (D.cat.tab.col c)) && arrayEq C.cat.tab.w D.cat.tab.w &&
    arrayEq C.cat.tab.wpos D.cat.tab.wpos && decide (C.patch = D.patch)

/-- A catalogue of a file that is not loaded: `load num isRand patch` is what loading it gives. -/
structure Unloaded (A : Type) where
  load : ℕ → Bool → Option ℤ → A
  num : ℕ
  isRand : Bool
  single : Option ℤ

/-- `eval(repr(cat))` of a catalogue that is not loaded, /repo/treecorr/catalog.py:3184-3188: the name of the file and the configuration. -/
def Unloaded.evalRepr {A : Type} (U : Unloaded A) : Unloaded A := ⟨U.load, 0, false, none⟩

/-- What it gives when it is loaded. -/
def Unloaded.loaded {A : Type} (U : Unloaded A) : A := U.load U.num U.isRand U.single

end Catalog
end TreeCorr
