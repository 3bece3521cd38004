import Mathlib.Analysis.SpecialFunctions.Trigonometric.Basic
import Verif.Model.Binning

/-!
Model of `parse_xyzsep` (/repo/treecorr/util.py:372-586): the arguments of `count_near` and `get_near`.

The package `coord` is not in the repository; it is taken to do what it documents: an Angle is a number of radians, a number times a
unit is an Angle, `CelestialCoord(ra, dec)` is a ValueError unless `dec` is between -90 and 90 degrees, and what is neither a number
nor an Angle where one is needed is a TypeError.
-/

namespace TreeCorr
namespace NearArgs

/-- `_coords` -/
inductive Coords where
  | flat | threeD | sphere

/-- What may be given: a number, a `coord.Angle` (in radians), a `coord.CelestialCoord` (`ra`, `dec` in radians). -/
inductive Arg where
  | num (x : ℝ)
  | angle (a : ℝ)
  | coord (ra dec : ℝ)

/-- The keyword arguments.  Units are names; `some none` is a name that is no unit, `some (some u)` a unit of `u` radians.  `other`: some
other keyword is given. -/
structure Kw where
  x : Option Arg := none
  y : Option Arg := none
  z : Option Arg := none
  ra : Option Arg := none
  dec : Option Arg := none
  r : Option Arg := none
  sep : Option Arg := none
  raU : Option (Option ℝ) := none
  decU : Option (Option ℝ) := none
  sepU : Option (Option ℝ) := none
  other : Bool := false

/-- `len(kwargs) > 0` -/
def Kw.left (k : Kw) : Bool :=
  k.x.isSome || k.y.isSome || k.z.isSome || k.ra.isSome || k.dec.isSome || k.r.isSome || k.sep.isSome || k.raU.isSome || k.decU.isSome ||
    k.sepU.isSome || k.other

/-- The position as given, before units. -/
inductive Loc where
  | xyz (x y z : Arg)
  | sky (ra dec : Arg) (r : Option Arg)

/-- `if k not in kwargs: raise TypeError` and `kwargs.pop(k)`. -/
def need {α : Type} (o : Option α) : Except PyErr α :=
  match o with
  | some a => .ok a
  | none => .error .typeError

/-- `isinstance(a, coord.Angle)` -/
def Arg.isAngle : Arg → Bool
  | .angle _ => true
  | _ => false

/-- /repo/treecorr/util.py:412-433 -/
def locFlat (args : List Arg) (k : Kw) : Except PyErr (Loc × Arg × Kw) :=
  match args with
  | [] => do
    let x ← need k.x
    let y ← need k.y
    let s ← need k.sep
    .ok (.xyz x y (.num 0), s, { k with x := none, y := none, sep := none })
  | [_] => .error .typeError
  | [x, y] => do
    let s ← need k.sep
    .ok (.xyz x y (.num 0), s, { k with sep := none })
  | [x, y, s] => .ok (.xyz x y (.num 0), s, k)
  | _ => .error .typeError

/-- /repo/treecorr/util.py:435-523 -/
def loc3 (args : List Arg) (k : Kw) : Except PyErr (Loc × Arg × Kw) :=
  match args with
  | [] =>
    match k.x with
    | some x => do
      let y ← need k.y
      let z ← need k.z
      let s ← need k.sep
      .ok (.xyz x y z, s, { k with x := none, y := none, z := none, sep := none })
    | none => do
      let ra ← need k.ra
      let dec ← need k.dec
      let r ← need k.r
      let s ← need k.sep
      .ok (.sky ra dec (some r), s, { k with ra := none, dec := none, r := none, sep := none })
  | [.coord a d] => do
    let r ← need k.r
    let s ← need k.sep
    .ok (.sky (.angle a) (.angle d) (some r), s, { k with r := none, sep := none })
  | [_] => .error .typeError
  | [.coord a d, r] => do
    let s ← need k.sep
    .ok (.sky (.angle a) (.angle d) (some r), s, { k with sep := none })
  | [ra, dec] => do
    let r ← need k.r
    let s ← need k.sep
    .ok (.sky ra dec (some r), s, { k with r := none, sep := none })
  | [.coord a d, r, s] => .ok (.sky (.angle a) (.angle d) (some r), s, k)
  | [a, b, c] => do
    let s ← need k.sep
    if a.isAngle || (k.raU.isSome || k.decU.isSome) then .ok (.sky a b (some c), s, { k with sep := none })
    else .ok (.xyz a b c, s, { k with sep := none })
  | [a, b, c, s] =>
    if a.isAngle || (k.raU.isSome || k.decU.isSome) then .ok (.sky a b (some c), s, k)
    else .ok (.xyz a b c, s, k)
  | _ => .error .typeError

/-- /repo/treecorr/util.py:526-562 -/
def locSphere (args : List Arg) (k : Kw) : Except PyErr (Loc × Arg × Kw) :=
  match args with
  | [] => do
    let ra ← need k.ra
    let dec ← need k.dec
    let s ← need k.sep
    .ok (.sky ra dec none, s, { k with ra := none, dec := none, sep := none })
  | [.coord a d] => do
    let s ← need k.sep
    .ok (.sky (.angle a) (.angle d) none, s, { k with sep := none })
  | [_] => .error .typeError
  | [.coord a d, s] => .ok (.sky (.angle a) (.angle d) none, s, k)
  | [ra, dec] => do
    let s ← need k.sep
    .ok (.sky ra dec none, s, { k with sep := none })
  | [ra, dec, s] => .ok (.sky ra dec none, s, k)
  | _ => .error .typeError

/-- `if not isinstance(a, coord.Angle): a = a * coord.AngleUnit.from_name(kwargs.pop(…))`: the angle in radians and what is left of the
keyword. -/
def toAngle (a : Arg) (u : Option (Option ℝ)) : Except PyErr (ℝ × Option (Option ℝ)) :=
  match a with
  | .angle a => .ok (a, u)
  | a =>
    match u with
    | none => .error .typeError
    | some none => .error .valueError
    | some (some u) =>
      match a with
      | .num x => .ok (x * u, none)
      | _ => .error .typeError

/-- `float` -/
def toNum : Arg → Except PyErr ℝ
  | .num x => .ok x
  | _ => .error .typeError

/-- `CelestialCoord(ra, dec).get_xyz()` -/
noncomputable def celestial (ra dec : ℝ) : Except PyErr (ℝ × ℝ × ℝ) :=
  if -(Real.pi / 2) ≤ dec ∧ dec ≤ Real.pi / 2 then .ok (Real.cos dec * Real.cos ra, Real.cos dec * Real.sin ra, Real.sin dec)
  else .error .valueError

/-- On the sphere the separation becomes a chord, /repo/treecorr/util.py:563-568. -/
noncomputable def sepOf (c : Coords) (s : Arg) (k : Kw) : Except PyErr (Arg × Kw) :=
  match c with
  | .sphere => do
    let (a, u) ← toAngle s k.sepU
    .ok (.num (2 * Real.sin (a / 2)), { k with sepU := u })
  | _ => .ok (s, k)

/-- The position, /repo/treecorr/util.py:570-583. -/
noncomputable def position (l : Loc) (k : Kw) : Except PyErr ((Arg × Arg × Arg) × Kw) :=
  match l with
  | .xyz x y z => .ok ((x, y, z), k)
  | .sky ra dec r => do
    let (a, u) ← toAngle ra k.raU
    let (d, v) ← toAngle dec k.decU
    let (x, y, z) ← celestial a d
    match r with
    | none => .ok ((.num x, .num y, .num z), { k with raU := u, decU := v })
    | some r => do
      let r ← toNum r
      .ok ((.num (x * r), .num (y * r), .num (z * r)), { k with raU := u, decU := v })

/-- Which arguments are the position and which the separation, and the keywords left, /repo/treecorr/util.py:411-562. -/
def locate (c : Coords) (args : List Arg) (k : Kw) : Except PyErr (Loc × Arg × Kw) :=
  match c with
  | .flat => locFlat args k
  | .threeD => loc3 args k
  | .sphere => locSphere args k

/-- Their values, /repo/treecorr/util.py:563-586: any keyword still left is a TypeError. -/
noncomputable def finish (c : Coords) (l : Loc) (s : Arg) (k : Kw) : Except PyErr (ℝ × ℝ × ℝ × ℝ) := do
  let (s, k) ← sepOf c s k
  let ((x, y, z), k) ← position l k
  if k.left then .error .typeError
  else do
    let x ← toNum x
    let y ← toNum y
    let z ← toNum z
    let s ← toNum s
    .ok (x, y, z, s)

/-- `parse_xyzsep`, /repo/treecorr/util.py:372-586. -/
noncomputable def parse (c : Coords) (args : List Arg) (k : Kw) : Except PyErr (ℝ × ℝ × ℝ × ℝ) := do
  let (l, s, k) ← locate c args k
  finish c l s k

end NearArgs
end TreeCorr
