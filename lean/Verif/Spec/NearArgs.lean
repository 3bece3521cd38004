import Verif.Model.NearArgs

/-!
The documented ways to give a position and a separation (the docstring of `parse_xyzsep`, and those of `count_near`, `get_near`).
-/

namespace TreeCorr
namespace NearArgs

/-- An angle: a `coord.Angle`, or a number with a unit. -/
inductive Ang where
  | angle (a : ℝ)
  | units (x u : ℝ)

/-- Its value in radians. -/
def Ang.rad : Ang → ℝ
  | .angle a => a
  | .units x u => x * u

/-- What is given for it. -/
def Ang.arg : Ang → Arg
  | .angle a => .angle a
  | .units x _ => .num x

/-- What is given as its unit. -/
def Ang.unit : Ang → Option (Option ℝ)
  | .angle _ => none
  | .units _ u => some (some u)

/-- A declination. -/
def IsDec (d : ℝ) : Prop := -(Real.pi / 2) ≤ d ∧ d ≤ Real.pi / 2

/-- The point at `ra`, `dec` and distance `r`, with separation `s`. -/
noncomputable def skyPoint (ra dec r s : ℝ) : ℝ × ℝ × ℝ × ℝ :=
  (Real.cos dec * Real.cos ra * r, Real.cos dec * Real.sin ra * r, Real.sin dec * r, s)

/-- The chord of an angle. -/
noncomputable def chord (s : ℝ) : ℝ := 2 * Real.sin (s / 2)

/-- The documented calls on the sphere, with the right ascension, the declination and the separation they name. -/
inductive OnSky : List Arg → Kw → Ang → Ang → Ang → Prop
  | all (a d s : Ang) : OnSky [a.arg, d.arg, s.arg] { raU := a.unit, decU := d.unit, sepU := s.unit } a d s
  | radec (a d s : Ang) : OnSky [a.arg, d.arg] { sep := some s.arg, raU := a.unit, decU := d.unit, sepU := s.unit } a d s
  | named (a d s : Ang) :
    OnSky [] { ra := some a.arg, dec := some d.arg, sep := some s.arg, raU := a.unit, decU := d.unit, sepU := s.unit } a d s
  | coordAll (a d : ℝ) (s : Ang) : OnSky [.coord a d, s.arg] { sepU := s.unit } (.angle a) (.angle d) s
  | coord (a d : ℝ) (s : Ang) : OnSky [.coord a d] { sep := some s.arg, sepU := s.unit } (.angle a) (.angle d) s

/-- The documented calls, and what they mean.  Numbers may be given in order or by name, but not a part of a position; angles may be given
with units; `CelestialCoord` stands for `ra` and `dec`. -/
inductive Call : Coords → List Arg → Kw → ℝ × ℝ × ℝ × ℝ → Prop
  | flat3 (x y s : ℝ) : Call .flat [.num x, .num y, .num s] {} (x, y, 0, s)
  | flat2 (x y s : ℝ) : Call .flat [.num x, .num y] { sep := some (.num s) } (x, y, 0, s)
  | flat0 (x y s : ℝ) : Call .flat [] { x := some (.num x), y := some (.num y), sep := some (.num s) } (x, y, 0, s)
  | xyz4 (x y z s : ℝ) : Call .threeD [.num x, .num y, .num z, .num s] {} (x, y, z, s)
  | xyz3 (x y z s : ℝ) : Call .threeD [.num x, .num y, .num z] { sep := some (.num s) } (x, y, z, s)
  | xyz0 (x y z s : ℝ) :
    Call .threeD [] { x := some (.num x), y := some (.num y), z := some (.num z), sep := some (.num s) } (x, y, z, s)
  | radec4 (a d : Ang) (r s : ℝ) (h : IsDec d.rad) :
    Call .threeD [a.arg, d.arg, .num r, .num s] { raU := a.unit, decU := d.unit } (skyPoint a.rad d.rad r s)
  | radec3 (a d : Ang) (r s : ℝ) (h : IsDec d.rad) :
    Call .threeD [a.arg, d.arg, .num r] { sep := some (.num s), raU := a.unit, decU := d.unit } (skyPoint a.rad d.rad r s)
  | radec2 (a d : Ang) (r s : ℝ) (h : IsDec d.rad) :
    Call .threeD [a.arg, d.arg] { r := some (.num r), sep := some (.num s), raU := a.unit, decU := d.unit } (skyPoint a.rad d.rad r s)
  | radec0 (a d : Ang) (r s : ℝ) (h : IsDec d.rad) :
    Call .threeD [] { ra := some a.arg, dec := some d.arg, r := some (.num r), sep := some (.num s), raU := a.unit, decU := d.unit }
      (skyPoint a.rad d.rad r s)
  | coord3 (a d r s : ℝ) (h : IsDec d) : Call .threeD [.coord a d, .num r, .num s] {} (skyPoint a d r s)
  | coord2 (a d r s : ℝ) (h : IsDec d) : Call .threeD [.coord a d, .num r] { sep := some (.num s) } (skyPoint a d r s)
  | coord1 (a d r s : ℝ) (h : IsDec d) : Call .threeD [.coord a d] { r := some (.num r), sep := some (.num s) } (skyPoint a d r s)
  | sky (args : List Arg) (k : Kw) (a d s : Ang) (h : OnSky args k a d s) (hd : IsDec d.rad) :
    Call .sphere args k (skyPoint a.rad d.rad 1 (chord s.rad))

end NearArgs
end TreeCorr
