import Mathlib.Analysis.SpecialFunctions.Complex.Arg
import Mathlib.Analysis.InnerProductSpace.PiL2
import Verif.Spec.Brute

/-! Correlations of spin fields on the plane by brute force.  A row carries `z = w*g`; a spin-`s` quantity measured in axes turned by `α`
is multiplied by `exp(-i s α)`. -/

namespace TreeCorr
open Classical ComplexConjugate
noncomputable section

abbrev Plane := EuclideanSpace ℝ (Fin 2)

/-- The polar angle of the line from `p1` to `p2`. -/
def lineAngle (p1 p2 : Plane) : ℝ := Complex.arg ⟨p2 0 - p1 0, p2 1 - p1 1⟩

/-- `exp(-i s α)`. -/
def turn (s : ℕ) (α : ℝ) : ℂ := Complex.exp (-(s * α) * Complex.I)

/-- Sum of `a1 z2 exp(-i s α)`: the component of `z2` along the line to the point `1`. -/
def bruteRadial (s : ℕ) (a : Obj Plane → ℝ) (z : Obj Plane → ℂ) (pairs : Multiset (Obj Plane × Obj Plane)) : ℂ :=
  (pairs.map fun q => (a q.1 : ℂ) * (z q.2 * turn s (lineAngle q.1.pos q.2.pos))).sum

/-- Sum of `|a1| |z2|`. -/
def bruteAbs (a : Obj Plane → ℝ) (z : Obj Plane → ℂ) (pairs : Multiset (Obj Plane × Obj Plane)) : ℝ :=
  (pairs.map fun q => |a q.1| * ‖z q.2‖).sum

/-- Sum of `z1 conj(z2)`, both turned to the line between the points. -/
def bruteXip (s : ℕ) (z1 z2 : Obj Plane → ℂ) (pairs : Multiset (Obj Plane × Obj Plane)) : ℂ :=
  (pairs.map fun q => z1 q.1 * turn s (lineAngle q.1.pos q.2.pos) * conj (z2 q.2 * turn s (lineAngle q.1.pos q.2.pos))).sum

/-- Sum of `z1 z2`, both turned to the line between the points. -/
def bruteXim (s : ℕ) (z1 z2 : Obj Plane → ℂ) (pairs : Multiset (Obj Plane × Obj Plane)) : ℂ :=
  (pairs.map fun q => z1 q.1 * turn s (lineAngle q.1.pos q.2.pos) * (z2 q.2 * turn s (lineAngle q.1.pos q.2.pos))).sum

/-- Sum of `|z1| |z2|`. -/
def bruteAbs2 (z1 z2 : Obj Plane → ℂ) (pairs : Multiset (Obj Plane × Obj Plane)) : ℝ :=
  (pairs.map fun q => ‖z1 q.1‖ * ‖z2 q.2‖).sum

end
end TreeCorr
