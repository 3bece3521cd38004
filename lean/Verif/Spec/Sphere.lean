import Mathlib.Analysis.Complex.Basic
import Mathlib.Analysis.InnerProductSpace.PiL2
import Mathlib.LinearAlgebra.Matrix.NonsingularInverse
import Mathlib.LinearAlgebra.UnitaryGroup

/-! Directions on the unit sphere.  Spin values are given in the axes west, north (docs/shear.rst:40-95). -/

namespace TreeCorr
open Classical ComplexConjugate
noncomputable section

abbrev Space := EuclideanSpace ℝ (Fin 3)

/-- The point of the sphere is a unit vector. -/
def OnSphere (p : Space) : Prop := ‖p‖ = 1

/-- A vector pointing west at `p`; its length is `cos dec`. -/
def west (p : Space) : Space := !₂[p 1, -p 0, 0]

/-- A vector pointing north at `p`, orthogonal to `p`; its length is `cos dec`. -/
def north (p : Space) : Space := EuclideanSpace.single 2 1 - p 2 • p

/-- `cos dec` is not zero: west and north are defined. -/
def OffPole (p : Space) : Prop := p 0 ≠ 0 ∨ p 1 ≠ 0

/-- A tangent vector at `p` in the axes west, north, up to the factor `cos dec`. -/
def components (p v : Space) : ℂ := ⟨inner ℝ v (west p), inner ℝ v (north p)⟩

/-- The tangent at `p2` of the great circle from `p1`, pointing away from `p1`: the part of `p2 - p1` orthogonal to `p2`. -/
def away (p1 p2 : Space) : Space := (p2 - p1) - inner ℝ (p2 - p1) p2 • p2

/-- The direction of a complex number. -/
def unitOf (z : ℂ) : ℂ := z / (‖z‖ : ℂ)

/-- Parallel transport of a spin-`s` value from `p` to `c` along the great circle: the tangent towards `c` at `p` becomes the tangent away from
`p` at `c`, and spin-`s` values turn `s` times as fast. -/
def trueTransport (s : ℕ) (c p : Space) : ℂ := (unitOf (components c (away p c)) / unitOf (components p (-away c p))) ^ s

/-- A rotation of space. -/
def rot (R : Matrix (Fin 3) (Fin 3) ℝ) (v : Space) : Space := WithLp.toLp 2 (R.mulVec (WithLp.ofLp v))

/-- `R` is a rotation. -/
def IsRotation (R : Matrix (Fin 3) (Fin 3) ℝ) : Prop := R.transpose * R = 1 ∧ R.det = 1

/-- The direction, in the axes at the image of `p`, of the image of west at `p`: the angle by which the axes are turned. -/
def frameTurn (R : Matrix (Fin 3) (Fin 3) ℝ) (p : Space) : ℂ := unitOf (components (rot R p) (rot R (west p)))

end
end TreeCorr
