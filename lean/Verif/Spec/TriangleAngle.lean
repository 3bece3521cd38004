import Verif.Spec.Brute
import Mathlib.Analysis.InnerProductSpace.PiL2
import Mathlib.Analysis.SpecialFunctions.Complex.Arg

/-! The angle of a triangle at its first point, in the plane and on the sphere, and sums over triangles with `e^{inφ}`. -/

namespace TreeCorr
noncomputable section

/-- The angle at `p1` from `p2` to `p3`, counter-clockwise. -/
def planeAngle (p1 p2 p3 : EuclideanSpace ℝ (Fin 2)) : ℝ :=
  Complex.arg ((⟨p3 0 - p1 0, p3 1 - p1 1⟩ : ℂ) / (⟨p2 0 - p1 0, p2 1 - p1 1⟩ : ℂ))

/-- The triple product. -/
def det3 (p1 p2 p3 : EuclideanSpace ℝ (Fin 3)) : ℝ :=
  p1 0 * (p2 1 * p3 2 - p2 2 * p3 1) + p1 1 * (p2 2 * p3 0 - p2 0 * p3 2) + p1 2 * (p2 0 * p3 1 - p2 1 * p3 0)

/-- The angle of the spherical triangle at `p1` from `p2` to `p3`, counter-clockwise as seen from inside: with the tangents
`ti = pi - (p1·pi) p1` its cosine is proportional to `t2·t3` and its sine to `-p1·(t2×t3)`. -/
def skyAngle (p1 p2 p3 : EuclideanSpace ℝ (Fin 3)) : ℝ :=
  Complex.arg ⟨inner ℝ p2 p3 - inner ℝ p1 p2 * inner ℝ p1 p3, -det3 p1 p2 p3⟩

/-- The sum of `w1 w2 w3 e^{inφ}`, `φ` the angle at the first point. -/
def angleW {P : Type} (φ : P → P → P → ℝ) (n : ℤ) (m : Multiset (Obj P × Obj P × Obj P)) : ℂ :=
  (m.map fun q => ((q.1.w * q.2.1.w * q.2.2.w : ℝ) : ℂ) * Complex.exp (n * φ q.1.pos q.2.1.pos q.2.2.pos * Complex.I)).sum

/-- The sum of `w1 k1 w2 k2 w3 k3 e^{inφ}`. -/
def angleZ {P : Type} (φ : P → P → P → ℝ) (n : ℤ) (m : Multiset (Obj P × Obj P × Obj P)) : ℂ :=
  (m.map fun q => ((q.1.wk * q.2.1.wk * q.2.2.wk : ℝ) : ℂ) * Complex.exp (n * φ q.1.pos q.2.1.pos q.2.2.pos * Complex.I)).sum

end
end TreeCorr
