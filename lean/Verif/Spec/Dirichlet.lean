import Verif.Spec.TriangleAngle
import Mathlib.Data.Int.Interval

/-! The sum over triangles that a finite number of multipoles can give: each triangle is spread over all angles by the Dirichlet kernel. -/

namespace TreeCorr
noncomputable section

/-- `Σ_{|n| ≤ N} cos (n x)`. -/
def dirichlet (N : ℕ) (x : ℝ) : ℝ := ∑ n ∈ Finset.Icc (-(N : ℤ)) N, Real.cos (n * x)

/-- The sum of `f` over the triangles, each times the kernel at the difference of `x` and its angle at point 1 from point 3 to point 2. -/
def spreadSum {P : Type} (f : Obj P × Obj P × Obj P → ℝ) (N : ℕ) (φ : P → P → P → ℝ) (m : Multiset (Obj P × Obj P × Obj P)) (x : ℝ) : ℝ :=
  (m.map fun q => f q * dirichlet N (x - φ q.1.pos q.2.2.pos q.2.1.pos)).sum

/-- The complex sum over the triangles, each times the kernel at the difference of `x` and its angle at point 1 from point 3 to point 2. -/
def spreadSumC {P : Type} (f : Obj P × Obj P × Obj P → ℂ) (N : ℕ) (φ : P → P → P → ℝ) (m : Multiset (Obj P × Obj P × Obj P)) (x : ℝ) : ℂ :=
  (m.map fun q => f q * (dirichlet N (x - φ q.1.pos q.2.2.pos q.2.1.pos) : ℂ)).sum

/-- The angle from `b` to `c` is the opposite of that from `c` to `b`, up to a turn. -/
def Opposite {P : Type} (φ : P → P → P → ℝ) (a b c : P) : Prop :=
  Complex.exp (φ a c b * Complex.I) * Complex.exp (φ a b c * Complex.I) = 1

end
end TreeCorr
