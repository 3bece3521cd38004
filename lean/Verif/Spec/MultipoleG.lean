import Verif.Model.MultipoleG
import Verif.Spec.Multipole

/-! Specification vocabulary for the multipoles of the natural components of the shear three-point function. -/

namespace TreeCorr
open Classical ComplexConjugate
noncomputable section
variable {P : Type}

/-- The natural component `Γ_μ` of three shears: their product, with the conjugate of shear `μ` if `μ` is 1, 2 or 3. -/
def natural (μ : Fin 4) (g1 g2 g3 : ℂ) : ℂ :=
  match μ with
  | 0 => g1 * g2 * g3
  | 1 => conj g1 * g2 * g3
  | 2 => g1 * conj g2 * g3
  | 3 => g1 * g2 * conj g3

/-- The array `gam_μ`. -/
def GVals.gam (v : GVals) (μ : Fin 4) : ℤ → ℂ :=
  match μ with
  | 0 => v.gam0
  | 1 => v.gam1
  | 2 => v.gam2
  | 3 => v.gam3

/-- The three weighted shears of a triangle in the "x" projection: shears 2 and 3 are turned to the direction of the lines from point 1
(`fac`), and shear 1 to the mean of these two directions, whose angle is half the sum: `e^{-i(φ2+φ3)}` for a spin-2 quantity.
`sh` is `w g` of a row, `ph x y` is `e^{iφ}` for the direction from `x` to `y`. -/
def natX (ph fac : P → P → ℂ) (sh : Obj P → ℂ) (μ : Fin 4) (q : Obj P × Obj P × Obj P) : ℂ :=
  natural μ (sh q.1 * conj (ph q.1.pos q.2.1.pos * ph q.1.pos q.2.2.pos)) (sh q.2.1 * fac q.1.pos q.2.1.pos)
    (sh q.2.2 * fac q.1.pos q.2.2.pos)

/-- The sum of a quantity of the triangles with the phase `e^{in(φ3-φ2)}`. -/
def phaseSum (ph : P → P → ℂ) (n : ℤ) (F : Obj P × Obj P × Obj P → ℂ) (m : Multiset (Obj P × Obj P × Obj P)) : ℂ :=
  (m.map fun q => F q * (ph q.1.pos q.2.2.pos / ph q.1.pos q.2.1.pos) ^ n).sum

/-- `gam0 … gam3` of index `n` are the sums of the natural components, projected as `F μ` says, with the phase of index `n`. -/
def MpGam [PseudoMetricSpace P] (p : Params) (ph : P → P → ℂ) (F : Fin 4 → Obj P × Obj P × Obj P → ℂ) (n : ℤ)
    (T : Multiset (Obj P × Obj P × Obj P)) (out : List (ℤ × ℤ × GVals)) : Prop :=
  ∀ k2 k3, p.hasBin k2 → p.hasBin k3 → ∀ μ : Fin 4,
    mpTotal (fun v => v.gam μ n) out k2 k3 = phaseSum ph n (F μ) (T.filter (InSides p k2 k3))

/-- The direction and the factor of the projection, from rows of `l1` to rows of `l2`: of modulus one for rows that are apart, and the
same for points at the same place. -/
structure IsProj [PseudoMetricSpace P] (ph fac : P → P → ℂ) (l1 l2 : List (Obj P)) : Prop where
  phase : IsPhase ph l1 l2
  unit : ∀ o1 ∈ l1, ∀ o2 ∈ l2, dist o1.pos o2.pos ≠ 0 → Complex.normSq (fac o1.pos o2.pos) = 1
  same : SamePhase fac

/-- The shear of a cell all of whose rows are at one place is the sum of the shears of the rows. -/
def SumsShear [PseudoMetricSpace P] (sh : Obj P → ℂ) (wg : Cell P → ℂ) : Prop :=
  ∀ c : Cell P, (∀ o ∈ c.objs, dist c.pos o.pos = 0) → wg c = (c.objs.map sh).sum

/-- The arrays other than `gam0 … gam3`. -/
def baseOut (out : List (ℤ × ℤ × GVals)) : List (ℤ × ℤ × MpVals) := out.map fun x => (x.1, x.2.1, x.2.2.base)

end
end TreeCorr
