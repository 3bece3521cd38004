import Verif.Spec.MpSlop
import Verif.Spec.MultipoleG

/-! Specification vocabulary for the multipoles of shear with slop. -/

namespace TreeCorr
open Classical ComplexConjugate
noncomputable section
variable {P : Type}

/-- The natural component `μ` of the three weighted shears of a triangle, in the "x" projection for the directions in which points 2
and 3 are seen. -/
def seenX (ph fac : P → P → ℂ) (sh : Obj P → ℂ) (μ : Fin 4) (q : Obj P × Seen P × Seen P) : ℂ :=
  natural μ (sh q.1 * conj (ph q.2.1.eye q.2.1.spot * ph q.2.2.eye q.2.2.spot)) (sh q.2.1.row * fac q.2.1.eye q.2.1.spot)
    (sh q.2.2.row * fac q.2.2.eye q.2.2.spot)

/-- `gam0 … gam3` of index `n` are the sums of the natural components with the phase of index `n`. -/
def SeenGam [PseudoMetricSpace P] (p : Params) (ph fac : P → P → ℂ) (sh : Obj P → ℂ) (n : ℤ) (T : Multiset (Obj P × Seen P × Seen P))
    (out : List (ℤ × ℤ × GVals)) : Prop :=
  ∀ k2 k3, p.hasBin k2 → p.hasBin k3 → ∀ μ : Fin 4,
    mpTotal (fun v => v.gam μ n) out k2 k3 = ((T.filter (SeenIn p k2 k3)).map fun q =>
      seenX ph fac sh μ q * (ph q.2.2.eye q.2.2.spot / ph q.2.1.eye q.2.1.spot) ^ n).sum

/-- The shear of a cell is the sum of the shears of its rows. -/
def AddsShear (sh : Obj P → ℂ) (wg : Cell P → ℂ) : Prop := ∀ c : Cell P, wg c = (c.objs.map sh).sum

end
end TreeCorr
