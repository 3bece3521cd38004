import Verif.Model.Parallel3
import Verif.Model.Patch3
import Verif.Spec.MultipoleG

/-! What the arrays of a `LogMultipole` object should hold, for a multiset `T` of triples of rows. -/

namespace TreeCorr
open Classical
noncomputable section
variable {P : Type} [PseudoMetricSpace P]

/-- Counts and scalars: `ntri`; `weight` and `zeta` for the multipoles in `N`; if `m`, the sums for the mean sides and the mean logarithm
of the second; if `m3`, those for the mean logarithm of the third. -/
structure MpArrays (p : Params) (ph : P → P → ℂ) (N : ℤ → Prop) (m m3 : Prop) (T : Multiset (Obj P × Obj P × Obj P))
    (a : MpArr MpVals) : Prop where
  ntri : ∀ k2 k3, p.hasBin k2 → p.hasBin k3 → (a k2 k3).ntri = brute3N (T.filter (InSides p k2 k3))
  weight : ∀ n, N n → ∀ k2 k3, p.hasBin k2 → p.hasBin k3 → (a k2 k3).weight n = phaseW ph n (T.filter (InSides p k2 k3))
  zeta : ∀ n, N n → ∀ k2 k3, p.hasBin k2 → p.hasBin k3 → (a k2 k3).zeta n = phaseZ ph n (T.filter (InSides p k2 k3))
  meand2 : m → ∀ k2 k3, p.hasBin k2 → p.hasBin k3 → (a k2 k3).meand2 = brute3 side2 (T.filter (InSides p k2 k3))
  meanlogd2 : m → ∀ k2 k3, p.hasBin k2 → p.hasBin k3 →
    (a k2 k3).meanlogd2 = brute3 (fun q => Real.log (side2 q)) (T.filter (InSides p k2 k3))
  meand3 : m → ∀ k2 k3, p.hasBin k2 → p.hasBin k3 → (a k2 k3).meand3 = brute3 side3 (T.filter (InSides p k2 k3))
  meanlogd3 : m3 → ∀ k2 k3, p.hasBin k2 → p.hasBin k3 →
    (a k2 k3).meanlogd3 = brute3 (fun q => Real.log (side3 q)) (T.filter (InSides p k2 k3))

/-- Shears: counts, weights and sums of the sides, and `gam0 … gam3` for the multipoles in `N`, for the projected natural components
`F`.  (`base.zeta` is what a scalar object would hold.) -/
structure GArrays (p : Params) (ph : P → P → ℂ) (F : Fin 4 → Obj P × Obj P × Obj P → ℂ) (N : ℤ → Prop) (m3 : Prop)
    (T : Multiset (Obj P × Obj P × Obj P)) (a : MpArr GVals) : Prop where
  base : MpArrays p ph N True m3 T fun k2 k3 => (a k2 k3).base
  gam : ∀ n, N n → ∀ k2 k3, p.hasBin k2 → p.hasBin k3 → ∀ μ, (a k2 k3).gam μ n = phaseSum ph n (F μ) (T.filter (InSides p k2 k3))

/-- Both the arrays of an object and the sums of the arrays stored for its patches have a property. -/
structure Whole {V : Type} [AddCommMonoid V] (Q : V → Prop) (R : TriCorr V) : Prop where
  self : Q R.self.acc
  results : Q (R.results.map fun x => x.2.acc).sum

theorem Whole.imp {V : Type} [AddCommMonoid V] {Q Q' : V → Prop} {R : TriCorr V} (h : Whole Q R) (hi : ∀ a, Q a → Q' a) : Whole Q' R :=
  ⟨hi _ h.self, hi _ h.results⟩

end
end TreeCorr
