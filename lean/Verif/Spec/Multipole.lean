import Verif.Model.Multipole
import Verif.Spec.Brute
import Verif.Spec.Triangles
import Mathlib.Data.Complex.Basic

/-! Specification vocabulary for the multipole expansion of the three-point function: sums over triangles `(1,2,3)` whose sides from
point 1 are in two given logarithmic bins, each with the phase `(e^{iφ3} / e^{iφ2})^n`. -/

namespace TreeCorr
open Classical
noncomputable section
variable {P : Type}

/-- The triangle belongs to entry `[k2,k3]`: `d2`, from point 1 to point 3, is in bin `k2`, and `d3`, from point 1 to point 2, in bin
`k3`. -/
def InSides [PseudoMetricSpace P] (p : Params) (k2 k3 : ℤ) (q : Obj P × Obj P × Obj P) : Prop :=
  InLogBin p.minsep p.binsize p.nbins k2 (side2 q) ∧ InLogBin p.minsep p.binsize p.nbins k3 (side3 q)

/-- The sum of `w1 w2 w3 e^{in(φ3-φ2)}`, where `ph x y` is `e^{iφ}` for the direction from `x` to `y`. -/
def phaseW (ph : P → P → ℂ) (n : ℤ) (m : Multiset (Obj P × Obj P × Obj P)) : ℂ :=
  (m.map fun q => ((q.1.w * q.2.1.w * q.2.2.w : ℝ) : ℂ) * (ph q.1.pos q.2.2.pos / ph q.1.pos q.2.1.pos) ^ n).sum

/-- The sum of `w1 k1 w2 k2 w3 k3 e^{in(φ3-φ2)}`. -/
def phaseZ (ph : P → P → ℂ) (n : ℤ) (m : Multiset (Obj P × Obj P × Obj P)) : ℂ :=
  (m.map fun q => ((q.1.wk * q.2.1.wk * q.2.2.wk : ℝ) : ℂ) * (ph q.1.pos q.2.2.pos / ph q.1.pos q.2.1.pos) ^ n).sum

/-- No two rows of the catalogue are at the same place. -/
def Apart [PseudoMetricSpace P] (l : List (Obj P)) : Prop := l.Pairwise fun a b => dist a.pos b.pos ≠ 0

/-- `ph` gives the same for points at the same place. -/
def SamePhase [PseudoMetricSpace P] (ph : P → P → ℂ) : Prop :=
  ∀ x x' y y', dist x x' = 0 → dist y y' = 0 → ph x y = ph x' y'

/-- `ph` is a direction from the rows of `l1` to those of `l2`: of modulus one for rows that are apart, and the same for points at the
same place. -/
structure IsPhase [PseudoMetricSpace P] (ph : P → P → ℂ) (l1 l2 : List (Obj P)) : Prop where
  unit : ∀ o1 ∈ l1, ∀ o2 ∈ l2, dist o1.pos o2.pos ≠ 0 → Complex.normSq (ph o1.pos o2.pos) = 1
  same : SamePhase ph

/-! What the output arrays should hold, for a multiset `T` of triples of rows.  Entries `[k2,k3]` outside the arrays are of no
interest. -/

/-- The bin is one of the `nbins` bins. -/
def Params.hasBin (p : Params) (k : ℤ) : Prop := 0 ≤ k ∧ k < p.nbins

/-- `ntri` is the number of triangles. -/
def MpCounts [PseudoMetricSpace P] (p : Params) (T : Multiset (Obj P × Obj P × Obj P)) (out : List (ℤ × ℤ × MpVals)) : Prop :=
  ∀ k2 k3, p.hasBin k2 → p.hasBin k3 → mpTotal MpVals.ntri out k2 k3 = brute3N (T.filter (InSides p k2 k3))

/-- `weight` and `zeta` of index `n` are the sums with the phase of index `n`. -/
def MpPhases [PseudoMetricSpace P] (p : Params) (ph : P → P → ℂ) (n : ℤ) (T : Multiset (Obj P × Obj P × Obj P))
    (out : List (ℤ × ℤ × MpVals)) : Prop :=
  ∀ k2 k3, p.hasBin k2 → p.hasBin k3 →
    mpTotal (fun v => v.weight n) out k2 k3 = phaseW ph n (T.filter (InSides p k2 k3)) ∧
    mpTotal (fun v => v.zeta n) out k2 k3 = phaseZ ph n (T.filter (InSides p k2 k3))

/-- `meand2`, `meanlogd2` and `meand3` are the weighted sums of the sides and of the logarithm. -/
def MpMeans [PseudoMetricSpace P] (p : Params) (T : Multiset (Obj P × Obj P × Obj P)) (out : List (ℤ × ℤ × MpVals)) : Prop :=
  ∀ k2 k3, p.hasBin k2 → p.hasBin k3 →
    mpTotal MpVals.meand2 out k2 k3 = brute3 side2 (T.filter (InSides p k2 k3)) ∧
    mpTotal MpVals.meanlogd2 out k2 k3 = brute3 (fun q => Real.log (side2 q)) (T.filter (InSides p k2 k3)) ∧
    mpTotal MpVals.meand3 out k2 k3 = brute3 side3 (T.filter (InSides p k2 k3))

/-- `meanlogd3` is the weighted sum of the logarithm of the third side. -/
def MpLog3 [PseudoMetricSpace P] (p : Params) (T : Multiset (Obj P × Obj P × Obj P)) (out : List (ℤ × ℤ × MpVals)) : Prop :=
  ∀ k2 k3, p.hasBin k2 → p.hasBin k3 →
    mpTotal MpVals.meanlogd3 out k2 k3 = brute3 (fun q => Real.log (side3 q)) (T.filter (InSides p k2 k3))

end
end TreeCorr
