import Mathlib.Analysis.SpecialFunctions.Exp
import Mathlib.Topology.MetricSpace.Pseudo.Defs
import Verif.Model.Cell
import Verif.Spec.Pairs

/-! Brute-force definition of a two-point correlation: sums over the pairs of rows whose separation lies in
a bin.  Uses only the row type of the model. -/

namespace TreeCorr
open Classical
noncomputable section
variable {P : Type}

/-- Left edge of logarithmic bin `k`: `min_sep * exp(k * bin_size)`. -/
def logEdge (minsep binsize : ℝ) (k : ℤ) : ℝ := minsep * Real.exp (k * binsize)

/-- The separation `d` belongs to logarithmic bin `k` of `nbins` bins. -/
def InLogBin (minsep binsize : ℝ) (nbins k : ℤ) (d : ℝ) : Prop :=
  0 ≤ k ∧ k < nbins ∧ logEdge minsep binsize k ≤ d ∧ d < logEdge minsep binsize (k + 1)

/-- Left edge of linear bin `k`. -/
def linEdge (minsep binsize : ℝ) (k : ℤ) : ℝ := minsep + k * binsize

/-- The separation `d` belongs to linear bin `k` of `nbins` bins. -/
def InLinBin (minsep binsize : ℝ) (nbins k : ℤ) (d : ℝ) : Prop :=
  0 ≤ k ∧ k < nbins ∧ linEdge minsep binsize k ≤ d ∧ d < linEdge minsep binsize (k + 1)

/-- The pairs of rows from `pairs` whose separation satisfies `inBin`. -/
def pairsIn [PseudoMetricSpace P] (pairs : Multiset (Obj P × Obj P)) (inBin : ℝ → Prop) :
    Multiset (Obj P × Obj P) :=
  pairs.filter (fun q => inBin (dist q.1.pos q.2.pos))

/-- Number of pairs. -/
def bruteN (pairs : Multiset (Obj P × Obj P)) : ℝ := (Multiset.card pairs : ℝ)
/-- Sum of `w1*w2`. -/
def bruteW (pairs : Multiset (Obj P × Obj P)) : ℝ := (pairs.map (fun q => q.1.w * q.2.w)).sum
/-- Sum of `w1*(w2*k2)`. -/
def bruteNK (pairs : Multiset (Obj P × Obj P)) : ℝ := (pairs.map (fun q => q.1.w * q.2.wk)).sum
/-- Sum of `(w1*k1)*(w2*k2)`. -/
def bruteKK (pairs : Multiset (Obj P × Obj P)) : ℝ := (pairs.map (fun q => q.1.wk * q.2.wk)).sum

end
end TreeCorr
