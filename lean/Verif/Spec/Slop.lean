import Verif.Model.Bin
import Verif.Spec.Brute

/-! Specification vocabulary for `bin_slop`: separations near a bin, and outside the range of the bins. -/

namespace TreeCorr

/-- The separation `d` is, after a change of at most `δ`, in Log bin `k` widened by `lo` below and `hi` above (in
log d). -/
def NearLogBin (p : Params) (lo hi δ : ℝ) (k : ℤ) (d : ℝ) : Prop :=
  0 ≤ k ∧ k < p.nbins ∧ ∃ d', |d - d'| ≤ δ ∧ 0 < d' ∧
    Real.log p.minsep + k * p.binsize - lo ≤ Real.log d' ∧
    Real.log d' < Real.log p.minsep + (k + 1) * p.binsize + hi

/-- The separation `d` is, after a change of at most `δ`, in Linear bin `k` widened by `w` on both sides. -/
def NearLinBin (p : Params) (w δ : ℝ) (k : ℤ) (d : ℝ) : Prop :=
  0 ≤ k ∧ k < p.nbins ∧ ∃ d', |d - d'| ≤ δ ∧
    linEdge p.minsep p.binsize k - w ≤ d' ∧ d' ≤ linEdge p.minsep p.binsize (k + 1) + w

/-- The separation `d` is, after a change of at most `δ`, not inside the range of Log bins narrowed by the slop. -/
def OutsideLog (p : Params) (δ : ℝ) (d : ℝ) : Prop :=
  ∃ d', |d - d'| ≤ δ ∧ (d' ≤ p.minsep * Real.exp p.b ∨ p.maxsep * Real.exp (-(p.b + p.b ^ 2)) ≤ d')

/-- The separation `d` is, after a change of at most `δ`, not inside the range of Linear bins narrowed by the
slop. -/
def OutsideLin (p : Params) (δ : ℝ) (d : ℝ) : Prop :=
  ∃ d', |d - d'| ≤ δ ∧ (d' ≤ p.minsep + p.b ∨ p.maxsep - p.b ≤ d')

end TreeCorr
