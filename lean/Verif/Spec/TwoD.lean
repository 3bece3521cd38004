import Verif.Spec.Brute
import Mathlib.Analysis.InnerProductSpace.PiL2

/-! The pixels of two-dimensional binning. -/

namespace TreeCorr

/-- The number `u` lies in interval `i` of the intervals of width `binsize` that start at `-maxsep`. -/
def InStrip (maxsep binsize : ℝ) (i : ℤ) (u : ℝ) : Prop :=
  linEdge (-maxsep) binsize i ≤ u ∧ u < linEdge (-maxsep) binsize (i + 1)

/-- The vector `v` lies in pixel `k = j*n+i` of the `n`×`n` pixels that divide the square of half-width `maxsep`.
The zero vector belongs to no pixel. -/
def InPixel (maxsep binsize : ℝ) (n k : ℤ) (v : EuclideanSpace ℝ (Fin 2)) : Prop :=
  v ≠ 0 ∧ ∃ i j, 0 ≤ i ∧ i < n ∧ 0 ≤ j ∧ j < n ∧ k = j * n + i ∧
    InStrip maxsep binsize i (v 0) ∧ InStrip maxsep binsize j (v 1)

end TreeCorr
