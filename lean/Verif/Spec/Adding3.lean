import Verif.Model.Adding3

/-!
What it means that two three-point objects have the same bins.
-/

namespace TreeCorr
namespace Adding
noncomputable section

/-- The edge `k` of the bins in separation, in radians if they are angles: they divide
`[min_sep, max_sep]` evenly in the logarithm. -/
def sepEdge (B : Bins) (units : ℝ) (k : ℕ) : ℝ := B.minsep * Real.exp (k * B.binsize) * units

/-- The edge `k` of linear bins. -/
def linEdge3 (L : LinBins) (k : ℕ) : ℝ := L.lo + k * L.size

/-- The edges in separation are the same. -/
def SameSep (a b : Bins) (ua ub : ℝ) : Prop :=
  a.nbins = b.nbins ∧ ∀ k : ℕ, (k : ℤ) ≤ a.nbins → 0 < a.nbins → sepEdge a ua k = sepEdge b ub k

/-- The edges in `u`, `v` or `phi` are the same. -/
def SameLin (a b : LinBins) : Prop := a.n = b.n ∧ ∀ k : ℕ, linEdge3 a k = linEdge3 b k

/-- The same quantities, with the same edges. -/
def SameBins3 (a b : Obj3) : Prop :=
  match a.bins, b.bins with
  | .ruv s u v, .ruv s' u' v' => SameSep s s' a.units b.units ∧ SameLin u u' ∧ SameLin v v'
  | .sas s p, .sas s' p' => SameSep s s' a.units b.units ∧ SameLin p p'
  | .multipole s n, .multipole s' n' => SameSep s s' a.units b.units ∧ n = n'
  | _, _ => False

/-- The bins are those of a constructor. -/
def Made3 (o : Obj3) : Prop :=
  match o.bins with
  | .ruv s u v => ∃ (c : BinConfig3) (bs : ℝ), sepBins c.sep = .ok (s, bs) ∧ uBins c.u bs = .ok u ∧ vBins c.v bs = .ok v
  | .sas s p => ∃ (c : BinConfig3) (bs : ℝ), sepBins c.sep = .ok (s, bs) ∧ phiBins c.phi c.phiUnits bs = .ok p
  | .multipole s n => ∃ c : BinConfig3, makeMultipole c = .ok (s, n)

end
end Adding
end TreeCorr
