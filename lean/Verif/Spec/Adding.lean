import Verif.Model.Adding

/-!
What it means that two objects have the same bins.
-/

namespace TreeCorr
namespace Adding

/-- As many bins, with the same edges, in radians if they are angles. -/
def SameBins (a b : Obj) : Prop :=
  a.bt = b.bt ∧ a.bins.nbins = b.bins.nbins ∧
    ∀ k : ℕ, (k : ℤ) < a.bins.nbins → left a k * a.units = left b k * b.units ∧ right a k * a.units = right b k * b.units

/-- The bins are those of a constructor. -/
def Made (o : Obj) : Prop := ∃ c, makeBins o.bt c = .ok o.bins

end Adding
end TreeCorr
