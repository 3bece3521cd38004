import Verif.Model.CorrEq

/-!
What belongs together in an object that the program makes.
-/

namespace TreeCorr
namespace Adding

/-- The unit and the settings for `_set_metric` follow from what the user gave, `unit` being the value of a unit in radians. -/
def Proper (unit : String → ℝ) (o : EObj) : Prop :=
  o.units = unit o.sepUnits ∧
  (o.set.twoD = true ↔ o.bt = .twoD) ∧ (o.set.sepUnits = true ↔ o.sepUnits ≠ "") ∧
  (o.set.rparSet = true ↔ o.minRpar ≠ none ∨ o.maxRpar ≠ none) ∧
  (o.set.xp = true ↔ o.xperiod ≠ 0) ∧ (o.set.yp = true ↔ o.yperiod ≠ 0) ∧ (o.set.zp = true ↔ o.zperiod ≠ 0)

end Adding
end TreeCorr
