/-!
For which coordinate systems each metric is documented, `/repo/docs/metric.rst`, and the restrictions on the other settings.
-/

namespace TreeCorr

/-- The three coordinate systems. -/
def IsCoords (c : String) : Prop := c = "flat" ∨ c = "spherical" ∨ c = "3d"

/-- The documented metrics for an auto-correlation.  `Arc` is documented for "spherical coordinates"; positions with a
distance are read as included. -/
def DocAuto (m c : String) : Prop :=
  (m = "Euclidean" ∧ IsCoords c) ∨
  (m = "Arc" ∧ (c = "spherical" ∨ c = "3d")) ∨
  ((m = "Rperp" ∨ m = "FisherRperp" ∨ m = "OldRperp") ∧ c = "3d") ∨
  (m = "Periodic" ∧ (c = "flat" ∨ c = "3d"))

/-- The documented metrics for a cross-correlation of catalogues with coordinates `c1`, `c2`, and the coordinate system `c` in
which it is done: `Rlens` takes lenses with distances and sources with or without, `Arc` drops the distances if one of the
catalogues has none, and otherwise the two must agree. -/
def DocCross (m c1 c2 c : String) : Prop :=
  (m ≠ "Arc" ∧ DocAuto m c1 ∧ c2 = c1 ∧ c = c1) ∨
  (m = "Arc" ∧ c1 = "3d" ∧ c2 = "3d" ∧ c = "3d") ∨
  (m = "Arc" ∧ (c1 = "spherical" ∧ c2 = "3d" ∨ c1 = "3d" ∧ c2 = "spherical" ∨ c1 = "spherical" ∧ c2 = "spherical") ∧
    c = "spherical") ∨
  (m = "Rlens" ∧ c1 = "3d" ∧ (c2 = "3d" ∨ c2 = "spherical") ∧ c = "3d")

end TreeCorr
