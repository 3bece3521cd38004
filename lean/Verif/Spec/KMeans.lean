import Verif.Model.Cell
import Mathlib.Analysis.InnerProductSpace.PiL2
import Mathlib.Order.ConditionallyCompleteLattice.Finset

/-! What k-means is about: divisions of the rows over the centres, their weighted means, and the total inertia. -/

namespace TreeCorr.KMeans
open Classical
noncomputable section
variable {E : Type} [NormedAddCommGroup E] [InnerProductSpace ℝ E]

/-- The total inertia (within-cluster sum of squares): each row counts its weight times the square of the distance to a nearest centre. -/
def wcss (rows : List (Obj E)) (npatch : ℕ) (cen : ℕ → E) : ℝ :=
  (rows.map fun o => o.w * ⨅ q : Fin npatch, dist o.pos (cen q) ^ 2).sum

/-- Every row is given, once, to a patch whose centre is nearest to it. -/
structure NearestDivision (rows : List (Obj E)) (npatch : ℕ) (cen : ℕ → E) (L : List (ℕ × Obj E)) : Prop where
  rows : (L.map Prod.snd).Perm rows
  lt : ∀ x ∈ L, x.1 < npatch
  near : ∀ x ∈ L, ∀ q < npatch, dist x.2.pos (cen x.1) ≤ dist x.2.pos (cen q)

/-- The rows of patch `q`. -/
def patchRowsOf (L : List (ℕ × Obj E)) (q : ℕ) : List (Obj E) := (L.filter fun x => x.1 = q).map Prod.snd

/-- Their weight. -/
def patchWeight (L : List (ℕ × Obj E)) (q : ℕ) : ℝ := ((patchRowsOf L q).map Obj.w).sum

/-- Their weighted mean position. -/
def patchMean (L : List (ℕ × Obj E)) (q : ℕ) : E := (patchWeight L q)⁻¹ • ((patchRowsOf L q).map fun o => o.w • o.pos).sum

end
end TreeCorr.KMeans
