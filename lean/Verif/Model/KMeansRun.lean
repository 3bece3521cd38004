import Verif.Model.KMeans
import Verif.Model.Tree

/-!
Model of the iterations of k-means: `UpdateCenters`, `CalculateInertia`, `CalculateShiftSq` and `KMeansRun1` in `/repo/src/KMeans.cpp`, and
`Field.kmeans_refine_centers`, `/repo/treecorr/field.py:444-488`.

Positions are vectors; `norm` is `Position<C>::normalize` (the identity unless on the sphere).  A NaN is `none`.
-/

namespace TreeCorr.KMeans
open Classical
noncomputable section
variable {E : Type} [NormedAddCommGroup E] [InnerProductSpace ℝ E]

/-- `UpdateCenters`, /repo/src/KMeans.cpp:346-353. -/
structure Upd (E : Type) where
  newCenters : ℕ → E
  w : ℕ → ℝ

/-- `reset`, /repo/src/KMeans.cpp:380-384; `Position<C>()` is the origin. -/
def Upd.reset : Upd E := ⟨fun _ => 0, fun _ => 0⟩

/-- `run`, /repo/src/KMeans.cpp:355-359. -/
def Upd.run (u : Upd E) (x : ℕ × Cell E) : Upd E :=
  ⟨Function.update u.newCenters x.1 (u.newCenters x.1 + x.2.w • x.2.pos), Function.update u.w x.1 (u.w x.1 + x.2.w)⟩

/-- `combineWith`, /repo/src/KMeans.cpp:361-367. -/
def Upd.combineWith (u v : Upd E) : Upd E := ⟨fun i => u.newCenters i + v.newCenters i, fun i => u.w i + v.w i⟩

/-- `finalize`, /repo/src/KMeans.cpp:369-378: the new centres. -/
def Upd.fin (norm : E → E) (u : Upd E) : ℕ → E :=
  fun i => if u.w i > 0 then norm ((u.w i)⁻¹ • u.newCenters i) else u.newCenters i

/-- `update_centers.reset(); FindCellsInPatches(...); update_centers.finalize()`, /repo/src/KMeans.cpp:812-814 with :645-685: each thread
starts from a copy of the empty arrays; the copies are added in the order of `sched`. -/
def updateCenters (norm : E → E) (cen : ℕ → E) (I : Option (ℕ → ℝ)) (npatch : ℕ) (cells : List (Cell E)) (sched : Schedule) : ℕ → E :=
  (((findAll cen I npatch cells sched).map fun calls => calls.foldl Upd.run Upd.reset).foldl Upd.combineWith Upd.reset).fin norm

/-- `CalculateInertia`, /repo/src/KMeans.cpp:387-396. -/
structure Inert where
  inertia : ℕ → ℝ
  sumw : ℝ

/-- `reset`, /repo/src/KMeans.cpp:458-462. -/
def Inert.reset : Inert := ⟨fun _ => 0, 0⟩

/-- `run`, /repo/src/KMeans.cpp:398-417. -/
def Inert.run (cen : ℕ → E) (c : Inert) (x : ℕ × Cell E) : Inert :=
  let ssq := x.2.size * x.2.size
  let w := x.2.w
  let i := c.inertia x.1 + ‖x.2.pos - cen x.1‖ ^ 2 * w
  ⟨Function.update c.inertia x.1 (if ssq > 0 then i + 0.75 * ssq * w else i), c.sumw + w⟩

/-- `combineWith`, /repo/src/KMeans.cpp:419-425. -/
def Inert.combineWith (c d : Inert) : Inert := ⟨fun i => c.inertia i + d.inertia i, c.sumw + d.sumw⟩

/-- `finalize`, /repo/src/KMeans.cpp:427-456. -/
def Inert.fin (npatch : ℕ) (c : Inert) : Option (ℕ → ℝ) :=
  let meanw := c.sumw / npatch / 3
  if meanw = 0 then none else some fun i => c.inertia i / meanw

/-- `calculate_inertia.reset(); FindCellsInPatches(...); calculate_inertia.finalize()`, /repo/src/KMeans.cpp:803-806. -/
def calculateInertia (cen : ℕ → E) (npatch : ℕ) (cells : List (Cell E)) (sched : Schedule) : Option (ℕ → ℝ) :=
  (((findAll cen none npatch cells sched).map fun calls => calls.foldl (Inert.run cen) Inert.reset).foldl Inert.combineWith Inert.reset).fin
    npatch

/-- `CalculateShiftSq`, /repo/src/KMeans.cpp:689-703. -/
def shiftSq (npatch : ℕ) (cen new : ℕ → E) : ℝ := ((List.range npatch).map fun i => ‖cen i - new i‖ ^ 2).sum

/-- The new centres of one pass of the loop of `KMeansRun1`, /repo/src/KMeans.cpp:801-814.  `s1` and `s2` are the distributions over the threads. -/
def kmeansPass (norm : E → E) (alt : Bool) (npatch : ℕ) (cells : List (Cell E)) (s1 s2 : Schedule) (cen : ℕ → E) : Option (ℕ → E) := do
  let I ← if alt then (calculateInertia cen npatch cells s1).map some else some none
  pure (updateCenters norm cen I npatch cells s2)

/-- The loop of `KMeansRun1`, /repo/src/KMeans.cpp:799-830, from pass `iter` on, with so many passes left. -/
def kmeansLoop (norm : E → E) (alt : Bool) (npatch : ℕ) (cells : List (Cell E)) (tolsq : ℝ) (sch : ℕ → Schedule × Schedule) :
    ℕ → ℕ → (ℕ → E) → Option (ℕ → E)
  | 0, _, cen => some cen
  | left + 1, iter, cen => do
    let new ← kmeansPass norm alt npatch cells (sch iter).1 (sch iter).2 cen
    let shiftsq := shiftSq npatch cen new
    if shiftsq < tolsq then pure new else kmeansLoop norm alt npatch cells tolsq sch left (iter + 1) new

/-- `KMeansRun1`, /repo/src/KMeans.cpp:772-832, and `ReadCenters`, :716-722, 734-740: on the sphere the given centres are normalised. -/
def kmeansRun (norm : E → E) (f : Field E) (npatch : ℕ) (maxiter : ℤ) (tol : ℝ) (alt : Bool) (sch : ℕ → Schedule × Schedule) (cen : ℕ → E) :
    Option (ℕ → E) :=
  let centers := fun i => norm (cen i)
  let tolsq := (tol * f.size) * (tol * f.size) * npatch
  kmeansLoop norm alt npatch f.cells tolsq sch maxiter.toNat 0 centers

end
end TreeCorr.KMeans
