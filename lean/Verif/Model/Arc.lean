import Mathlib.Analysis.SpecialFunctions.Trigonometric.Inverse
import Verif.Model.Corr2
import Verif.Model.Tree

/-!
Model of the `Arc` metric, `/repo/include/Metric.h:593-684`, and of `Position<Sphere>`, `/repo/include/Position.h:225-278`, as a type of
its own: all its constructors normalise.
-/

namespace TreeCorr
open Classical
noncomputable section

/-- `Position<Sphere>`: unit vectors. -/
structure S2 where
  vec : EuclideanSpace ℝ (Fin 3)
  unit : ‖vec‖ = 1

/-- `normalize()`, /repo/include/Position.h:249-254. -/
def S2.normalize (p : EuclideanSpace ℝ (Fin 3)) : S2 where
  vec := sphereNormalize p
  unit := by
    unfold sphereNormalize
    split
    · rw [EuclideanSpace.norm_eq]; simp [Fin.sum_univ_three]
    · rename_i h
      rw [norm_smul, norm_inv, norm_norm, inv_mul_cancel₀ h]

/-- The position computed by `BuildCellData` on the sphere, /repo/src/Cell.cpp:170-200. -/
def S2.mean (l : List (Obj S2)) : S2 :=
  let sumwp := (l.map Obj.wpos).sum
  if sumwp ≠ 0 then S2.normalize (sumwp⁻¹ • (l.map (fun o => o.wpos • o.pos.vec)).sum)
  else match l with
    | [] => S2.normalize 0
    | o :: _ => o.pos

/-- `Position<Sphere>` for the tree builder, /repo/include/Position.h:225-278: sizes are chords. -/
def s2Geom : Geom S2 where
  ndim := 3
  coord := fun i p => if h : i < 3 then p.vec ⟨i, h⟩ else 0
  normSq := fun p q => ‖p.vec - q.vec‖ ^ 2
  mean := S2.mean

/-- `MetricHelper<Arc,0>` on the sphere, /repo/include/Metric.h:602-617, 628-634. -/
def arcMetric : MetricHelper S2 where
  distSq := fun p1 p2 s1 s2 => ((2 * Real.arcsin (‖p1.vec - p2.vec‖ / 2)) ^ 2, s1, s2)
  rparOutside := fun _ _ _ => False
  rparInside := fun _ _ _ => True
  tooSmall := fun _ _ _ _ _ => True
  tooLarge := fun _ _ _ _ _ => True

/-- `p1.cross(p2).norm()`, /repo/include/Position.h:173-178. -/
def crossNorm (p q : EuclideanSpace ℝ (Fin 3)) : ℝ :=
  Real.sqrt ((p 1 * q 2 - p 2 * q 1) ^ 2 + (p 2 * q 0 - p 0 * q 2) ^ 2 + (p 0 * q 1 - p 1 * q 0) ^ 2)

/-- `MetricHelper<Arc,0>` in 3d, /repo/include/Metric.h:637-654, 686-692, without limits on `rpar`. -/
def arc3Metric : MetricHelper (EuclideanSpace ℝ (Fin 3)) where
  distSq := fun p1 p2 s1 s2 => (Real.arcsin (crossNorm p1 p2 / (‖p1‖ * ‖p2‖)) ^ 2, s1 / ‖p1‖, s2 / ‖p2‖)
  rparOutside := fun _ _ _ => False
  rparInside := fun _ _ _ => True
  tooSmall := fun _ _ _ _ _ => True
  tooLarge := fun _ _ _ _ _ => True

end
end TreeCorr
