import Verif.Model.Tree

/-!
Model of the test that skips a pair of patches: `Corr2._trivially_zero`, /repo/treecorr/corr2base.py:724-728,
`Catalog._get_center_size`, /repo/treecorr/catalog.py:1289-1300, and `TriviallyZero`,
/repo/src/Corr2.cpp:686-698, 1137-1224.
-/

namespace TreeCorr
open Classical
noncomputable section

/-- `_get_center_size`, /repo/treecorr/catalog.py:1289-1300: the unweighted mean position and the largest
distance from it. -/
def centerSize {d : ℕ} (l : List (Obj (EuclideanSpace ℝ (Fin d)))) : EuclideanSpace ℝ (Fin d) × ℝ :=
  let m := ((l.length : ℝ))⁻¹ • (l.map Obj.pos).sum
  (m, Real.sqrt (calcSizeSq (euclidGeom d) m l))

/-- `_trivially_zero` for flat (`d = 2`) and 3d (`d = 3`) coordinates. -/
def patchesTriviallyZero {d : ℕ} (B : BinHelper (EuclideanSpace ℝ (Fin d)))
    (M : MetricHelper (EuclideanSpace ℝ (Fin d))) (prm : Params)
    (l1 l2 : List (Obj (EuclideanSpace ℝ (Fin d)))) : Prop :=
  triviallyZero B M prm (centerSize l1).1 (centerSize l2).1 (centerSize l1).2 (centerSize l2).2

/-- `_trivially_zero` for spherical coordinates: `TriviallyZero3` makes a `Position<Sphere>` from the
centre, which normalises it (/repo/src/Corr2.cpp:1142, /repo/include/Position.h:242); the size is passed on
unchanged. -/
def patchesTriviallyZeroSphere (B : BinHelper (EuclideanSpace ℝ (Fin 3)))
    (M : MetricHelper (EuclideanSpace ℝ (Fin 3))) (prm : Params)
    (l1 l2 : List (Obj (EuclideanSpace ℝ (Fin 3)))) : Prop :=
  triviallyZero B M prm (sphereNormalize (centerSize l1).1) (sphereNormalize (centerSize l2).1)
    (centerSize l1).2 (centerSize l2).2

end
end TreeCorr
