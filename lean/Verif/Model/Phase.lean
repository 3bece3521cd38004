import Verif.Model.Spin

/-! The directions used by the multipole algorithm, `ProjectHelper<C>::ExpIPhi`, /repo/include/ProjectHelper.h:151-154, 331-340,
428-436. -/

namespace TreeCorr
noncomputable section

/-- `ProjectHelper<Flat>::ExpIPhi(p1, p2, r)`, /repo/include/ProjectHelper.h:151-153; `r` is the distance of the metric,
/repo/src/Corr3.cpp:1141-1193, 1532, 1707. -/
def flatPhase (d : EuclideanSpace ℝ (Fin 2) → EuclideanSpace ℝ (Fin 2) → ℝ) (p1 p2 : EuclideanSpace ℝ (Fin 2)) : ℂ :=
  (cplx p2 - cplx p1) / (d p1 p2 : ℂ)

/-- `ProjectHelper<Sphere>::ExpIPhi`, /repo/include/ProjectHelper.h:331-340. -/
def sphPhase (p1 p2 : EuclideanSpace ℝ (Fin 3)) : ℂ :=
  let z := sphDirection p2 p1
  z / (Real.sqrt (safeNorm z) : ℂ)

/-- `ProjectHelper<ThreeD>::ExpIPhi`, /repo/include/ProjectHelper.h:428-436. -/
def threeDPhase (p1 p2 : EuclideanSpace ℝ (Fin 3)) : ℂ := sphPhase (toSphere p1) (toSphere p2)

end
end TreeCorr
