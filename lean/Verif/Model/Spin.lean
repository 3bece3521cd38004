import Mathlib.Analysis.Complex.Basic
import Mathlib.Analysis.InnerProductSpace.PiL2
import Mathlib.Analysis.Real.Sqrt
import Verif.Model.Corr2

/-!
# Spin fields: projection onto the line between two points, and the sums made of them

Models `/repo/include/ProjectHelper.h`, the complex-valued cell data (`/repo/src/Cell.cpp:221-430`) and `DirectHelper2`
(`/repo/src/Corr2.cpp:375-579`).  Single precision of the stored sums is not modelled.
-/

namespace TreeCorr
open Classical ComplexConjugate
noncomputable section

/-- The complex data types `ZData, VData, GData, TData, QData`, /repo/include/Cell.h:37. -/
inductive Spin where
  | Z | V | G | T | Q
  deriving DecidableEq

/-- The spin `s`, /repo/include/ProjectHelper.h:66-71. -/
def Spin.s : Spin → ℕ
  | .Z => 0
  | .V => 1
  | .G => 2
  | .T => 3
  | .Q => 4

/-- `safe_norm`, /repo/include/ProjectHelper.h:23-30 (`std::norm` is the squared absolute value). -/
def safeNorm (z : ℂ) : ℝ := if 0 < Complex.normSq z then Complex.normSq z else 1

/-- `_expmsialpha<D>`, /repo/include/ProjectHelper.h:32-73. -/
def expm : Spin → ℂ → ℂ
  | .Z, _ => 1
  | .V, r => conj r / (Real.sqrt (safeNorm r) : ℂ)
  | .G, r => conj (r * r) / (safeNorm r : ℂ)
  | .T, r => conj (r * r * r) / (Real.sqrt (safeNorm (r * r * r)) : ℂ)
  | .Q, r => conj ((r * r) * (r * r)) / (safeNorm (r * r) : ℂ)

/-! ## Flat -/

/-- A flat position as a complex number, /repo/include/Position.h:77 (`operator std::complex<double>`). -/
def cplx (p : EuclideanSpace ℝ (Fin 2)) : ℂ := ⟨p 0, p 1⟩

/-- `ProjectHelper<Flat>::Project(c1, c2, z2)`, /repo/include/ProjectHelper.h:78-85: the factor for `z2`; the version with
`z1` and `z2` (:99-109) uses the same factor for both. -/
def flatFactor (D : Spin) (p1 p2 : EuclideanSpace ℝ (Fin 2)) : ℂ := expm D (cplx p2 - cplx p1)

/-! ## Sphere -/

/-- `ProjectHelper<Sphere>::calculate_direction`, /repo/include/ProjectHelper.h:158-232. -/
def sphDirection (p1 p2 : EuclideanSpace ℝ (Fin 3)) : ℂ :=
  let z1 := p1 2
  let z2 := p2 2
  let dsq := ‖p1 - p2‖ ^ 2
  let cosA := (z1 - z2) + 0.5 * z2 * dsq
  let sinA := p1 1 * p2 0 - p1 0 * p2 1
  ⟨sinA, -cosA⟩

/-- The factor for `z2`, /repo/include/ProjectHelper.h:234-242, 263-266. -/
def sphFactor (D : Spin) (p1 p2 : EuclideanSpace ℝ (Fin 3)) : ℂ := expm D (sphDirection p1 p2)

/-- The factor for `z1` when both are projected, /repo/include/ProjectHelper.h:267-275. -/
def sphFactor1 (D : Spin) (p1 p2 : EuclideanSpace ℝ (Fin 3)) : ℂ :=
  let e := expm D (sphDirection p2 p1)
  if D = .V ∨ D = .T then -e else e

/-- `Position<Sphere>(const Position<ThreeD>&)`, /repo/include/Position.h:241, 251-256. -/
def toSphere (p : EuclideanSpace ℝ (Fin 3)) : EuclideanSpace ℝ (Fin 3) :=
  if ‖p‖ = 0 then EuclideanSpace.single 0 1 else ‖p‖⁻¹ • p

/-- `ProjectHelper<ThreeD>::Project`, /repo/include/ProjectHelper.h:348-358. -/
def threeDFactor (D : Spin) (p1 p2 : EuclideanSpace ℝ (Fin 3)) : ℂ := sphFactor D (toSphere p1) (toSphere p2)

/-! ## The sum over a cell -/

/-- `SimpleSum`, /repo/src/Cell.cpp:221-234: the weighted values of a flat cell are added.  `z o` is `w*g` of the row. -/
def simpleSum {P : Type} (z : Obj P → ℂ) (c : Cell P) : ℂ := (c.objs.map z).sum

/-- The rotation `expibeta` in `ParallelTransportSum`, /repo/src/Cell.cpp:296-315.  `center` is the position of the cell
as stored, `cen` the normalised one (line 286); line 297 takes the z coordinate of `center`. -/
def transportAngle (center p : EuclideanSpace ℝ (Fin 3)) : ℂ :=
  let cen := toSphere center
  let pi := toSphere p
  let z1 := center 2
  let z2 := pi 2
  let dsq := ‖cen - pi‖ ^ 2
  let cosA := (z1 - z2) + 0.5 * z2 * dsq
  let sinA := cen 1 * pi 0 - cen 0 * pi 1
  let cosB := (z2 - z1) + 0.5 * z1 * dsq
  let sinB := sinA
  ⟨-cosA * cosB + sinA * sinB, sinA * cosB + cosA * sinB⟩

/-- The factor of one row in `ParallelTransportSum`, /repo/src/Cell.cpp:299-318. -/
def transportFactor (D : Spin) (center p : EuclideanSpace ℝ (Fin 3)) : ℂ :=
  if ‖toSphere center - toSphere p‖ ^ 2 < 1e-12 then 1 else expm D (transportAngle center p)

/-- `ParallelTransportSum`, /repo/src/Cell.cpp:276-322; all cells of the sphere and of 3d positions. -/
def transportSum (D : Spin) (z : Obj (EuclideanSpace ℝ (Fin 3)) → ℂ) (c : Cell (EuclideanSpace ℝ (Fin 3))) : ℂ :=
  (c.objs.map fun o => z o * transportFactor D c.pos o.pos).sum

/-! ## The sums over pairs -/

/-- The complex arrays of a correlation: `xi + i xi_im` (NZ and KZ classes) or `xip + i xip_im`, `xim + i xim_im`. -/
structure SpinAcc where
  xip : ℤ → ℂ
  xim : ℤ → ℂ

def SpinAcc.zero : SpinAcc := ⟨fun _ => 0, fun _ => 0⟩

/-- `f[k] += v; if (R) f[k2] += v`. -/
def addC (f : ℤ → ℂ) (k : ℤ) (k2 : Option ℤ) (v : ℂ) : ℤ → ℂ := fun j =>
  f j + (if k = j then v else 0) + (if k2 = some j then v else 0)

/-- `DirectHelper2<2>::ProcessXi` and `<4>`, /repo/src/Corr2.cpp:414-435, 505-521: `a` is `c1.getW()` or `getWK()`, `zsum` the
cell sum of the second field, `factor` the projection.  (NZ and KZ, :402-414, 452-468, have factor 1.) -/
def processNZ {P : Type} (D : Spin) (a : Cell P → ℝ) (zsum : Cell P → ℂ) (factor : P → P → ℂ) (f : ℤ → ℂ) (e : Emit P) :
    ℤ → ℂ :=
  let g2 := zsum e.c2 * factor e.c1.pos e.c2.pos
  let g2 := if D = .G then g2 * (-(a e.c1 : ℂ)) else g2 * (a e.c1 : ℂ)
  addC f e.k none g2

/-- `DirectHelper2<5>::ProcessXi`, /repo/src/Corr2.cpp:523-559. -/
def processZZ {P : Type} (zsum1 zsum2 : Cell P → ℂ) (factor1 factor2 : P → P → ℂ) (A : SpinAcc) (e : Emit P) : SpinAcc :=
  let g1 := zsum1 e.c1 * factor1 e.c1.pos e.c2.pos
  let g2 := zsum2 e.c2 * factor2 e.c1.pos e.c2.pos
  let g1rg2r := g1.re * g2.re
  let g1rg2i := g1.re * g2.im
  let g1ig2r := g1.im * g2.re
  let g1ig2i := g1.im * g2.im
  { xip := addC A.xip e.k e.k2 ⟨g1rg2r + g1ig2i, g1ig2r - g1rg2i⟩
    xim := addC A.xim e.k e.k2 ⟨g1rg2r - g1ig2i, g1ig2r + g1rg2i⟩ }

/-! ## Three points -/

/-- `ProjectHelper<Flat>::Project(c1, c2, c3, ...)`, /repo/include/ProjectHelper.h:111-127: each towards the centroid. -/
def flatProject3 (D : Spin) (p1 p2 p3 : EuclideanSpace ℝ (Fin 2)) (z : ℂ × ℂ × ℂ) : ℂ × ℂ × ℂ :=
  let cen := (3 : ℝ)⁻¹ • (p1 + p2 + p3)
  (z.1 * expm D (cplx cen - cplx p1), z.2.1 * expm D (cplx cen - cplx p2), z.2.2 * expm D (cplx cen - cplx p3))

/-- `ProjectHelper<Sphere>::Project(c1, c2, c3, ...)`, /repo/include/ProjectHelper.h:277-289. -/
def sphProject3 (D : Spin) (p1 p2 p3 : EuclideanSpace ℝ (Fin 3)) (z : ℂ × ℂ × ℂ) : ℂ × ℂ × ℂ :=
  let cen := toSphere ((3 : ℝ)⁻¹ • (p1 + p2 + p3))
  (z.1 * expm D (sphDirection cen p1), z.2.1 * expm D (sphDirection cen p2), z.2.2 * expm D (sphDirection cen p3))

/-- `ProjectHelper<Sphere>::ProjectX` on positions, /repo/include/ProjectHelper.h:307-328.  The three values are passed by
reference, and `z2`, `z3` may be the same variable; the function works on a store `get`/`mul` of variables. -/
def sphProjectX {σ ν : Type} (mul : ν → ℂ → σ → σ) (D : Spin) (p1 p2 p3 : EuclideanSpace ℝ (Fin 3)) (z1 z2 z3 : ν) (st : σ) : σ :=
  let proj2 := expm D (sphDirection p1 p2)
  let proj3 := expm D (sphDirection p1 p3)
  let r12 := sphDirection p2 p1
  let r12 := r12 / (Real.sqrt (safeNorm r12) : ℂ)
  let r13 := sphDirection p3 p1
  let r13 := r13 / (Real.sqrt (safeNorm r13) : ℂ)
  let proj1 := expm D (r12 + r13)
  mul z3 proj3 (mul z2 proj2 (mul z1 proj1 st))

/-- The variables `z1`, `z2`, `z3` of the caller. -/
def mulVar (v : Fin 3) (f : ℂ) (st : Fin 3 → ℂ) : Fin 3 → ℂ := Function.update st v (st v * f)

/-- `ProjectHelper<Sphere>::ProjectX`, /repo/include/ProjectHelper.h:291-305. -/
def sphereProjectX (D : Spin) (p1 p2 p3 : EuclideanSpace ℝ (Fin 3)) (st : Fin 3 → ℂ) : Fin 3 → ℂ :=
  sphProjectX mulVar D p1 p2 p3 0 1 2 st

/-- `ProjectHelper<ThreeD>::ProjectX`, /repo/include/ProjectHelper.h:411-426; line 425 passes `z1, z3, z3`. -/
def threeDProjectX (D : Spin) (p1 p2 p3 : EuclideanSpace ℝ (Fin 3)) (st : Fin 3 → ℂ) : Fin 3 → ℂ :=
  sphProjectX mulVar D (toSphere p1) (toSphere p2) (toSphere p3) 0 2 2 st

end
end TreeCorr
