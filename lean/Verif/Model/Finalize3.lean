import Mathlib.Analysis.SpecialFunctions.Trigonometric.Inverse
import Verif.Model.Corr3

/-!
Model of `Corr3._finalize` and `Corr3._apply_units`, /repo/treecorr/corr3base.py:1810-1874, 2194-2230.
-/

namespace TreeCorr
open Classical
noncomputable section

/-- What `_finalize` uses besides the arrays: the size of the separation unit, that of the unit of the angle (LogSAS), and whether the
distances are chords of the unit sphere (`coords == 'spherical' and metric == 'Euclidean'`). -/
structure FinParams3 where
  chord : Bool
  sepUnits : ℝ
  phiUnits : ℝ

/-- `_apply_units` on one entry of `meand1`, `meand2` or `meand3`, corr3base.py:2212-2230. -/
def FinParams3.unitD (F : FinParams3) (x : ℝ) : ℝ := (if F.chord then 2 * Real.arcsin (x / 2) else x) / F.sepUnits

/-- `_apply_units` on one entry of `meanlogd1`, `meanlogd2` or `meanlogd3`, corr3base.py:2212-2230. -/
def FinParams3.unitLogD (F : FinParams3) (x : ℝ) : ℝ :=
  (if F.chord then Real.log (2 * Real.arcsin (Real.exp x / 2)) else x) - Real.log F.sepUnits

/-- `_apply_units` on one entry of `meanphi` (LogSAS), given the entries of `meand2`, `meand3` before their conversion,
corr3base.py:2204-2210, 2222-2223. -/
def FinParams3.unitPhi (F : FinParams3) (phi d2 d3 : ℝ) : ℝ :=
  (if F.chord then
    let cosphi := Real.cos phi
    let cosphi := cosphi - 0.25 * d2 * d3
    let cosphi := cosphi / Real.sqrt ((1 - d2 ^ 2 / 4) * (1 - d3 ^ 2 / 4))
    let cosphi := if cosphi < -1 then -1 else cosphi
    let cosphi := if cosphi > 1 then 1 else cosphi
    Real.arccos cosphi
  else phi) / F.phiUnits

/-- The tables of nominal values of a `LogRUV` object (`rnom = exp(logr)`, corr3base.py:660). -/
structure NomRuv where
  logr : ℤ → ℝ
  u : ℤ → ℝ
  v : ℤ → ℝ

/-- The tables of nominal values of a `LogSAS` object (`d2nom = exp(logd2)`, `d3nom = exp(logd3)`, corr3base.py:679-680); `phi` is in
radians, corr3base.py:670-672. -/
structure NomSas where
  logd2 : ℤ → ℝ
  logd3 : ℤ → ℝ
  phi : ℤ → ℝ

/-- `_finalize` of a `LogRUV` object, corr3base.py:1810-1849; `zeta` stands for `_z1` (and the further ones) of the classes that have
them. -/
def finalizeRuv (F : FinParams3) (N : NomRuv) (A : Acc3) : Acc3 :=
  let pick (full empty : ℤ → ℝ) (k : ℤ) : ℝ := if A.weight k ≠ 0 then full k else empty k
  let d2 := fun k => Real.exp (N.logr k)
  let d3 := fun k => N.u k * d2 k
  let d1 := fun k => |N.v k| * d3 k + d2 k
  { ntri := A.ntri
    weight := A.weight
    zeta := pick (fun k => A.zeta k / A.weight k) A.zeta
    meand1 := pick (fun k => F.unitD (A.meand1 k / A.weight k)) d1
    meanlogd1 := pick (fun k => F.unitLogD (A.meanlogd1 k / A.weight k)) fun k => Real.log (d1 k)
    meand2 := pick (fun k => F.unitD (A.meand2 k / A.weight k)) d2
    meanlogd2 := pick (fun k => F.unitLogD (A.meanlogd2 k / A.weight k)) N.logr
    meand3 := pick (fun k => F.unitD (A.meand3 k / A.weight k)) d3
    meanlogd3 := pick (fun k => F.unitLogD (A.meanlogd3 k / A.weight k)) fun k => Real.log (d3 k)
    meanu := pick (fun k => A.meanu k / A.weight k) N.u
    meanv := pick (fun k => A.meanv k / A.weight k) N.v }

/-- `_finalize` of a `LogSAS` object, corr3base.py:1810-1838, 1850-1860; `meanu` is `meanphi`. -/
def finalizeSas (F : FinParams3) (N : NomSas) (A : Acc3) : Acc3 :=
  let pick (full empty : ℤ → ℝ) (k : ℤ) : ℝ := if A.weight k ≠ 0 then full k else empty k
  let d2 := fun k => Real.exp (N.logd2 k)
  let d3 := fun k => Real.exp (N.logd3 k)
  let d1 := fun k => Real.sqrt (d2 k ^ 2 + d3 k ^ 2 - 2 * d2 k * d3 k * Real.cos (N.phi k))
  { ntri := A.ntri
    weight := A.weight
    zeta := pick (fun k => A.zeta k / A.weight k) A.zeta
    meand1 := pick (fun k => F.unitD (A.meand1 k / A.weight k)) d1
    meanlogd1 := pick (fun k => F.unitLogD (A.meanlogd1 k / A.weight k)) fun k => Real.log (d1 k)
    meand2 := pick (fun k => F.unitD (A.meand2 k / A.weight k)) d2
    meanlogd2 := pick (fun k => F.unitLogD (A.meanlogd2 k / A.weight k)) N.logd2
    meand3 := pick (fun k => F.unitD (A.meand3 k / A.weight k)) d3
    meanlogd3 := pick (fun k => F.unitLogD (A.meanlogd3 k / A.weight k)) N.logd3
    meanu := pick (fun k => F.unitPhi (A.meanu k / A.weight k) (A.meand2 k / A.weight k) (A.meand3 k / A.weight k)) N.phi
    meanv := A.meanv }

/-- The arrays of a `LogMultipole` object of counts that `_finalize` changes, indexed by the bins of `d2`, `d3` and by the place of `n`
(`n + max_n`). -/
structure AccMp where
  ntri : ℤ → ℤ → ℤ → ℝ
  weightr : ℤ → ℤ → ℤ → ℝ
  meand2 : ℤ → ℤ → ℤ → ℝ
  meanlogd2 : ℤ → ℤ → ℤ → ℝ
  meand3 : ℤ → ℤ → ℤ → ℝ
  meanlogd3 : ℤ → ℤ → ℤ → ℝ

/-- `_finalize` of a `LogMultipole` object, corr3base.py:1810-1818, 1836, 1850-1854, 1865-1874. -/
def finalizeMp (F : FinParams3) (logd2 logd3 : ℤ → ℤ → ℤ → ℝ) (maxn : ℤ) (A : AccMp) : AccMp :=
  let pick (full empty : ℤ → ℤ → ℤ → ℝ) (i j n : ℤ) : ℝ := if A.weightr i j n ≠ 0 then full i j n else empty i j n
  let meand2 := pick (fun i j n => F.unitD (A.meand2 i j n / A.weightr i j n)) fun i j n => Real.exp (logd2 i j n)
  let meanlogd2 := pick (fun i j n => F.unitLogD (A.meanlogd2 i j n / A.weightr i j n)) logd2
  let meand3 := pick (fun i j n => F.unitD (A.meand3 i j n / A.weightr i j n)) fun i j n => Real.exp (logd3 i j n)
  let meanlogd3 := pick (fun i j n => F.unitLogD (A.meanlogd3 i j n / A.weightr i j n)) logd3
  { ntri := fun i j _ => A.ntri i j maxn
    weightr := A.weightr
    meand2 := fun i j _ => meand2 i j maxn
    meanlogd2 := fun i j _ => meanlogd2 i j maxn
    meand3 := fun i j _ => meand3 i j maxn
    meanlogd3 := fun i j _ => meanlogd3 i j maxn }

end
end TreeCorr
