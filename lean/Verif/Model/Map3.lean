import Verif.Model.Binning
import Mathlib.Analysis.Complex.Trigonometric
import Mathlib.Analysis.Complex.Norm
import Mathlib.Analysis.Real.Sqrt

/-!
Model of the aperture mass statistics of the three-point class of shears: `GGGCorrelation._calculateT`,
`GGGCorrelation.calculateMap3` (/repo/treecorr/gggcorrelation.py:700-1056) and the columns of
`GGGCorrelation.writeMap3` (gggcorrelation.py:1058-1097).

The arrays over the bins are lists of bins, one row for each aperture radius `R`.  Doubles are exact reals.  Products of
a matrix and a vector are sums over the bins.
-/

namespace TreeCorr.Map3

open scoped ComplexConjugate

noncomputable section

/-- `T0, T1, T2, T3`. -/
structure TVals where
  T0 : ℂ
  T1 : ℂ
  T2 : ℂ
  T3 : ℂ

/-- The branch of `_calculateT` for `k1 = k2 = k3 = 1`, gggcorrelation.py:702-744. -/
def calcTOne (s t : ℂ) : TVals :=
  let q1 := (s + t) / 3
  let q2 := q1 - t
  let q3 := q1 - s
  let a1 : ℂ := (‖q1‖ ^ 2 : ℝ)
  let a2 : ℂ := (‖q2‖ ^ 2 : ℝ)
  let a3 : ℂ := (‖q3‖ ^ 2 : ℝ)
  let a123 := a1 * a2 * a3
  let b1 := conj q1 ^ 2 * q2 * q3
  let b2 := conj q2 ^ 2 * q1 * q3
  let b3 := conj q3 ^ 2 * q1 * q2
  let expfactor : ℂ := (-Real.exp (-(‖q1‖ ^ 2 + ‖q2‖ ^ 2 + ‖q3‖ ^ 2) / 2) : ℝ)
  { T0 := expfactor * a123 / 24
    T1 := expfactor * (a123 / 24 - b1 / 9 + (b1 ^ 2 + 2 * a2 * a3 * b1) / (a123 * 27))
    T2 := expfactor * (a123 / 24 - b2 / 9 + (b2 ^ 2 + 2 * a1 * a3 * b2) / (a123 * 27))
    T3 := expfactor * (a123 / 24 - b3 / 9 + (b3 ^ 2 + 2 * a1 * a2 * b3) / (a123 * 27)) }

/-- The branch of `_calculateT` for other `k1`, `k2`, `k3`, gggcorrelation.py:702-717, 746-795. -/
def calcTGen (s t : ℂ) (k1 k2 k3 : ℝ) : TVals :=
  let q1 := (s + t) / 3
  let q2 := q1 - t
  let q3 := q1 - s
  let a1 : ℂ := (‖q1‖ ^ 2 : ℝ)
  let a2 : ℂ := (‖q2‖ ^ 2 : ℝ)
  let a3 : ℂ := (‖q3‖ ^ 2 : ℝ)
  let a123 := a1 * a2 * a3
  let b1 := conj q1 ^ 2 * q2 * q3
  let b2 := conj q2 ^ 2 * q1 * q3
  let b3 := conj q3 ^ 2 * q1 * q2
  let Theta2 := Real.sqrt ((k1 * k1 * (k2 * k2) + k1 * k1 * (k3 * k3) + k2 * k2 * (k3 * k3)) / 3)
  let k1sq := k1 * k1 / Theta2
  let k2sq := k2 * k2 / Theta2
  let k3sq := k3 * k3 / Theta2
  let Theta4 := Theta2 * Theta2
  let Theta6 := Theta4 * Theta2
  let S := k1sq * k2sq * k3sq
  let Z := ((2 * k2sq + 2 * k3sq - k1sq) * ‖q1‖ ^ 2 + (2 * k3sq + 2 * k1sq - k2sq) * ‖q2‖ ^ 2 +
    (2 * k1sq + 2 * k2sq - k3sq) * ‖q3‖ ^ 2) / (6 * Theta2)
  let expfactor : ℂ := (-S * Real.exp (-Z) / Theta4 : ℝ)
  let f1 : ℂ := (k2sq + k3sq) / 2 + (k2sq - k3sq) * (q2 - q3) / (6 * q1)
  let f2 : ℂ := (k3sq + k1sq) / 2 + (k3sq - k1sq) * (q3 - q1) / (6 * q2)
  let f3 : ℂ := (k1sq + k2sq) / 2 + (k1sq - k2sq) * (q1 - q2) / (6 * q3)
  let f1c := conj f1
  let f2c := conj f2
  let f3c := conj f3
  let g1 : ℂ := k2sq * k3sq + (k3sq - k2sq) * k1sq * (q2 - q3) / (3 * q1)
  let g2 : ℂ := k3sq * k1sq + (k1sq - k3sq) * k2sq * (q3 - q1) / (3 * q2)
  let g3 : ℂ := k1sq * k2sq + (k2sq - k1sq) * k3sq * (q1 - q2) / (3 * q3)
  let g1c := conj g1
  let g2c := conj g2
  let g3c := conj g3
  { T0 := expfactor * a123 * f1c ^ 2 * f2c ^ 2 * f3c ^ 2 / (24 * Theta6)
    T1 := expfactor * (a123 * f1 ^ 2 * f2c ^ 2 * f3c ^ 2 / (24 * Theta6) - b1 * f1 * f2c * f3c * g1c / (9 * Theta4) +
      (b1 ^ 2 * g1c ^ 2 + 2 * k2sq * k3sq * a2 * a3 * b1 * f2c * f3c) / (a123 * 27 * Theta2))
    T2 := expfactor * (a123 * f1c ^ 2 * f2 ^ 2 * f3c ^ 2 / (24 * Theta6) - b2 * f1c * f2 * f3c * g2c / (9 * Theta4) +
      (b2 ^ 2 * g2c ^ 2 + 2 * k1sq * k3sq * a1 * a3 * b2 * f1c * f3c) / (a123 * 27 * Theta2))
    T3 := expfactor * (a123 * f1c ^ 2 * f2c ^ 2 * f3 ^ 2 / (24 * Theta6) - b3 * f1c * f2c * f3 * g3c / (9 * Theta4) +
      (b3 ^ 2 * g3c ^ 2 + 2 * k1sq * k2sq * a1 * a2 * b3 * f1c * f2c) / (a123 * 27 * Theta2)) }

open Classical in
/-- `_calculateT`, gggcorrelation.py:701-797. -/
def calcT (s t : ℂ) (k1 k2 k3 : ℝ) : TVals :=
  if k1 = 1 ∧ k2 = 1 ∧ k3 = 1 then calcTOne s t else calcTGen s t k1 k2 k3

/-- The bin types of the three-point classes. -/
inductive BinType3 where
  | ruv
  | sas
  | multipole
  deriving DecidableEq

/-- What `calculateMap3` reads of one bin: the mean sides, `meanu` and `meanv` (LogRUV) or `meanphi` (LogSAS), the four
correlations and their variances. -/
structure GGGBin where
  d1 : ℝ
  d2 : ℝ
  d3 : ℝ
  u : ℝ
  v : ℝ
  phi : ℝ
  gam0 : ℂ
  gam1 : ℂ
  gam2 : ℂ
  gam3 : ℂ
  var0 : ℝ
  var1 : ℝ
  var2 : ℝ
  var3 : ℝ

/-- A finalized `GGGCorrelation`. -/
structure GGG where
  binType : BinType3
  binSize : ℝ
  ubinSize : ℝ
  vbinSize : ℝ
  phiBinSize : ℝ
  phiUnits : ℝ
  rnom1d : List ℝ
  bins : List GGGBin

/-- `s = d2`, gggcorrelation.py:867. -/
def sOf (R : ℝ) (b : GGGBin) : ℝ := 1 / R * b.d2

/-- `d3`, gggcorrelation.py:881, 904. -/
def d3Of (R : ℝ) (b : GGGBin) : ℝ := 1 / R * b.d3

/-- `tx` before the check, gggcorrelation.py:885. -/
def txRaw (R : ℝ) (b : GGGBin) : ℝ := d3Of R b * (0.5 * b.u * (1 - b.v ^ 2) - |b.v|)

/-- `bad`, gggcorrelation.py:889. -/
def bad (R : ℝ) (b : GGGBin) : Prop := txRaw R b ≤ -d3Of R b ∨ txRaw R b ≥ d3Of R b

open Classical in
/-- `tx`, gggcorrelation.py:899. -/
def txOf (R : ℝ) (b : GGGBin) : ℝ := if bad R b then 0 else txRaw R b

open Classical in
/-- `ty`, gggcorrelation.py:900-901. -/
def tyOf (R : ℝ) (b : GGGBin) : ℝ :=
  let ty := Real.sqrt (d3Of R b ^ 2 - txOf R b ^ 2)
  if b.v > 0 then ty * (-1) else ty

/-- `t`, gggcorrelation.py:902, 905. -/
def tOf (g : GGG) (R : ℝ) (b : GGGBin) : ℂ :=
  if g.binType = .ruv then ⟨txOf R b, tyOf R b⟩
  else d3Of R b * Complex.exp (Complex.I * (b.phi : ℂ) * g.phiUnits)

open Classical in
/-- `d2t`, gggcorrelation.py:926-939. -/
def d2tOf (g : GGG) (R : ℝ) (b : GGGBin) : ℝ :=
  if g.binType = .ruv then
    (if bad R b then 0 else |d3Of R b * d3Of R b * (1 / R * b.d1) / tyOf R b|) * g.ubinSize * g.vbinSize / (2 * Real.pi)
  else d3Of R b ^ 2 * g.binSize * g.phiBinSize / (2 * Real.pi)

/-- `sds * d2t`, gggcorrelation.py:941, 945-948. -/
def areaOf (g : GGG) (R : ℝ) (b : GGGBin) : ℝ := sOf R b * sOf R b * g.binSize * d2tOf g R b

/-- `T0`, `T1`, `T2`, `T3` of one bin after the multiplication by `sds * d2t`, gggcorrelation.py:908, 945-948 and the same
in the loops, 994-998, 1023-1027. -/
def tBin (g : GGG) (R k1 k2 k3 : ℝ) (b : GGGBin) : TVals :=
  let T := calcT (sOf R b : ℂ) (tOf g R b) k1 k2 k3
  { T0 := T.T0 * areaOf g R b
    T1 := T.T1 * areaOf g R b
    T2 := T.T2 * areaOf g R b
    T3 := T.T3 * areaOf g R b }

/-- `T.dot(gam)`. -/
def dot (g : GGG) (T : GGGBin → ℂ) (gam : GGGBin → ℂ) : ℂ := (g.bins.map fun b => T b * gam b).sum

/-- The arrays `mmm`, `mcmm`, `mmcm`, `mmmc` for one `R`, and the coefficients `var0`, …, `var3` of each bin. -/
structure Sums where
  mmm : ℂ
  mc : Fin 3 → ℂ
  var0 : GGGBin → ℂ
  var1 : GGGBin → ℂ
  var2 : GGGBin → ℂ
  var3 : GGGBin → ℂ

/-- The sums with the apertures 1, `k2`, `k3` at the points 1, 2, 3, gggcorrelation.py:950-973. -/
def firstSums (g : GGG) (R k2 k3 : ℝ) : Sums :=
  let T := tBin g R 1 k2 k3
  { mmm := dot g (fun b => (T b).T0) GGGBin.gam0
    mc := ![dot g (fun b => (T b).T1) GGGBin.gam1, dot g (fun b => (T b).T2) GGGBin.gam2,
      dot g (fun b => (T b).T3) GGGBin.gam3]
    var0 := fun b => (T b).T0
    var1 := fun b => (T b).T1
    var2 := fun b => (T b).T2
    var3 := fun b => (T b).T3 }

/-- One pass of the loop, gggcorrelation.py:994-1008, and 1022-1034: `_mcmm`, `_mmcm`, `_mmmc` are names for the arrays of
the numbers `i`, `j`, `k` and are updated in place, one after the other. -/
def passSums (g : GGG) (R : ℝ) (A : Sums) (k1 k2 k3 : ℝ) (i j k : Fin 3) : Sums :=
  let T := tBin g R k1 k2 k3
  let mc := Function.update A.mc i (A.mc i + dot g (fun b => (T b).T1) GGGBin.gam1)
  let mc := Function.update mc j (mc j + dot g (fun b => (T b).T2) GGGBin.gam2)
  let mc := Function.update mc k (mc k + dot g (fun b => (T b).T3) GGGBin.gam3)
  { mmm := A.mmm + dot g (fun b => (T b).T0) GGGBin.gam0
    mc := mc
    var0 := fun b => A.var0 b + (T b).T0
    var1 := fun b => A.var1 b + (T b).T1
    var2 := fun b => A.var2 b + (T b).T2
    var3 := fun b => A.var3 b + (T b).T3 }

open Classical in
/-- The sums after the other permutations, gggcorrelation.py:975-1034. -/
def allSums (g : GGG) (R k2 k3 : ℝ) : Sums :=
  let A := firstSums g R k2 k3
  if g.binType = .ruv then
    if k2 = 1 ∧ k3 = 1 then
      let m := (A.mc 0 + A.mc 1 + A.mc 2) * 2
      { mmm := A.mmm * 6
        mc := ![m, m, m]
        var0 := fun b => A.var0 b * 6
        var1 := fun b => A.var1 b * 6
        var2 := fun b => A.var2 b * 6
        var3 := fun b => A.var3 b * 6 }
    else
      let A := passSums g R A 1 k3 k2 0 2 1
      let A := passSums g R A k2 1 k3 1 0 2
      let A := passSums g R A k2 k3 1 1 2 0
      let A := passSums g R A k3 1 k2 2 0 1
      passSums g R A k3 k2 1 2 1 0
  else
    if k2 = 1 ∧ k3 = 1 then
      let m := A.mc 1 + A.mc 2
      { mmm := A.mmm * 2
        mc := ![A.mc 0 * 2, m, m]
        var0 := fun b => A.var0 b * 2
        var1 := fun b => A.var1 b * 2
        var2 := fun b => A.var2 b * 2
        var3 := fun b => A.var3 b * 2 }
    else passSums g R A 1 k3 k2 0 2 1

/-- What `calculateMap3` returns for one `R`. -/
structure Stats where
  map3 : ℝ
  mapmapmx : ℝ
  mapmxmap : ℝ
  mxmapmap : ℝ
  mxmxmap : ℝ
  mxmapmx : ℝ
  mapmxmx : ℝ
  mx3 : ℝ
  var : ℝ

/-- The eight combinations, gggcorrelation.py:1036-1043, without the variance. -/
def eight (mmm mcmm mmcm mmmc : ℂ) (var : ℝ) : Stats :=
  { map3 := 0.25 * (mcmm + mmcm + mmmc + mmm).re
    mapmapmx := 0.25 * (mcmm + mmcm - mmmc + mmm).im
    mapmxmap := 0.25 * (mcmm - mmcm + mmmc + mmm).im
    mxmapmap := 0.25 * (-mcmm + mmcm + mmmc + mmm).im
    mxmxmap := 0.25 * (mcmm + mmcm - mmmc - mmm).re
    mxmapmx := 0.25 * (mcmm - mmcm + mmmc - mmm).re
    mapmxmx := 0.25 * (-mcmm + mmcm + mmmc - mmm).re
    mx3 := 0.25 * (mcmm + mmcm + mmmc - mmm).im
    var := var }

/-- The variance, gggcorrelation.py:1045-1054. -/
def varOf (g : GGG) (A : Sums) : ℝ :=
  (g.bins.map fun b => ‖(A.var0 b / 4) ^ 2‖ * b.var0).sum + (g.bins.map fun b => ‖(A.var1 b / 4) ^ 2‖ * b.var1).sum +
    (g.bins.map fun b => ‖(A.var2 b / 4) ^ 2‖ * b.var2).sum + (g.bins.map fun b => ‖(A.var3 b / 4) ^ 2‖ * b.var3).sum

/-- `calculateMap3` for one `R`, gggcorrelation.py:866-1056. -/
def map3At (g : GGG) (k2 k3 R : ℝ) : Stats :=
  let A := allSums g R k2 k3
  eight A.mmm (A.mc 0) (A.mc 1) (A.mc 2) (varOf g A)

/-- `calculateMap3`, gggcorrelation.py:799-1056.  For LogMultipole `self.meanphi` fails its assertion
(corr3base.py:883-885). -/
def calculateMap3 (g : GGG) (R : Option (List ℝ)) (k2 k3 : ℝ) : Except PyErr (List Stats) :=
  if g.binType = .multipole then .error .assertion
  else .ok ((R.getD g.rnom1d).map (map3At g k2 k3))

/-- One row that `writeMap3` writes. -/
structure Map3Row where
  R : ℝ
  map3 : ℝ
  map2mx : ℝ
  mapmx2 : ℝ
  mx3 : ℝ
  sig : ℝ

/-- The columns of `writeMap3`, gggcorrelation.py:1086-1097. -/
def writeMap3 (g : GGG) (R : Option (List ℝ)) : Except PyErr (List Map3Row) := do
  let rs := R.getD g.rnom1d
  let stats ← calculateMap3 g (some rs) 1 1
  return (rs.zip stats).map fun x =>
    ⟨x.1, x.2.map3, x.2.mapmapmx, x.2.mxmxmap, x.2.mx3, Real.sqrt x.2.var⟩

end

end TreeCorr.Map3
