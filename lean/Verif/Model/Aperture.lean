import Verif.Model.Binning
import Mathlib.Analysis.SpecialFunctions.Trigonometric.Inverse
import Mathlib.Analysis.SpecialFunctions.Pow.Real

/-!
Model of the two-point aperture statistics: `GGCorrelation.calculateMapSq` and `calculateGamSq`
(/repo/treecorr/ggcorrelation.py:125-312), the columns of `GGCorrelation.writeMapSq` (ggcorrelation.py:314-366),
`NGCorrelation.calculateNMap` (/repo/treecorr/ngcorrelation.py:197-282), the columns of
`NGCorrelation.writeNorm` (ngcorrelation.py:322-418) and `NNCorrelation.calculateNapSq`
(/repo/treecorr/nncorrelation.py:721-803).

The matrix products are sums over the bins, here over a list of bins, one row for each aperture radius `R`.  Doubles
are exact reals.  What `calculateXi` returns for the counts and for the mean shear is a parameter.
-/

namespace TreeCorr.Aperture

noncomputable section

/-- The two functional forms of the aperture mass. -/
inductive MForm where
  | crittenden
  | schneider
  deriving DecidableEq

/-- The choice of the form from the argument and the configuration, ggcorrelation.py:188-191, ngcorrelation.py:248-251,
nncorrelation.py:772-775. -/
def mForm (arg config : Option String) : Except PyErr MForm :=
  match arg.getD (config.getD "Crittenden") with
  | "Crittenden" => .ok .crittenden
  | "Schneider" => .ok .schneider
  | _ => .error .valueError

/-- `Tp` before it is multiplied by `ssq`, ggcorrelation.py:200-212, nncorrelation.py:782-791. -/
def tPlus : MForm → ℝ → ℝ
  | .crittenden, s => (32 + s * s * (-16 + s * s)) / 128 * Real.exp (-(s * s) / 4)
  | .schneider, s =>
    if s < 2 then
      12 / (5 * Real.pi) * (2 - 15 * (s * s)) * Real.arccos (s / 2) +
        1 / (100 * Real.pi) * s * Real.sqrt (4 - s * s) *
          (120 + s * s * (2320 + s * s * (-754 + s * s * (132 - 9 * (s * s)))))
    else 0

/-- `Tm` before it is multiplied by `ssq`, ggcorrelation.py:200-213. -/
def tMinus : MForm → ℝ → ℝ
  | .crittenden, s => s * s * (s * s) / 128 * Real.exp (-(s * s) / 4)
  | .schneider, s =>
    if s < 2 then 3 / (70 * Real.pi) * s * (s * s) * (4 - s * s) ^ (3.5 : ℝ) else 0

/-- `Tx` before it is multiplied by `ssq`, ngcorrelation.py:258-267. -/
def tCross : MForm → ℝ → ℝ
  | .crittenden, s => s * s * (12 - s * s) / 128 * Real.exp (-(s * s) / 4)
  | .schneider, s =>
    if s < 2 then
      (196 + s * s * (-74 + s * s * (14 - s * s))) *
          (-3 / (40 * Real.pi) * s * (s * s) * Real.sqrt (4 - s ^ 2)) +
        18 / Real.pi * (s * s) * Real.arccos (s / 2)
    else 0

/-- `Sp` with its factor `ssq`, ggcorrelation.py:286-289. -/
def sPlus (s : ℝ) : ℝ :=
  if s < 2 then
    1 / Real.pi * (s * s) * (4 * Real.arccos (s / 2) - s * Real.sqrt (4 - s * s))
  else 0

/-- `Sm` with its factor `ssq`, ggcorrelation.py:299-302. -/
def sMinus (s : ℝ) : ℝ :=
  if s < 2 then
    1 / (s * s * Real.pi) *
      (s * Real.sqrt (4 - s * s) * (6 - s * s) - 8 * (3 - s * s) * Real.arcsin (s / 2))
  else 4 * (s * s - 3) / (s * s)

/-- What one bin of a finalized `GGCorrelation` holds. -/
structure GGBin where
  meanr : ℝ
  xip : ℝ
  xim : ℝ
  xipIm : ℝ
  ximIm : ℝ
  varxip : ℝ
  varxim : ℝ

/-- A finalized `GGCorrelation`. -/
structure GG where
  binType : BinType
  binSize : ℝ
  rnom : List ℝ
  m2Uform : Option String
  bins : List GGBin

/-- The values that `calculateMapSq` returns for one `R`. -/
structure MapSq where
  mapsq : ℝ
  mapsqIm : ℝ
  mxsq : ℝ
  mxsqIm : ℝ
  varmapsq : ℝ

/-- The matrix product of one row of weights with a column of the bins. -/
def dot {α : Type} (bins : List α) (row col : α → ℝ) : ℝ := (bins.map fun b => row b * col b).sum

/-- One row of the results of `calculateMapSq`, ggcorrelation.py:198-231. -/
def mapSqAt (g : GG) (form : MForm) (R : ℝ) : MapSq :=
  let s : GGBin → ℝ := fun b => 1 / R * b.meanr
  let tp : GGBin → ℝ := fun b => tPlus form (s b) * (s b * s b)
  let tm : GGBin → ℝ := fun b => tMinus form (s b) * (s b * s b)
  let tpxip := dot g.bins tp GGBin.xip
  let tmxim := dot g.bins tm GGBin.xim
  let tpxipIm := dot g.bins tp GGBin.xipIm
  let tmximIm := dot g.bins tm GGBin.ximIm
  { mapsq := (tpxip + tmxim) * 0.5 * g.binSize
    mxsq := (tpxip - tmxim) * 0.5 * g.binSize
    mapsqIm := (tpxipIm + tmximIm) * 0.5 * g.binSize
    mxsqIm := (tpxipIm - tmximIm) * 0.5 * g.binSize
    varmapsq := (dot g.bins (fun b => tp b ^ 2) GGBin.varxip +
      dot g.bins (fun b => tm b ^ 2) GGBin.varxim) * (0.25 * g.binSize ^ 2) }

/-- `GGCorrelation.calculateMapSq`, ggcorrelation.py:125-231. -/
def calculateMapSq (g : GG) (R : Option (List ℝ)) (m2Uform : Option String) : Except PyErr (List MapSq) := do
  let form ← mForm m2Uform g.m2Uform
  if g.binType = .log then return (R.getD g.rnom).map (mapSqAt g form)
  else throw .valueError

/-- The values that `calculateGamSq` returns for one `R`; the last three only with `eb=True`. -/
structure GamSq where
  gamsq : ℝ
  vargamsq : ℝ
  gamsqE : ℝ
  gamsqB : ℝ
  vargamsqE : ℝ

/-- One row of the results of `calculateGamSq`, ggcorrelation.py:284-311. -/
def gamSqAt (g : GG) (R : ℝ) : GamSq :=
  let s : GGBin → ℝ := fun b => 1 / R * b.meanr
  let spxip := dot g.bins (fun b => sPlus (s b)) GGBin.xip
  let smxim := dot g.bins (fun b => sMinus (s b)) GGBin.xim
  { gamsq := spxip * g.binSize
    vargamsq := dot g.bins (fun b => sPlus (s b) ^ 2) GGBin.varxip * g.binSize ^ 2
    gamsqE := (spxip + smxim) * 0.5 * g.binSize
    gamsqB := (spxip - smxim) * 0.5 * g.binSize
    vargamsqE := (dot g.bins (fun b => sPlus (s b) ^ 2) GGBin.varxip +
      dot g.bins (fun b => sMinus (s b) ^ 2) GGBin.varxim) * (0.25 * g.binSize ^ 2) }

/-- `GGCorrelation.calculateGamSq`, ggcorrelation.py:233-311. -/
def calculateGamSq (g : GG) (R : Option (List ℝ)) : Except PyErr (List GamSq) :=
  if g.binType = .log then .ok ((R.getD g.rnom).map (gamSqAt g)) else .error .valueError

/-- The row that `writeMapSq` writes for one `R`, ggcorrelation.py:353-364. -/
structure MapSqRow where
  R : ℝ
  mapsq : ℝ
  mxsq : ℝ
  mmxa : ℝ
  mmxb : ℝ
  sigMap : ℝ
  gamsq : ℝ
  sigGam : ℝ

/-- The rows that `GGCorrelation.writeMapSq` writes, ggcorrelation.py:353-364. -/
def writeMapSq (g : GG) (R : Option (List ℝ)) (m2Uform : Option String) : Except PyErr (List MapSqRow) := do
  let rs := R.getD g.rnom
  let ms ← calculateMapSq g (some rs) m2Uform
  let gs ← calculateGamSq g (some rs)
  return ((rs.zip ms).zip gs).map fun x =>
    { R := x.1.1, mapsq := x.1.2.mapsq, mxsq := x.1.2.mxsq, mmxa := x.1.2.mapsqIm, mmxb := -x.1.2.mxsqIm,
      sigMap := Real.sqrt x.1.2.varmapsq, gamsq := x.2.gamsq, sigGam := Real.sqrt x.2.vargamsq }

/-- What one bin of a finalized `NGCorrelation` gives: `meanr` and the three values of `calculateXi`. -/
structure NGBin where
  meanr : ℝ
  xi : ℝ
  xiIm : ℝ
  varxi : ℝ

/-- A finalized `NGCorrelation`. -/
structure NG where
  binType : BinType
  binSize : ℝ
  rnom : List ℝ
  m2Uform : Option String
  bins : List NGBin

/-- The values that `calculateNMap` returns for one `R`. -/
structure NMap where
  nmap : ℝ
  nmx : ℝ
  varnmap : ℝ

/-- One row of the results of `calculateNMap`, ngcorrelation.py:255-280. -/
def nMapAt (g : NG) (form : MForm) (R : ℝ) : NMap :=
  let s : NGBin → ℝ := fun b => 1 / R * b.meanr
  let tx : NGBin → ℝ := fun b => tCross form (s b) * (s b * s b)
  { nmap := dot g.bins tx NGBin.xi * g.binSize
    nmx := dot g.bins tx NGBin.xiIm * g.binSize
    varnmap := dot g.bins (fun b => tx b ^ 2) NGBin.varxi * g.binSize ^ 2 }

/-- `NGCorrelation.calculateNMap`, ngcorrelation.py:197-282.  There is no test of the type of bins. -/
def calculateNMap (g : NG) (R : Option (List ℝ)) (m2Uform : Option String) : Except PyErr (List NMap) := do
  let form ← mForm m2Uform g.m2Uform
  return (R.getD g.rnom).map (nMapAt g form)

/-- What one bin of a finalized `NNCorrelation` gives: `meanr` and the two values of `calculateXi`. -/
structure NNBin where
  meanr : ℝ
  xi : ℝ
  varxi : ℝ

/-- A finalized `NNCorrelation`. -/
structure NN where
  binType : BinType
  binSize : ℝ
  rnom : List ℝ
  m2Uform : Option String
  bins : List NNBin

/-- The values that `calculateNapSq` returns for one `R`. -/
structure NapSq where
  nsq : ℝ
  varnsq : ℝ

/-- One row of the results of `calculateNapSq`, nncorrelation.py:779-801. -/
def napSqAt (g : NN) (form : MForm) (R : ℝ) : NapSq :=
  let s : NNBin → ℝ := fun b => 1 / R * b.meanr
  let tp : NNBin → ℝ := fun b => tPlus form (s b) * (s b * s b)
  { nsq := dot g.bins tp NNBin.xi * g.binSize
    varnsq := dot g.bins (fun b => tp b ^ 2) NNBin.varxi * g.binSize ^ 2 }

/-- `NNCorrelation.calculateNapSq`, nncorrelation.py:721-803.  There is no test of the type of bins. -/
def calculateNapSq (g : NN) (R : Option (List ℝ)) (m2Uform : Option String) : Except PyErr (List NapSq) := do
  let form ← mForm m2Uform g.m2Uform
  return (R.getD g.rnom).map (napSqAt g form)

/-- The ratios that `writeNorm` writes for one `R`, ngcorrelation.py:397-400. -/
structure NormRow where
  nmnorm : ℝ
  varnmnorm : ℝ
  nnnorm : ℝ
  varnnnorm : ℝ

/-- The ratios that `NGCorrelation.writeNorm` writes, ngcorrelation.py:397-400. -/
def normRow (nm : NMap) (m : MapSq) (n : NapSq) : NormRow :=
  let nmnorm := nm.nmap ^ 2 / (n.nsq * m.mapsq)
  let nnnorm := n.nsq / m.mapsq
  { nmnorm := nmnorm
    varnmnorm := nmnorm ^ 2 * (4 * nm.varnmap / nm.nmap ^ 2 + n.varnsq / n.nsq ^ 2 + m.varmapsq / m.mapsq ^ 2)
    nnnorm := nnnorm
    varnnnorm := nnnorm ^ 2 * (n.varnsq / n.nsq ^ 2 + m.varmapsq / m.mapsq ^ 2) }

/-- `NGCorrelation.writeNorm`, the rows of ratios, ngcorrelation.py:389-400. -/
def writeNorm (ng : NG) (gg : GG) (dd : NN) (R : Option (List ℝ)) (m2Uform : Option String) :
    Except PyErr (List NormRow) := do
  let rs := R.getD ng.rnom
  let nm ← calculateNMap ng (some rs) m2Uform
  let ms ← calculateMapSq gg (some rs) m2Uform
  let ns ← calculateNapSq dd (some rs) m2Uform
  return ((nm.zip ms).zip ns).map fun x => normRow x.1.1 x.1.2 x.2

end

end TreeCorr.Aperture
