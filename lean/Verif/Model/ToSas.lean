import Mathlib.Analysis.SpecialFunctions.Complex.Circle
import Mathlib.Data.Int.Interval
import Verif.Model.Finalize3
import Verif.Model.Multipole

/-!
Model of `Corr3.toSAS` and of the part of `Corr3.process` that uses it, /repo/treecorr/corr3base.py:1940-2028, 1722-1747, with the additions
of /repo/treecorr/nnncorrelation.py:401-424 and /repo/treecorr/kkkcorrelation.py:298-328.  Files, patches and the copies of `coords` and
`metric` are left out, and so is the shear class, which turns the projections besides.
-/

namespace TreeCorr
open Classical
noncomputable section

/-- An entry of the `results` of a `LogMultipole` object. -/
structure MpEntry where
  weight : ℤ → ℤ → ℤ → ℂ
  zeta : ℤ → ℤ → ℤ → ℂ
  tot : ℝ

/-- A `LogMultipole` object; the third index is the place of `n`, which is `n + max_n` (`n1d`, corr3base.py:699). -/
structure MpObj (K : Type) where
  maxn : ℕ
  weight : ℤ → ℤ → ℤ → ℂ
  zeta : ℤ → ℤ → ℤ → ℂ
  ntri : ℤ → ℤ → ℤ → ℝ
  meand2 : ℤ → ℤ → ℤ → ℝ
  meanlogd2 : ℤ → ℤ → ℤ → ℝ
  meand3 : ℤ → ℤ → ℤ → ℝ
  meanlogd3 : ℤ → ℤ → ℤ → ℝ
  tot : ℝ
  results : List (K × MpEntry)

/-- The binning in the angle of a `LogSAS` object, in radians; `phi_bin_size` is `(max_phi - min_phi)/nphi_bins`,
corr3base.py:533-534, 561. -/
structure PhiBins where
  minphi : ℝ
  maxphi : ℝ
  n : ℕ
  units : ℝ

/-- `phi_bin_size`, corr3base.py:561. -/
def PhiBins.size (B : PhiBins) : ℝ := (B.maxphi - B.minphi) / B.n

/-- `phi1d`, corr3base.py:670-672. -/
def PhiBins.phi (B : PhiBins) (k : ℤ) : ℝ := k * B.size + (B.minphi + 0.5 * B.size)

/-- An entry of the `results` of a `LogSAS` object. -/
structure SasEntry where
  weightr : ℤ → ℤ → ℤ → ℝ
  ntri : ℤ → ℤ → ℤ → ℝ
  z1 : ℤ → ℤ → ℤ → ℝ
  meand1 : ℤ → ℤ → ℤ → ℝ
  meand2 : ℤ → ℤ → ℤ → ℝ
  meand3 : ℤ → ℤ → ℤ → ℝ
  meanphi : ℤ → ℤ → ℤ → ℝ
  tot : ℝ

/-- A `LogSAS` object, without its binning. -/
structure SasObj (K : Type) where
  weightr : ℤ → ℤ → ℤ → ℝ
  ntri : ℤ → ℤ → ℤ → ℝ
  z1 : ℤ → ℤ → ℤ → ℝ
  meand1 : ℤ → ℤ → ℤ → ℝ
  meanlogd1 : ℤ → ℤ → ℤ → ℝ
  meand2 : ℤ → ℤ → ℤ → ℝ
  meanlogd2 : ℤ → ℤ → ℤ → ℝ
  meand3 : ℤ → ℤ → ℤ → ℝ
  meanlogd3 : ℤ → ℤ → ℤ → ℝ
  meanphi : ℤ → ℤ → ℤ → ℝ
  tot : ℝ
  results : List (K × SasEntry)

/-- `np.real(w.dot(expiphi)) / (2*np.pi) * sas.phi_bin_size`, corr3base.py:1997-1998. -/
def transform (maxn : ℕ) (B : PhiBins) (w : ℤ → ℤ → ℤ → ℂ) (i j k : ℤ) : ℝ :=
  (∑ n ∈ Finset.Icc (-(maxn : ℤ)) maxn, w i j (n + maxn) * Complex.exp (Complex.I * n * B.phi k)).re / (2 * Real.pi) * B.size

/-- `ratio`, corr3base.py:2005-2008. -/
def allocRatio (B : PhiBins) (ntri0 : ℝ) (w : ℤ → ℝ) : ℝ :=
  let phiFrac := (B.maxphi - B.minphi) / (2 * Real.pi)
  let denom := ∑ k ∈ Finset.Ico (0 : ℤ) B.n, w k
  let denom := if denom = 0 then 1 else denom
  ntri0 / denom * phiFrac

/-- `toSAS`, corr3base.py:1978-2028, with the `tot` of `NNNCorrelation` and the `_z1` of `KKKCorrelation`; the object it writes to is clear
or cleared first (1966-1974). -/
def toSas {K : Type} (M : MpObj K) (B : PhiBins) : SasObj K :=
  let meand2 := fun i j (_ : ℤ) => M.meand2 i j 0
  let meand3 := fun i j (_ : ℤ) => M.meand3 i j 0
  let meanphi := fun (_ _ : ℤ) k => B.phi k / B.units
  let meand1 := fun i j k => Real.sqrt (meand2 i j k ^ 2 + meand3 i j k ^ 2 - 2 * meand2 i j k * meand3 i j k * Real.cos (B.phi k))
  let weightr := transform M.maxn B M.weight
  let ratio := fun i j => allocRatio B (M.ntri i j 0) (weightr i j)
  let z1 := transform M.maxn B M.zeta
  { weightr := weightr
    ntri := fun i j k => weightr i j k * ratio i j
    z1 := fun i j k => if weightr i j k ≠ 0 then z1 i j k / weightr i j k else z1 i j k
    meand1 := meand1
    meanlogd1 := fun i j k => Real.log (meand1 i j k)
    meand2 := meand2
    meanlogd2 := fun i j _ => M.meanlogd2 i j 0
    meand3 := meand3
    meanlogd3 := fun i j _ => M.meanlogd3 i j 0
    meanphi := meanphi
    tot := M.tot
    results := M.results.map fun r =>
      let w := transform M.maxn B r.2.weight
      (r.1, { weightr := w
              ntri := fun i j k => w i j k * ratio i j
              z1 := transform M.maxn B r.2.zeta
              meand1 := fun i j k => meand1 i j k * w i j k
              meand2 := fun i j k => meand2 i j k * w i j k
              meand3 := fun i j k => meand3 i j k * w i j k
              meanphi := fun i j k => meanphi i j k * w i j k
              tot := r.2.tot }) }

/-- The state of a new `LogMultipole` object. -/
def MpObj.new (K : Type) (maxn : ℕ) : MpObj K :=
  ⟨maxn, 0, 0, 0, 0, 0, 0, 0, 0, []⟩

/-- What a run adds to a `LogMultipole` object: `weight` and `zeta` for all `n`, the others at the place of `n = 0` only
(/repo/src/Corr3.cpp:1388-1415, 1450-1480, `i = (k2*nbins + k3)*(2*maxn+1) + maxn`; see `MpVals`). -/
def MpObj.add {K : Type} (M : MpObj K) (out : List (ℤ × ℤ × MpVals)) : MpObj K :=
  let at0 (f : MpVals → ℝ) (a : ℤ → ℤ → ℤ → ℝ) (i j m : ℤ) : ℝ := if m = M.maxn then a i j m + mpTotal f out i j else a i j m
  { M with
    weight := fun i j m => M.weight i j m + mpTotal (fun v => v.weight (m - M.maxn)) out i j
    zeta := fun i j m => M.zeta i j m + mpTotal (fun v => v.zeta (m - M.maxn)) out i j
    ntri := at0 MpVals.ntri M.ntri
    meand2 := at0 MpVals.meand2 M.meand2
    meanlogd2 := at0 MpVals.meanlogd2 M.meanlogd2
    meand3 := at0 MpVals.meand3 M.meand3
    meanlogd3 := at0 MpVals.meanlogd3 M.meanlogd3 }

/-- `finalize` of a `LogMultipole` object, corr3base.py:1810-1818, 1836, 1850-1854, 1865-1874 (see `finalizeMp`). -/
def MpObj.finalize {K : Type} (F : FinParams3) (logd2 logd3 : ℤ → ℤ → ℤ → ℝ) (M : MpObj K) : MpObj K :=
  let R := finalizeMp F logd2 logd3 M.maxn ⟨M.ntri, fun i j n => (M.weight i j n).re, M.meand2, M.meanlogd2, M.meand3, M.meanlogd3⟩
  { M with ntri := R.ntri, meand2 := R.meand2, meanlogd2 := R.meanlogd2, meand3 := R.meand3, meanlogd3 := R.meanlogd3 }

/-- `toSAS` without arguments, corr3base.py:1963-1969: the angles from 0 to π in `max_n` bins.  With `max_n = 0` the constructor divides
by zero (561). -/
def toSasDefault {K : Type} (M : MpObj K) : Option (SasObj K) :=
  if M.maxn = 0 then none else some (toSas M ⟨0, Real.pi, M.maxn, 1⟩)

/-- The `max_n` of `process`: the one given, or `2π/phi_bin_size`, rounded down by the constructor (corr3base.py:1737-1739, 576). -/
def PhiBins.maxN (B : PhiBins) (given : Option ℕ) : ℕ :=
  match given with
  | some m => m
  | none => ⌊2 * Real.pi / B.size⌋₊

/-- `process` of a `LogSAS` object with the default `algo`, corr3base.py:1732-1747: the object itself is written over.  `run` is the
accumulation (1770-1778), which adds to the object it is given; `initialize` clears that object first (1767-1768). -/
def processSas {K : Type} (run : MpObj K → Option (MpObj K)) (F : FinParams3) (logd2 logd3 : ℤ → ℤ → ℤ → ℝ) (B : PhiBins)
    (given : Option ℕ) (init fin : Bool) (_self : SasObj K) : Option (SasObj K) := do
  let corr := MpObj.new K (B.maxN given)
  let corr := if init then MpObj.new K corr.maxn else corr
  let corr ← run corr
  let corr := if fin then corr.finalize F logd2 logd3 else corr
  pure (toSas corr B)

/-- The accumulation of one catalogue without patches. -/
def runAuto {K P : Type} [PseudoMetricSpace P] (p : Params) (ph : P → P → ℂ) (cells : List (Cell P)) (M : MpObj K) : Option (MpObj K) :=
  (multipoleAuto p M.maxn ph cells).map M.add

end
end TreeCorr
