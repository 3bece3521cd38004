import Mathlib.Analysis.SpecialFunctions.Log.Basic
import Verif.Model.Bin

/-!
Model of the binning part of the two-point constructor, `/repo/treecorr/corr2base.py:327-480`.  Floats are exact
reals: overflow, NaN and rounding are not modelled.
-/

namespace TreeCorr
open Classical
noncomputable section

/-- The Python exceptions that the modelled functions raise. -/
inductive PyErr where
  | typeError
  | valueError
  | zeroDivision
  | indexError
  | keyError
  | attributeError
  | assertion
  deriving DecidableEq

/-- A value in the configuration: the key is absent, or present with value None, or has a value. -/
inductive Arg (α : Type) where
  | absent
  | none
  | val (a : α)

/-- `config.get(key, None)`. -/
def Arg.get {α : Type} : Arg α → Option α
  | .val a => some a
  | _ => Option.none

/-- `bin_type`. -/
inductive BinType where
  | log
  | linear
  | twoD
  deriving DecidableEq

/-- The configuration values that determine the bins (after `merge_config`).  `sepUnits` is the unit in radians,
1 when no unit is given. -/
structure BinConfig where
  minsep : Arg ℝ := .absent
  maxsep : Arg ℝ := .absent
  nbins : Arg ℤ := .absent
  binsize : Arg ℝ := .absent
  binSlop : Arg ℝ := .absent
  angleSlop : Arg ℝ := .absent
  sepUnits : ℝ := 1

/-- The attributes `min_sep`, `max_sep`, `nbins`, `bin_size` of a correlation object. -/
structure Bins where
  minsep : ℝ
  maxsep : ℝ
  nbins : ℤ
  binsize : ℝ

/-- Which of the four is still to be computed after the first stage. -/
inductive RawBins where
  | noNbins (minsep maxsep binsize : ℝ)
  | noSize (minsep maxsep : ℝ) (nbins : ℤ)
  | noMax (minsep : ℝ) (nbins : ℤ) (binsize : ℝ)
  | noMin (maxsep : ℝ) (nbins : ℤ) (binsize : ℝ)

/-- The check that `min_sep` is there (unless TwoD) followed by `float(self.config.get('min_sep',0))`,
/repo/treecorr/corr2base.py:333-337. -/
def getMinSep (bt : BinType) (c : BinConfig) : Except PyErr ℝ :=
  if c.minsep.get = none ∧ bt ≠ .twoD then .error .typeError
  else match c.minsep with
    | .absent => .ok 0
    | .none => .error .typeError
    | .val v => .ok v

/-- First stage, /repo/treecorr/corr2base.py:330-371. -/
def parseBins (bt : BinType) (c : BinConfig) : Except PyErr RawBins :=
  match c.nbins.get, c.binsize.get, c.maxsep.get with
  | none, bs, mx =>
    match mx with
    | none => .error .typeError
    | some mx =>
      if c.minsep.get = none ∧ bt ≠ .twoD then .error .typeError
      else match bs with
      | none => .error .typeError
      | some bs => do
        let mn ← getMinSep bt c
        if mn ≥ mx then .error .valueError else .ok (.noNbins mn mx bs)
  | some n, none, mx =>
    match mx with
    | none => .error .typeError
    | some mx => do
      let mn ← getMinSep bt c
      if mn ≥ mx then .error .valueError else .ok (.noSize mn mx n)
  | some n, some bs, none => do
    let mn ← getMinSep bt c
    .ok (.noMax mn n bs)
  | some n, some bs, some mx =>
    if bt = .twoD then .error .typeError
    else if c.minsep.get ≠ none then .error .typeError
    else .ok (.noMin mx n bs)

/-- `a/b` in Python. -/
def pyDiv (a b : ℝ) : Except PyErr ℝ := if b = 0 then .error .zeroDivision else .ok (a / b)

/-- `math.log`. -/
def pyLog (x : ℝ) : Except PyErr ℝ := if x ≤ 0 then .error .valueError else .ok (Real.log x)

/-- The Log branch, /repo/treecorr/corr2base.py:373-396: also `np.linspace` rejects a negative number of
samples (:386), `math.log(self.min_sep)` can fail (:389), and `0.1 / self.bin_size` (:396). -/
def logStage (r : RawBins) : Except PyErr Bins :=
  match r with
  | .noNbins mn mx bs => do
    let q ← pyDiv mx mn
    let L ← pyLog q
    let t ← pyDiv L bs
    let n := ⌈t⌉
    let bs' ← pyDiv L n
    pure ⟨mn, mx, n, bs'⟩
  | .noSize mn mx n => do
    let q ← pyDiv mx mn
    let L ← pyLog q
    let bs' ← pyDiv L n
    pure ⟨mn, mx, n, bs'⟩
  | .noMax mn n bs => pure ⟨mn, Real.exp (n * bs) * mn, n, bs⟩
  | .noMin mx n bs => pure ⟨mx * Real.exp (-n * bs), mx, n, bs⟩

/-- The checks at the end of this branch. -/
def logFinish (B : Bins) : Except PyErr Bins :=
  if B.nbins < 0 then .error .valueError
  else do
    let _ ← pyLog B.minsep
    let _ ← pyDiv 0.1 B.binsize
    pure B

/-- The whole branch. -/
def logBins (r : RawBins) : Except PyErr Bins := logStage r >>= logFinish

/-- The Linear branch, /repo/treecorr/corr2base.py:397-421. -/
def linearStage (r : RawBins) : Except PyErr Bins :=
  match r with
  | .noNbins mn mx bs => do
    let t ← pyDiv (mx - mn) bs
    let n := ⌈t⌉
    let bs' ← pyDiv (mx - mn) n
    pure ⟨mn, mx, n, bs'⟩
  | .noSize mn mx n => do
    let bs' ← pyDiv (mx - mn) n
    pure ⟨mn, mx, n, bs'⟩
  | .noMax mn n bs => pure ⟨mn, mn + n * bs, n, bs⟩
  | .noMin mx n bs => pure ⟨mx - n * bs, mx, n, bs⟩

/-- The checks at the end of this branch. -/
def linearFinish (B : Bins) : Except PyErr Bins :=
  if B.nbins < 0 then .error .valueError
  else do
    let _ ← pyDiv 0.1 B.binsize
    pure B

/-- The whole branch. -/
def linearBins (r : RawBins) : Except PyErr Bins := linearStage r >>= linearFinish

/-- The TwoD branch, /repo/treecorr/corr2base.py:422-447. -/
def twoDStage (r : RawBins) : Except PyErr Bins :=
  match r with
  | .noNbins mn mx bs => do
    let t ← pyDiv (2 * mx) bs
    let n := ⌈t⌉
    let bs' ← pyDiv (2 * mx) n
    pure ⟨mn, mx, n, bs'⟩
  | .noSize mn mx n => do
    let bs' ← pyDiv (2 * mx) n
    pure ⟨mn, mx, n, bs'⟩
  | .noMax mn n bs => pure ⟨mn, n * bs / 2, n, bs⟩
  | .noMin mx n bs => pure ⟨0, mx, n, bs⟩

/-- The checks at the end of this branch. -/
def twoDFinish (B : Bins) : Except PyErr Bins :=
  if B.nbins < 0 then .error .valueError else pure B

/-- The whole branch. -/
def twoDBins (r : RawBins) : Except PyErr Bins := twoDStage r >>= twoDFinish

/-- The four attributes for a configuration. -/
def makeBins (bt : BinType) (c : BinConfig) : Except PyErr Bins := do
  let r ← parseBins bt c
  match bt with
  | .log => logBins r
  | .linear => linearBins r
  | .twoD => twoDBins r

/-- `np.linspace(a, b, n, endpoint=False)[k]`. -/
def linspace (a b : ℝ) (n : ℤ) (k : ℕ) : ℝ := a + k * ((b - a) / n)

/-- `left_edges[k]` for Log bins, /repo/treecorr/corr2base.py:385-392. -/
def logLeft (B : Bins) (k : ℕ) : ℝ :=
  let logr := linspace 0 (B.nbins * B.binsize) B.nbins k + (Real.log B.minsep + 0.5 * B.binsize)
  Real.exp logr / Real.exp (0.5 * B.binsize)

/-- `right_edges[k]` for Log bins, /repo/treecorr/corr2base.py:385-393. -/
def logRight (B : Bins) (k : ℕ) : ℝ :=
  let logr := linspace 0 (B.nbins * B.binsize) B.nbins k + (Real.log B.minsep + 0.5 * B.binsize)
  Real.exp logr * Real.exp (0.5 * B.binsize)

/-- `left_edges[k]` for Linear bins, /repo/treecorr/corr2base.py:409-413. -/
def linLeft (B : Bins) (k : ℕ) : ℝ :=
  linspace B.minsep B.maxsep B.nbins k + 0.5 * B.binsize - 0.5 * B.binsize

/-- `right_edges[k]` for Linear bins, /repo/treecorr/corr2base.py:409-414. -/
def linRight (B : Bins) (k : ℕ) : ℝ :=
  linspace B.minsep B.maxsep B.nbins k + 0.5 * B.binsize + 0.5 * B.binsize

/-- `left_edges[j,i]` for TwoD bins (and `bottom_edges[i,j]`), /repo/treecorr/corr2base.py:431-439. -/
def twoDLeft (B : Bins) (i : ℕ) : ℝ :=
  linspace (-B.maxsep) B.maxsep B.nbins i + 0.5 * B.binsize - 0.5 * B.binsize

/-- `right_edges[j,i]` for TwoD bins (and `top_edges[i,j]`). -/
def twoDRight (B : Bins) (i : ℕ) : ℝ :=
  linspace (-B.maxsep) B.maxsep B.nbins i + 0.5 * B.binsize + 0.5 * B.binsize

/-- `max_good_slop`, /repo/treecorr/corr2base.py:396,418-421,447. -/
def maxGoodSlop (bt : BinType) (B : Bins) : ℝ :=
  match bt with
  | .log => 0.1 / B.binsize
  | .linear => 0.1 * (B.minsep + B.binsize / 2) / B.binsize
  | .twoD => 0.1

/-- `bin_slop`, /repo/treecorr/corr2base.py:472-475. -/
def binSlop (bt : BinType) (c : BinConfig) (B : Bins) : ℝ :=
  let s := match c.binSlop.get with
    | some s => s
    | none => -1
  if s < 0 then min (maxGoodSlop bt B) 1 else s

/-- The values handed to the C++ layer, /repo/treecorr/corr2base.py:459-476, 635-636.  Note that `b` is in the
user's units. -/
def cppParams (bt : BinType) (c : BinConfig) (defaultAngleSlop : ℝ) (B : Bins) : Params where
  minsep := B.minsep * c.sepUnits
  maxsep := B.maxsep * c.sepUnits
  nbins := if bt = .twoD then B.nbins ^ 2 else B.nbins
  binsize := if bt = .log then B.binsize else B.binsize * c.sepUnits
  b := B.binsize * binSlop bt c B
  a := match c.angleSlop.get with
    | some a => a
    | none => defaultAngleSlop

end
end TreeCorr
