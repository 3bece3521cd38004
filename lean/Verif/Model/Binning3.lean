import Verif.Model.Binning
import Verif.Model.Corr3
import Mathlib.Analysis.SpecialFunctions.Trigonometric.Basic

/-!
Model of the binning part of the three-point constructor, `/repo/treecorr/corr3base.py:410-700`.  Floats are exact reals.
-/

namespace TreeCorr
open Classical
noncomputable section

/-- Whether the key is in the configuration. -/
def Arg.present {α : Type} : Arg α → Bool
  | .absent => false
  | _ => true

/-- `float(config.get(key, d))`: `float(None)` is a `TypeError`. -/
def Arg.float (d : ℝ) : Arg ℝ → Except PyErr ℝ
  | .absent => .ok d
  | .none => .error .typeError
  | .val v => .ok v

/-- The values for `u`, for `v` or for `phi`. -/
structure LinConfig where
  lo : Arg ℝ := .absent
  hi : Arg ℝ := .absent
  size : Arg ℝ := .absent
  n : Arg ℤ := .absent

/-- Whether any of the four keys is in the configuration. -/
def LinConfig.any (c : LinConfig) : Bool := c.lo.present || c.hi.present || c.size.present || c.n.present

/-- The configuration of a three-point correlation: the separations and slops (`sep`), and the other quantities.  `phiUnits` is the unit of
`phi` in radians. -/
structure BinConfig3 where
  sep : BinConfig := {}
  u : LinConfig := {}
  v : LinConfig := {}
  phi : LinConfig := {}
  phiUnits : ℝ := 1
  maxn : Arg ℤ := .absent

/-- The bins of `u`, `v` or `phi`. -/
structure LinBins where
  lo : ℝ
  hi : ℝ
  n : ℤ
  size : ℝ

/-- `ubin_size = (max_u-min_u)/nubins`, and later `np.linspace` rejects a negative number, corr3base.py:495, 519, 559, 645-651, 670. -/
def linFinish (lo hi : ℝ) (n : ℤ) : Except PyErr LinBins := do
  let s ← pyDiv (hi - lo) n
  if n < 0 then .error .valueError else .ok ⟨lo, hi, n, s⟩

/-- `u` for `LogRUV`, corr3base.py:475-495. -/
def uBins (c : LinConfig) (binsize : ℝ) : Except PyErr LinBins := do
  let lo ← c.lo.float 0
  let hi ← c.hi.float 1
  if lo < 0 ∨ hi > 1 then .error .valueError
  else if lo ≥ hi then .error .valueError
  else do
    let s ← c.size.float binsize
    match c.n with
    | .absent => do
      let t ← pyDiv (hi - lo - 1e-10) s
      linFinish lo hi ⌈t⌉
    | .none => .error .typeError
    | .val n =>
      if c.hi.present ∧ c.lo.present ∧ c.size.present then .error .typeError
      else if c.size.present then
        let lo' := if c.lo.present then lo else max (hi - n * s) 0
        let hi' := if c.hi.present then hi else min (lo' + n * s) 1
        linFinish lo' hi' n
      else linFinish lo hi n

/-- `v` for `LogRUV`, corr3base.py:499-519. -/
def vBins (c : LinConfig) (binsize : ℝ) : Except PyErr LinBins := do
  let lo ← c.lo.float 0
  let hi ← c.hi.float 1
  if lo < 0 ∨ hi > 1 then .error .valueError
  else if lo ≥ hi then .error .valueError
  else do
    let s ← c.size.float binsize
    match c.n with
    | .absent => do
      let t ← pyDiv (hi - lo - 1e-10) s
      linFinish lo hi ⌈t⌉
    | .none => .error .typeError
    | .val n =>
      if c.hi.present ∧ c.lo.present ∧ c.size.present then .error .typeError
      else if c.size.present then
        if c.hi.present then linFinish (max (hi - n * s) (-1)) hi n
        else linFinish lo (min (lo + n * s) 1) n
      else linFinish lo hi n

/-- `phi` for `LogSAS`, corr3base.py:529-559; all values are in radians afterwards. -/
def phiBins (c : LinConfig) (units binsize : ℝ) : Except PyErr LinBins := do
  let lo ← c.lo.float 0
  let hi ← c.hi.float (Real.pi / units)
  let lo := lo * units
  let hi := hi * units
  if lo < 0 ∨ hi > Real.pi then .error .valueError
  else if lo ≥ hi then .error .valueError
  else do
    let s ← c.size.float binsize
    match c.n with
    | .absent => do
      let t ← pyDiv (hi - lo - 1e-10) s
      linFinish lo hi ⌈t⌉
    | .none => .error .typeError
    | .val n =>
      if c.hi.present ∧ c.lo.present ∧ c.size.present then .error .typeError
      else if c.size.present then
        if c.hi.present then linFinish (max (hi - n * s) 0) hi n
        else linFinish lo (min (lo + n * s) Real.pi) n
      else linFinish lo hi n

/-- The bins in separation, corr3base.py:413-455, 638-641, with the nominal `bin_size` that the other quantities take as default. -/
def sepBins (c : BinConfig) : Except PyErr (Bins × ℝ) := do
  let r ← parseBins .log c
  let B ← logStage r
  if B.nbins < 0 then .error .valueError
  else do
    let _ ← pyLog B.minsep
    match r with
    | .noNbins _ _ bs => .ok (B, bs)
    | _ => .ok (B, B.binsize)

/-- A tolerance `b`, `bu`, `bv` for bins of the given size, corr3base.py:584-624. -/
def slopOf (c : BinConfig) (size : ℝ) : ℝ :=
  let s := match c.binSlop.get with
    | some s => s
    | none => -1
  if s < 0 then if size ≤ 0.1 then size else 0.1 else size * s

/-- `angle_slop`, corr3base.py:585-588; `d` is the class's default. -/
def angleSlop3 (c : BinConfig) (d : ℝ) : ℝ :=
  match c.angleSlop.get with
  | some a => a
  | none => d

/-- What is handed to C++ for `bin_type='LogRUV'`, corr3base.py:464-521, 584-624, 970-978. -/
def makeRuv (c : BinConfig3) (dflt : ℝ) : Except PyErr Prm3 := do
  let (B, bs) ← sepBins c.sep
  if c.phi.any || c.maxn.present then .error .typeError
  else do
    let U ← uBins c.u bs
    let V ← vBins c.v bs
    .ok { minsep := B.minsep * c.sep.sepUnits, maxsep := B.maxsep * c.sep.sepUnits, nbins := B.nbins, binsize := B.binsize
          b := slopOf c.sep B.binsize, a := angleSlop3 c.sep dflt
          minu := U.lo, maxu := U.hi, nubins := U.n, ubinsize := U.size, bu := slopOf c.sep U.size
          minv := V.lo, maxv := V.hi, nvbins := V.n, vbinsize := V.size, bv := slopOf c.sep V.size }

/-- What is handed to C++ for `bin_type='LogSAS'`, corr3base.py:522-560, 584-624, 970-978. -/
def makeSas (c : BinConfig3) (dflt : ℝ) : Except PyErr Prm3 := do
  let (B, bs) ← sepBins c.sep
  if c.u.any || c.v.any then .error .typeError
  else do
    let U ← phiBins c.phi c.phiUnits bs
    .ok { minsep := B.minsep * c.sep.sepUnits, maxsep := B.maxsep * c.sep.sepUnits, nbins := B.nbins, binsize := B.binsize
          b := slopOf c.sep B.binsize, a := angleSlop3 c.sep dflt
          minu := U.lo, maxu := U.hi, nubins := U.n, ubinsize := U.size, bu := slopOf c.sep U.size
          minv := 0, maxv := 0, nvbins := 0, vbinsize := 0, bv := 0 }

/-- What is handed to C++ for `bin_type='LogMultipole'`, corr3base.py:561-574: the bins and `max_n`. -/
def makeMultipole (c : BinConfig3) : Except PyErr (Bins × ℤ) := do
  let (B, _) ← sepBins c.sep
  if c.u.any || c.v.any || c.phi.any then .error .typeError
  else match c.maxn.get with
    | none => .error .typeError
    | some n => if n < 0 then .error .valueError else .ok (B, n)

/-! ### The tables of nominal values -/

/-- `logr1d[k]`, corr3base.py:638-641. -/
def logr1d (B : Bins) (k : ℕ) : ℝ := linspace 0 (B.nbins * B.binsize) B.nbins k + (Real.log B.minsep + 0.5 * B.binsize)

/-- `u1d[k]`, `phi1d[k]` and, before the negative values are put in front, `v1d[k]`, corr3base.py:645-651, 670-672. -/
def lin1d (L : LinBins) (k : ℕ) : ℝ := linspace 0 (L.n * L.size) L.n k + (L.lo + 0.5 * L.size)

/-- `v1d[k]` after `np.concatenate([-v1d[::-1], v1d])`, corr3base.py:652. -/
def v1d (L : LinBins) (k : ℕ) : ℝ := if (k : ℤ) < L.n then -lin1d L (L.n.toNat - 1 - k) else lin1d L (k - L.n.toNat)

/-- `logr.ravel()[k]` for `LogRUV`, of shape `(nbins, nubins, 2 nvbins)`, corr3base.py:654-655. -/
def logrTable (B : Bins) (U V : LinBins) (k : ℕ) : ℝ := logr1d B (k / (2 * V.n.toNat) / U.n.toNat)

/-- `u.ravel()[k]`, corr3base.py:656-657. -/
def uTable (U V : LinBins) (k : ℕ) : ℝ := lin1d U (k / (2 * V.n.toNat) % U.n.toNat)

/-- `v.ravel()[k]`, corr3base.py:658-659. -/
def vTable (V : LinBins) (k : ℕ) : ℝ := v1d V (k % (2 * V.n.toNat))

/-- `logd2.ravel()[k]` for `LogSAS`, of shape `(nbins, nbins, nphi_bins)`, corr3base.py:673-674. -/
def logd2Table (B : Bins) (L : LinBins) (k : ℕ) : ℝ := logr1d B (k / L.n.toNat / B.nbins.toNat)

/-- `logd3.ravel()[k]`, corr3base.py:675-676. -/
def logd3Table (B : Bins) (L : LinBins) (k : ℕ) : ℝ := logr1d B (k / L.n.toNat % B.nbins.toNat)

/-- `phi.ravel()[k]`, corr3base.py:677-678. -/
def phiTable (L : LinBins) (k : ℕ) : ℝ := lin1d L (k % L.n.toNat)

end
end TreeCorr
