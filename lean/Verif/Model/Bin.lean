import Mathlib.Analysis.SpecialFunctions.Log.Basic
import Mathlib.Algebra.Order.Floor.Ring
import Mathlib.Analysis.InnerProductSpace.PiL2

/-!
Model of the binning helpers and the split rule:
`/repo/include/BinType.h:40-378` (`BinTypeHelper<Log|Linear|TwoD>`) and `/repo/include/Split.h:82-101`.
Doubles are exact reals.
-/

namespace TreeCorr
open Classical
noncomputable section

/-- C++ conversion `int(x)`: truncation towards zero. -/
def truncInt (x : ℝ) : ℤ := if 0 ≤ x then ⌊x⌋ else ⌈x⌉

/-- The parameters held by `BaseCorr2`, /repo/src/Corr2.cpp:55-80.  `logminsep`, `halfminsep` and
the squares are derived there and written out below. -/
structure Params where
  minsep : ℝ
  maxsep : ℝ
  nbins : ℤ
  binsize : ℝ
  b : ℝ
  a : ℝ

/-- The out-parameters `k, r, logr` of `singleBin`; process11 initialises them to `-1, 0, 0`
(/repo/src/Corr2.cpp:335-336). -/
structure BinOut where
  k : ℤ := -1
  r : ℝ := 0
  logr : ℝ := 0

/-- The static members of a `BinTypeHelper<B>` that the two-point code uses. -/
structure BinHelper (P : Type) where
  /-- `do_reverse` -/
  doReverse : Bool
  /-- `getEffectiveBSq(rsq, bsq, asq)` -/
  effBSq : ℝ → Params → ℝ
  /-- `isRSqInRange` -/
  inRange : ℝ → P → P → Params → Prop
  /-- `tooSmallDist(rsq, s1ps2, minsep, minsepsq)` -/
  tooSmall : ℝ → ℝ → Params → Prop
  /-- `tooLargeDist(rsq, s1ps2, maxsep, maxsepsq)` -/
  tooLarge : ℝ → ℝ → Params → Prop
  /-- `calculateBinK` -/
  binK : P → P → ℝ → ℝ → Params → ℤ
  /-- `singleBin`; `none` is `return false`. -/
  singleBin : ℝ → ℝ → P → P → Params → Option BinOut

/-- `BinTypeHelper<Log>::singleBin`, /repo/include/BinType.h:93-151. -/
def logSingleBin (rsq s : ℝ) (p : Params) : Option BinOut :=
  if s = 0 then some {}
  else
    let ssq := s * s
    if ssq > p.a ^ 2 * rsq then none
    else if ssq ≤ p.b ^ 2 * rsq then some {}
    else if ssq > 0.25 * (p.binsize + p.b) ^ 2 * rsq then none
    else
      let logr := 0.5 * Real.log rsq
      let kk := (logr - Real.log p.minsep) / p.binsize
      let ik := truncInt kk
      let frackk := kk - ik
      let f := min frackk (1 - frackk)
      if ssq > (f * p.binsize + p.b) ^ 2 * rsq then none
      else if ssq > (frackk * p.binsize + p.b - ssq / rsq) ^ 2 * rsq then none
      else some { k := ik, r := Real.sqrt rsq, logr := logr }

/-- `BinTypeHelper<Log>`, /repo/include/BinType.h:40-156. -/
def logBin (P : Type) : BinHelper P where
  doReverse := false
  effBSq := fun rsq p => rsq * min (p.b ^ 2) (p.a ^ 2)
  inRange := fun rsq _ _ p => rsq ≥ p.minsep ^ 2 ∧ rsq < p.maxsep ^ 2
  tooSmall := fun rsq s p => rsq < p.minsep ^ 2 ∧ s < p.minsep ∧ rsq < (p.minsep - s) ^ 2
  tooLarge := fun rsq s p => rsq ≥ p.maxsep ^ 2 ∧ rsq ≥ (p.maxsep + s) ^ 2
  binK := fun _ _ _ logr p => truncInt ((logr - Real.log p.minsep) / p.binsize)
  singleBin := fun rsq s _ _ p => logSingleBin rsq s p

/-- `BinTypeHelper<Linear>::singleBin`, /repo/include/BinType.h:197-245. -/
def linearSingleBin (rsq s : ℝ) (p : Params) : Option BinOut :=
  if s ^ 2 > p.a ^ 2 * rsq then none
  else if s ≤ p.b then some {}
  else if s > 0.5 * (p.binsize + p.b) then none
  else
    let r := Real.sqrt rsq
    let kk := (r - p.minsep) / p.binsize
    let ik := truncInt kk
    let frackk := kk - ik
    let f := min frackk (1 - frackk)
    if s > f * p.binsize + p.b then none
    else some { k := ik, r := r, logr := Real.log r }

/-- `BinTypeHelper<Linear>`, /repo/include/BinType.h:158-249. -/
def linearBin (P : Type) : BinHelper P where
  doReverse := false
  effBSq := fun rsq p => min (p.b ^ 2) (p.a ^ 2 * rsq)
  inRange := fun rsq _ _ p => rsq ≥ p.minsep ^ 2 ∧ rsq < p.maxsep ^ 2
  tooSmall := fun rsq s p => rsq < p.minsep ^ 2 ∧ s < p.minsep ∧ rsq < (p.minsep - s) ^ 2
  tooLarge := fun rsq s p => rsq ≥ p.maxsep ^ 2 ∧ rsq ≥ (p.maxsep + s) ^ 2
  binK := fun _ _ r _ p => truncInt ((r - p.minsep) / p.binsize)
  singleBin := fun rsq s _ _ p => linearSingleBin rsq s p

/-- `Position<Flat>`: /repo/include/Position.h:30-120. -/
abbrev Flat2 := EuclideanSpace ℝ (Fin 2)

/-- The number of pixels per side, `int n = int(2*maxsep / binsize+0.5)`,
/repo/include/BinType.h:303,366. -/
def twoDn (p : Params) : ℤ := truncInt (2 * p.maxsep / p.binsize + 0.5)

/-- `BinTypeHelper<TwoD>::calculateBinK`, /repo/include/BinType.h:294-310. -/
def twoDBinK (p1 p2 : Flat2) (p : Params) : ℤ :=
  let dx := p2 0 - p1 0
  let dy := p2 1 - p1 1
  let i := truncInt ((dx + p.maxsep) / p.binsize)
  let j := truncInt ((dy + p.maxsep) / p.binsize)
  let n := twoDn p
  let i := if i = n then i - 1 else i
  let j := if j = n then j - 1 else j
  j * n + i

/-- `BinTypeHelper<TwoD>::singleBin`, /repo/include/BinType.h:312-374.  Note that `r` is not set. -/
def twoDSingleBin (rsq s : ℝ) (p1 p2 : Flat2) (p : Params) : Option BinOut :=
  if s ^ 2 > p.a ^ 2 * rsq then none
  else if s ≤ p.b then some {}
  else if s > 0.5 * (p.binsize + p.b) then none
  else
    let dx := p2 0 - p1 0
    let dy := p2 1 - p1 1
    let ii := (dx + p.maxsep) / p.binsize
    let jj := (dy + p.maxsep) / p.binsize
    let i := truncInt ii
    let j := truncInt jj
    let mid := truncInt (p.maxsep / p.binsize)
    if i = mid ∧ j = mid then none
    else if ii - s / p.binsize < i then none
    else if ii + s / p.binsize ≥ i + 1 then none
    else if jj - s / p.binsize < j then none
    else if jj + s / p.binsize ≥ j + 1 then none
    else some { k := j * twoDn p + i, logr := 0.5 * Real.log rsq }

/-- `BinTypeHelper<TwoD>`, /repo/include/BinType.h:251-378. -/
def twoDBin : BinHelper Flat2 where
  doReverse := true
  effBSq := fun rsq p => min (p.b ^ 2) (p.a ^ 2 * rsq)
  inRange := fun rsq p1 p2 p =>
    if rsq = 0 ∨ rsq < p.minsep ^ 2 then False
    else max |p1 0 - p2 0| |p1 1 - p2 1| < p.maxsep
  tooSmall := fun rsq s p => rsq < p.minsep ^ 2 ∧ s < p.minsep ∧ rsq < (p.minsep - s) ^ 2
  tooLarge := fun rsq s p => rsq ≥ 2 * p.maxsep ^ 2 ∧ rsq ≥ (Real.sqrt 2 * p.maxsep + s) ^ 2
  binK := fun p1 p2 _ _ p => twoDBinK p1 p2 p
  singleBin := twoDSingleBin

/-- `CalcSplitSq` with both flags false on input, /repo/include/Split.h:82-101.  The one level of
recursion of the C++ (swap so that `s1` is the larger) is written out. -/
def calcSplitSq (s1 s2 bsq : ℝ) : Bool × Bool :=
  if s2 > s1 then
    if s2 > 2 * s1 then (false, true) else (decide (s1 * s1 > 0.3422 * bsq), true)
  else
    if s1 > 2 * s2 then (true, false) else (true, decide (s2 * s2 > 0.3422 * bsq))

end
end TreeCorr
