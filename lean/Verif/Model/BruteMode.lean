import Verif.Model.Corr2
import Verif.Model.Tree

/-!
Model of the option `brute`: /repo/treecorr/corr2base.py:253,488,1027,1066,1072, /repo/treecorr/corr3base.py:342,
/repo/treecorr/field.py:547-566 and /repo/src/Cell.cpp:592-605.

A field built with `brute` has the tree of minimum size 0, in which every inner cell is given the size infinity.  So the tests of the
traversal are written here once more for sizes that are doubles with infinities and NaN; everything else is a real number as before.
-/

namespace TreeCorr
open Classical
noncomputable section

/-- A double: a number (rounding is not modelled), one of the infinities, or NaN. -/
inductive Dbl where
  | fin (x : ℝ)
  | inf
  | ninf
  | nan

namespace Dbl

/-- `-x` -/
def neg : Dbl → Dbl
  | fin x => fin (-x)
  | inf => ninf
  | ninf => inf
  | nan => nan

/-- `x + y`, with `inf + (-inf)` NaN. -/
def add : Dbl → Dbl → Dbl
  | nan, _ => nan
  | _, nan => nan
  | inf, ninf => nan
  | ninf, inf => nan
  | inf, _ => inf
  | _, inf => inf
  | ninf, _ => ninf
  | _, ninf => ninf
  | fin x, fin y => fin (x + y)

/-- `x - y` -/
def sub (a b : Dbl) : Dbl := add a (neg b)

/-- An infinity times a number. -/
def scale (x : ℝ) : Dbl := if 0 < x then inf else if x < 0 then ninf else nan

/-- `x * y`, with `0 * inf` NaN. -/
def mul : Dbl → Dbl → Dbl
  | nan, _ => nan
  | _, nan => nan
  | inf, inf => inf
  | ninf, ninf => inf
  | inf, ninf => ninf
  | ninf, inf => ninf
  | inf, fin x => scale x
  | fin x, inf => scale x
  | ninf, fin x => neg (scale x)
  | fin x, ninf => neg (scale x)
  | fin x, fin y => fin (x * y)

/-- `x / y` for a number `y` that is not 0. -/
def div (a : Dbl) (y : ℝ) : Dbl := mul a (fin y⁻¹)

/-- `SQR(x)` -/
def sq (a : Dbl) : Dbl := mul a a

/-- `x < y`: false when one is NaN. -/
def lt : Dbl → Dbl → Prop
  | nan, _ => False
  | _, nan => False
  | fin x, fin y => x < y
  | inf, _ => False
  | _, ninf => False
  | ninf, _ => True
  | _, inf => True

/-- `x <= y`: false when one is NaN. -/
def le : Dbl → Dbl → Prop
  | nan, _ => False
  | _, nan => False
  | fin x, fin y => x ≤ y
  | _, inf => True
  | ninf, _ => True
  | inf, _ => False
  | _, ninf => False

end Dbl

open Dbl

/-- `getSize()` of a cell of a field built with or without `brute`, /repo/src/Cell.cpp:592-605. -/
def Cell.sizeD {P : Type} (brute : Bool) : Cell P → Dbl
  | .leaf _ _ => fin 0
  | .node _ s _ _ => if brute then inf else fin s

/-- The static members of `BinTypeHelper<B>` that look at a size, for sizes that are doubles; the rest is in `base`. -/
structure BinHelperD (P : Type) where
  base : BinHelper P
  tooSmall : ℝ → Dbl → Params → Prop
  tooLarge : ℝ → Dbl → Params → Prop
  singleBin : ℝ → Dbl → P → P → Params → Option BinOut

/-- `tooSmallDist` of the three kinds of binning, /repo/include/BinType.h:70-76,179-182,282-285. -/
def tooSmallD (rsq : ℝ) (s : Dbl) (p : Params) : Prop :=
  rsq < p.minsep ^ 2 ∧ lt s (fin p.minsep) ∧ lt (fin rsq) (sq (sub (fin p.minsep) s))

/-- `tooLargeDist` of Log and Linear, /repo/include/BinType.h:77-82,183-186. -/
def tooLargeD (rsq : ℝ) (s : Dbl) (p : Params) : Prop :=
  rsq ≥ p.maxsep ^ 2 ∧ le (sq (add (fin p.maxsep) s)) (fin rsq)

/-- `BinTypeHelper<Log>::singleBin`, /repo/include/BinType.h:93-151. -/
def logSingleBinD (rsq : ℝ) (s : Dbl) (p : Params) : Option BinOut :=
  if s = fin 0 then some {}
  else
    let ssq := mul s s
    if lt (fin (p.a ^ 2 * rsq)) ssq then none
    else if le ssq (fin (p.b ^ 2 * rsq)) then some {}
    else if lt (fin (0.25 * (p.binsize + p.b) ^ 2 * rsq)) ssq then none
    else
      let logr := 0.5 * Real.log rsq
      let kk := (logr - Real.log p.minsep) / p.binsize
      let ik := truncInt kk
      let frackk := kk - ik
      let f := min frackk (1 - frackk)
      if lt (fin ((f * p.binsize + p.b) ^ 2 * rsq)) ssq then none
      else if lt (mul (sq (sub (fin (frackk * p.binsize + p.b)) (div ssq rsq))) (fin rsq)) ssq then none
      else some { k := ik, r := Real.sqrt rsq, logr := logr }

/-- `BinTypeHelper<Log>`, /repo/include/BinType.h:40-156. -/
def logBinD (P : Type) : BinHelperD P where
  base := logBin P
  tooSmall := tooSmallD
  tooLarge := tooLargeD
  singleBin := fun rsq s _ _ p => logSingleBinD rsq s p

/-- `BinTypeHelper<Linear>::singleBin`, /repo/include/BinType.h:197-245. -/
def linearSingleBinD (rsq : ℝ) (s : Dbl) (p : Params) : Option BinOut :=
  if lt (fin (p.a ^ 2 * rsq)) (sq s) then none
  else if le s (fin p.b) then some {}
  else if lt (fin (0.5 * (p.binsize + p.b))) s then none
  else
    let r := Real.sqrt rsq
    let kk := (r - p.minsep) / p.binsize
    let ik := truncInt kk
    let frackk := kk - ik
    let f := min frackk (1 - frackk)
    if lt (fin (f * p.binsize + p.b)) s then none
    else some { k := ik, r := r, logr := Real.log r }

/-- `BinTypeHelper<Linear>`, /repo/include/BinType.h:158-249. -/
def linearBinD (P : Type) : BinHelperD P where
  base := linearBin P
  tooSmall := tooSmallD
  tooLarge := tooLargeD
  singleBin := fun rsq s _ _ p => linearSingleBinD rsq s p

/-- `BinTypeHelper<TwoD>::singleBin`, /repo/include/BinType.h:312-374. -/
def twoDSingleBinD (rsq : ℝ) (s : Dbl) (p1 p2 : Flat2) (p : Params) : Option BinOut :=
  if lt (fin (p.a ^ 2 * rsq)) (sq s) then none
  else if le s (fin p.b) then some {}
  else if lt (fin (0.5 * (p.binsize + p.b))) s then none
  else
    let dx := p2 0 - p1 0
    let dy := p2 1 - p1 1
    let ii := (dx + p.maxsep) / p.binsize
    let jj := (dy + p.maxsep) / p.binsize
    let i := truncInt ii
    let j := truncInt jj
    let mid := truncInt (p.maxsep / p.binsize)
    if i = mid ∧ j = mid then none
    else if lt (sub (fin ii) (div s p.binsize)) (fin i) then none
    else if le (fin (i + 1)) (add (fin ii) (div s p.binsize)) then none
    else if lt (sub (fin jj) (div s p.binsize)) (fin j) then none
    else if le (fin (j + 1)) (add (fin jj) (div s p.binsize)) then none
    else some { k := j * twoDn p + i, logr := 0.5 * Real.log rsq }

/-- `BinTypeHelper<TwoD>`, /repo/include/BinType.h:251-378. -/
def twoDBinD : BinHelperD Flat2 where
  base := twoDBin
  tooSmall := tooSmallD
  tooLarge := fun rsq s p => rsq ≥ 2 * p.maxsep ^ 2 ∧ le (sq (add (fin (Real.sqrt 2 * p.maxsep)) s)) (fin rsq)
  singleBin := twoDSingleBinD

/-- `CalcSplitSq` with both flags false on input, /repo/include/Split.h:82-101. -/
def calcSplitSqD (s1 s2 : Dbl) (bsq : ℝ) : Bool × Bool :=
  if lt s1 s2 then
    if lt (mul (fin 2) s1) s2 then (false, true) else (decide (lt (fin (0.3422 * bsq)) (mul s1 s1)), true)
  else
    if lt (mul (fin 2) s2) s1 then (true, false) else (true, decide (lt (fin (0.3422 * bsq)) (mul s2 s2)))

/-- The decision part of `process11`, /repo/src/Corr2.cpp:292-350, for the metrics that do not change the sizes and have no limits along
the line of sight.  `b1`, `b2` say with which fields `brute` was used. -/
def decide11D {P : Type} [PseudoMetricSpace P] (B : BinHelperD P) (prm : Params) (R : Bool) (b1 b2 : Bool)
    (c1 c2 : Cell P) : Action P :=
  if c1.w = 0 ∨ c2.w = 0 then .drop
  else
    let p1 := c1.pos
    let p2 := c2.pos
    let s1 := c1.sizeD b1
    let s2 := c2.sizeD b2
    let rsq := dist p1 p2 ^ 2
    let s1ps2 := add s1 s2
    if B.tooSmall rsq s1ps2 prm then .drop
    else if B.tooLarge rsq s1ps2 prm then .drop
    else
      match B.singleBin rsq s1ps2 p1 p2 prm with
      | some o =>
        if B.base.inRange rsq p1 p2 prm then .direct (directProcess11 B.base prm R c1 c2 rsq o) else .drop
      | none =>
        let sp := calcSplitSqD s1 s2 (B.base.effBSq rsq prm)
        .split sp.1 sp.2

/-- `process2`, /repo/src/Corr2.cpp:279-290. -/
def process2D {P : Type} (act : Cell P → Cell P → Action P) (prm : Params) (brute : Bool) :
    Cell P → Option (List (Emit P))
  | .leaf d os =>
    if d.w = 0 then some [] else if le ((Cell.leaf d os).sizeD brute) (fin (0.5 * prm.minsep)) then some [] else none
  | .node d s l r =>
    if d.w = 0 then some []
    else if le ((Cell.node d s l r).sizeD brute) (fin (0.5 * prm.minsep)) then some []
    else do
      let a ← process2D act prm brute l
      let b ← process2D act prm brute r
      let c ← process11 act l r
      pure (a ++ b ++ c)

/-- Auto-correlation of a field, /repo/src/Corr2.cpp:146-200 with one thread. -/
def processAutoD {P : Type} (act : Cell P → Cell P → Action P) (prm : Params) (brute : Bool) :
    List (Cell P) → Option (List (Emit P))
  | [] => some []
  | c :: rest => do
    let a ← process2D act prm brute c
    let bs ← rest.mapM (fun c2 => process11 act c c2)
    let b ← processAutoD act prm brute rest
    pure (a ++ bs.flatten ++ b)

/-- Cross-correlation of two fields, /repo/src/Corr2.cpp:202-277 with one thread.  The early exit looks at the sizes of the fields, which
`brute` does not change (/repo/src/Field.cpp:198-202). -/
def processCrossD {P : Type} [PseudoMetricSpace P] (B : BinHelperD P) (prm : Params) (b1 b2 : Bool) (f1 f2 : Field P) :
    Option (List (Emit P)) :=
  if fieldsTooFar B.base (plainMetric P) prm f1 f2 then some []
  else processCrossLoop (decide11D B prm false b1 b2) f1.cells f2.cells

/-- `self.min_size = float(min_size) if not brute else 0.`, /repo/treecorr/field.py:547; the field is then built as usual. -/
def buildFieldD {P : Type} (A : StdAlg P) (g : Geom P) (fp : FieldParams) (brute : Bool) (l : List (Obj P)) : Field P :=
  buildField A g { fp with minsize := if brute then 0 else fp.minsize } l

/-- The value of the attribute `brute`, /repo/treecorr/corr2base.py:488: what `parse_bool` makes of the parameter.  `parse_bool` returns a
numpy bool as it is (/repo/treecorr/config.py:79). -/
inductive BruteOpt where
  | bool (b : Bool)
  | npbool (b : Bool)
  | int (n : ℤ)

/-- `self.brute == n` -/
def BruteOpt.eqInt : BruteOpt → ℤ → Bool
  | .bool b, n => decide ((if b then 1 else 0) = n)
  | .npbool b, n => decide ((if b then 1 else 0) = n)
  | .int m, n => decide (m = n)

/-- `self.brute is True` -/
def BruteOpt.isTrue : BruteOpt → Bool
  | .bool b => b
  | _ => false

/-- `bool(self.brute)`, for the one field of an auto-correlation, /repo/treecorr/corr2base.py:1027. -/
def BruteOpt.auto : BruteOpt → Bool
  | .bool b => b
  | .npbool b => b
  | .int n => decide (n ≠ 0)

/-- `self.brute is True or self.brute == 1` and the same with 2, for the two fields of a cross-correlation,
/repo/treecorr/corr2base.py:1066,1072. -/
def BruteOpt.cross (v : BruteOpt) : Bool × Bool := (v.isTrue || v.eqInt 1, v.isTrue || v.eqInt 2)

/-- The check of the parameter against `[False, True, 1, 2]`, /repo/treecorr/corr2base.py:253 and config.py:278. -/
def BruteOpt.allowed2 (v : BruteOpt) : Bool := v.eqInt 0 || v.eqInt 1 || v.eqInt 1 || v.eqInt 2

/-- The check of the three-point classes against `[False, True]`, /repo/treecorr/corr3base.py:342. -/
def BruteOpt.allowed3 (v : BruteOpt) : Bool := v.eqInt 0 || v.eqInt 1

end
end TreeCorr
