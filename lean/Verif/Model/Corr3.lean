import Mathlib.Analysis.SpecialFunctions.Log.Basic
import Mathlib.Analysis.SpecialFunctions.Trigonometric.Inverse
import Mathlib.Algebra.Order.Floor.Ring
import Mathlib.Algebra.Order.Archimedean.Real.Basic
import Mathlib.Topology.MetricSpace.Pseudo.Defs
import Mathlib.Analysis.InnerProductSpace.PiL2
import Verif.Model.Corr2

/-!
# Three-point counting

Models `/repo/src/Corr3.cpp:69-125, 211-804, 2521-2550` (the constructor, the three `process` functions, `process3`,
`process12`, `process111`, `process111Sorted`, `finishProcess`) and the helpers `BinTypeHelper<LogRUV>` and
`BinTypeHelper<LogSAS>` of `/repo/include/BinType.h:381-1272`.

Simplifications: doubles are reals; the squared sides that `process111` may be handed by its caller are computed again from
the positions (they are the same numbers, as `DistSq` is symmetric and depends on the positions alone); `DistSq` does not change the
sizes (true of the metrics `Euclidean` and `Periodic`); the multipole algorithm (`LogMultipole`) is not here.
-/

namespace TreeCorr
open Classical
noncomputable section

/-- The binning parameters of `BaseCorr3`, /repo/src/Corr3.cpp:68-80.  For `LogSAS` `minu, maxu, nubins, ubinsize, bu`
are the limits, number, size and tolerance of the bins in `phi`. -/
structure Prm3 where
  minsep : ℝ
  maxsep : ℝ
  nbins : ℤ
  binsize : ℝ
  b : ℝ
  a : ℝ
  minu : ℝ
  maxu : ℝ
  nubins : ℤ
  ubinsize : ℝ
  bu : ℝ
  minv : ℝ
  maxv : ℝ
  nvbins : ℤ
  vbinsize : ℝ
  bv : ℝ

/-- `_maxv` for `LogSAS`, /repo/src/Corr3.cpp:92-93: the largest cosine of an allowed angle. -/
def Prm3.maxCos (p : Prm3) : ℝ :=
  if p.minu < 0 ∧ 0 < p.maxu then 1 else max (Real.cos p.minu) (Real.cos p.maxu)

/-- `_minv` for `LogSAS`, /repo/src/Corr3.cpp:94-95. -/
def Prm3.minCos (p : Prm3) : ℝ :=
  if p.minu < Real.pi ∧ Real.pi < p.maxu then -1 else min (Real.cos p.minu) (Real.cos p.maxu)

/-- The signed squares of /repo/src/Corr3.cpp:119-124. -/
def signedSq (x : ℝ) : ℝ := if x < 0 then -(x * x) else x * x

/-- What `MetricHelper<M,0>` provides to the three-point code, /repo/include/Metric.h:110-246. -/
structure Metric3 (P : Type) where
  /-- `DistSq` -/
  distSq : P → P → ℝ
  /-- `CCW` -/
  ccw : P → P → P → Prop

/-- `MetricHelper<Euclidean,0>` for flat positions, /repo/include/Metric.h:139-160. -/
def flatMetric3 : Metric3 (EuclideanSpace ℝ (Fin 2)) where
  distSq := fun p q => ‖p - q‖ ^ 2
  ccw := fun p1 p2 p3 => 0 < (p2 0 - p1 0) * (p3 1 - p1 1) - (p2 1 - p1 1) * (p3 0 - p1 0)

/-- `MetricHelper<Euclidean,0>` for positions in space (and on the unit sphere), /repo/include/Metric.h:196-219. -/
def spaceMetric3 : Metric3 (EuclideanSpace ℝ (Fin 3)) where
  distSq := fun p q => ‖p - q‖ ^ 2
  ccw := fun p1 p2 p3 =>
    let a := p2 - p1
    let b := p3 - p1
    (a 1 * b 2 - a 2 * b 1) * p1 0 + (a 2 * b 0 - a 0 * b 2) * p1 1 + (a 0 * b 1 - a 1 * b 0) * p1 2 < 0

/-- The template argument `O`: 0 (any point may be called 1, 2, 3), 1 (point 1 from the first cell), 3 (as given),
/repo/src/Corr3.cpp:535-539. -/
inductive Ord3 where
  | any | first | fixed
  deriving DecidableEq

/-- The arguments of one call of `finishProcess`, /repo/src/Corr3.cpp:2522-2526. -/
structure Emit3 (P : Type) where
  c1 : Cell P
  c2 : Cell P
  c3 : Cell P
  d1 : ℝ
  d2 : ℝ
  d3 : ℝ
  u : ℝ
  v : ℝ
  logd1 : ℝ
  logd2 : ℝ
  logd3 : ℝ
  index : ℤ

/-- What `process111Sorted` does with three cells. -/
inductive Act3 (P : Type) where
  | drop : Act3 P
  | direct (e : Emit3 P) : Act3 P
  | split (s1 s2 s3 : Bool) : Act3 P

/-- `BinTypeHelper<B>` for the three-point code, with the decisions of `process111Sorted` in one function. -/
structure Bin3 (P : Type) where
  /-- `sort_d123` -/
  sort : Bool
  /-- `swap_23` -/
  swap23 : Bool
  /-- `tooSmallS2`: `s2` -/
  tooSmallS2 : ℝ → Prop
  /-- `tooSmallDist`: `rsq s1ps2` -/
  tooSmallDist : ℝ → ℝ → Prop
  /-- `tooLargeDist`: `rsq s1ps2` -/
  tooLargeDist : ℝ → ℝ → Prop
  /-- `noAllowedAngles<O>`: `rsq s1ps2 s1 s2` -/
  noAngles : Ord3 → ℝ → ℝ → ℝ → ℝ → Prop
  /-- `stop111`, `singleBin`, `isTriangleInRange` -/
  act : Ord3 → Cell P → Cell P → Cell P → Act3 P

/-! ## LogRUV -/

/-- `BinTypeHelper<LogRUV>::stop111`, /repo/include/BinType.h:426-569.  (The test with `minv` divides by `d2`; if that is zero the
quotient is infinite or undefined and the comparison false.) -/
def ruvStop (p : Prm3) (O : Ord3) (d1sq d2sq d3sq s1 s2 s3 : ℝ) : Prop :=
  let d2 := Real.sqrt d2sq
  let d1 := Real.sqrt d1sq
  (d2sq < p.minsep * p.minsep ∧ s1 + s3 < p.minsep ∧ s1 + s2 < p.minsep ∧
    (s1 + s3 = 0 ∨ d2sq < (p.minsep - s1 - s3) ^ 2) ∧ (s1 + s2 = 0 ∨ d3sq < (p.minsep - s1 - s2) ^ 2)) ∨
  (p.maxsep * p.maxsep ≤ d2sq ∧ (s1 + s3 = 0 ∨ (p.maxsep + s1 + s3) ^ 2 ≤ d2sq) ∧
    (s2 + s3 = 0 ∨ (p.maxsep + s2 + s3) ^ 2 ≤ d1sq)) ∨
  (O ≠ .any ∧
    ((O = .fixed ∧ (d2 + 2 * s1 + s2 + s3) ^ 2 < d3sq) ∨
     (s1 + s2 + 2 * s3 < d2 ∧ d1sq < (d2 - (s1 + s2 + 2 * s3)) ^ 2) ∨
     (d1 + s1 + 2 * s2 + s3) ^ 2 < d3sq)) ∨
  (0 < p.minu ∧ d3sq < p.minu * p.minu * d2sq ∧ s1 + s3 < d2 ∧
    (s1 + s2 < p.minu * (d2 - s1 - s3) ∧ d3sq < (p.minu * (d2 - s1 - s3) - s1 - s2) ^ 2) ∧
    (d3sq < p.minu * p.minu * d1sq ∧ 2 * (s2 + s3) ^ 2 < d1sq ∧
      2 * d3sq + 2 * (s1 + s2 + p.minu * (s2 + s3)) ^ 2 < p.minu * p.minu * d1sq)) ∨
  (p.maxu < 1 ∧ p.maxu * p.maxu * d2sq ≤ d3sq ∧ (p.maxu * (d2 + s1 + s3) + s1 + s2) ^ 2 ≤ d3sq ∧
    ((s1 + s3) ^ 2 < d2sq ∧ (s2 + s3) ^ 2 < d1sq ∧ (s3 < s2 ∨ d3sq ≤ (d2 - s3 + s2) ^ 2) ∧
      (s3 < s1 ∨ 2 * d3sq + 2 * (s3 - s1) ^ 2 ≤ d1sq))) ∨
  (p.maxv < 1 ∧ ((1 + p.maxv) * d2 + (s1 + s2 + s3) + p.maxv * (s1 + s2)) ^ 2 < d1sq) ∨
  (0 < p.minv ∧ (s1 + s2) ^ 2 < d3sq ∧ d2 ≠ 0 ∧
    ((d1sq - d2sq) / (2 * d2) + (s1 + s2 + s3) + p.minv * (s1 + s2)) ^ 2 < p.minv * p.minv * d3sq) ∨
  (s2 = 0 ∧ s3 = 0 ∧ d1sq = 0) ∨ (s1 = 0 ∧ s3 = 0 ∧ d2sq = 0) ∨ (s1 = 0 ∧ s2 = 0 ∧ d3sq = 0)

/-- `split3` in `BinTypeHelper<LogRUV>::singleBin`, /repo/include/BinType.h:592-621. -/
def ruvSplit3 (p : Prm3) (d2sq d3sq s1 s3 : ℝ) : Prop :=
  let d2 := Real.sqrt d2sq
  0 < s3 ∧ (d2 * p.b < s3 ∨ (0 < s1 + s3 ∧ d2 * p.b < s1 + s3 ∧ s1 ≤ s3) ∨
    (p.bu < p.b ∧ (p.bu * d2sq) ^ 2 < s3 ^ 2 * d3sq) ∨ p.a * p.a * d2sq < s3 ^ 2 ∨ (p.bv < p.b ∧ d2 * p.bv < s3))

/-- `BinTypeHelper<LogRUV>::singleBin`, /repo/include/BinType.h:571-696: `none` if it returns true, else which cells to split.
`s1ps3` is set by the test for `split3` and stays 0 when `s3` is 0; `d2split` is set there too. -/
def ruvSplit (p : Prm3) (d1sq d2sq d3sq s1 s2 s3 : ℝ) : Option (Bool × Bool × Bool) :=
  let d2 := Real.sqrt d2sq
  let d3 := Real.sqrt d3sq
  let d1 := Real.sqrt d1sq
  let u := d3 / d2
  let v := (d1 - d2) / d3
  if ruvSplit3 p d2sq d3sq s1 s3 then
    some (decide (0.7 * s3 ^ 2 * d3sq < s1 ^ 2 * d2sq), decide (0.7 * s3 ^ 2 * d3sq < s2 ^ 2 * d2sq), true)
  else if 0 < s1 ∨ 0 < s2 then
    let s1ps3 := if 0 < s3 then s1 + s3 else 0
    let d2split : Prop := 0 < s3 ∧ 0 < s1 + s3 ∧ d2 * p.b < s1 + s3
    let split1 : Prop := 0 < s1 ∧ (d2split ∨ p.b * d2 < s1 ∨ p.a * p.a * d3sq < s1 ^ 2)
    let split2 : Prop := 0 < s2 ∧ (p.a * p.a * d3sq < s2 ^ 2 ∨ (s3 < s2 ∧ (d2 - s2 + s3) ^ 2 < d3sq) ∨
      (s1 < s2 ∧ d1sq < (d2 + s2 - s1) ^ 2))
    if split1 ∨ split2 ∨ d2sq * (p.bu * p.bu) < ((s1 + s2) + s1ps3 * u) ^ 2 ∨
        d3sq * (p.bv * p.bv) < ((s1 + s2) * (1 + v)) ^ 2 then
      some (decide (split1 ∨ s2 ≤ s1), decide (split2 ∨ s1 ≤ s2), false)
    else none
  else none

/-- `if (k >= n) --k`. -/
def clampBin (n k : ℤ) : ℤ := if n ≤ k then k - 1 else k

/-- `if (k == n) --k`. -/
def clampEq (n k : ℤ) : ℤ := if k = n then k - 1 else k

/-- `BinTypeHelper<LogRUV>::isTriangleInRange`, /repo/include/BinType.h:698-798: the index, and `v` with its sign. -/
def ruvIndex (p : Prm3) (O : Ord3) (ccw123 : Prop) (d1 d2 d3 u v : ℝ) : Option (ℤ × ℝ) :=
  if O ≠ .any ∧ ¬ (d2 ≤ d1 ∧ d3 ≤ d2) then none
  else if d2 < p.minsep ∨ p.maxsep ≤ d2 then none
  else if u < p.minu ∨ p.maxu ≤ u then none
  else if v < p.minv ∨ p.maxv ≤ v then none
  else
    let kr := clampEq p.nbins ⌊(Real.log d2 - Real.log p.minsep) / p.binsize⌋
    let ku := clampBin p.nubins ⌊(u - p.minu) / p.ubinsize⌋
    let kv0 := clampBin p.nvbins ⌊(v - p.minv) / p.vbinsize⌋
    let kv := if ¬ ccw123 then p.nvbins - kv0 - 1 else kv0 + p.nvbins
    let v' := if ¬ ccw123 then -v else v
    let index := (kr * p.nubins + ku) * p.nvbins * 2 + kv
    if index < 0 ∨ p.nbins * p.nubins * p.nvbins * 2 ≤ index then none else some (index, v')

/-- `process111Sorted<LogRUV,O>` up to the recursive calls, /repo/src/Corr3.cpp:664-717. -/
def ruvAct {P : Type} (p : Prm3) (M : Metric3 P) (O : Ord3) (c1 c2 c3 : Cell P) : Act3 P :=
  let d1sq := M.distSq c2.pos c3.pos
  let d2sq := M.distSq c1.pos c3.pos
  let d3sq := M.distSq c1.pos c2.pos
  if ruvStop p O d1sq d2sq d3sq c1.size c2.size c3.size then .drop
  else match ruvSplit p d1sq d2sq d3sq c1.size c2.size c3.size with
    | some (f1, f2, f3) => .split f1 f2 f3
    | none =>
      let d1 := Real.sqrt d1sq
      let d2 := Real.sqrt d2sq
      let d3 := Real.sqrt d3sq
      let u := d3 / d2
      let v := (d1 - d2) / d3
      match ruvIndex p O (M.ccw c1.pos c2.pos c3.pos) d1 d2 d3 u v with
      | none => .drop
      | some (index, v') => .direct ⟨c1, c2, c3, d1, d2, d3, u, v', Real.log d1, Real.log d2, Real.log d3, index⟩

/-- `BinTypeHelper<LogRUV>`, /repo/include/BinType.h:381-802. -/
def binRUV {P : Type} (p : Prm3) (M : Metric3 P) : Bin3 P where
  sort := true
  swap23 := true
  tooSmallS2 := fun s2 => s2 = 0 ∨ s2 < 0.5 * p.minsep * p.minu
  tooSmallDist := fun rsq s => rsq < p.minsep * p.minsep ∧ s < p.minsep ∧ rsq < (p.minsep - s) ^ 2
  tooLargeDist := fun rsq s => p.maxsep * p.maxsep ≤ rsq ∧ (p.maxsep + s) ^ 2 ≤ rsq
  noAngles := fun _ rsq s1ps2 _ s2 =>
    s1ps2 ^ 2 < rsq ∧ (2 * s2 + p.minu * s1ps2) ^ 2 < p.minu * p.minu * rsq
  act := ruvAct p M

/-! ## LogSAS -/

/-- `calculateCosPhi`, /repo/include/Metric.h:239-243. -/
def cosPhi (d1sq d2sq d3sq d2 d3 : ℝ) : ℝ := (d2sq + d3sq - d1sq) / (2 * d2 * d3)

/-- The test of `LogSAS` for the wrong orientation, /repo/include/BinType.h:924-961 (`O > 1`, centres not counter-clockwise):
`true` for `return true`. -/
def sasWrongSide (cosphi d2 d3 s1 s2 s3 : ℝ) : Prop :=
  let sin2 := if 0 < s1 + s2 then (s1 + s2) / d3 else 0
  let cos2sq := if 0 < s1 + s2 then 1 - sin2 ^ 2 else 0
  let sin3 := if 0 < s1 + s3 then (s1 + s3) / d2 else 0
  let cos3sq := if 0 < s1 + s3 then 1 - sin3 ^ 2 else 0
  ¬ (0 < s1 + s2 ∧ cos2sq < cosphi ^ 2) ∧ ¬ (0 < s1 + s3 ∧ cos3sq < cosphi ^ 2) ∧
  ¬ ((0 < sin2 ∧ 0 < sin3) ∧ Real.sqrt cos2sq * Real.sqrt cos3sq - sin3 * sin2 < |cosphi|)

/-- The test of `LogSAS` with `minphi`, /repo/include/BinType.h:963-1013: `none` if the code goes on to the next test, else the value
returned. -/
def sasMinPhi (p : Prm3) (cosphi d1sq d2sq d3sq d2 d3 s1 s2 s3 : ℝ) : Option Bool :=
  let s23sq := (s2 + s3) ^ 2
  let sinphi := Real.sqrt (1 - cosphi * cosphi)
  let sin2 := (s1 + s2) / d3
  let cos2sq := 1 - sin2 ^ 2
  let cos2 := Real.sqrt cos2sq
  let sin3 := (s1 + s3) / d2
  let cos3sq := 1 - sin3 ^ 2
  let cos3 := Real.sqrt cos3sq
  let cosd := cos2 * cos3 - sin3 * sin2
  let sind := sin2 * cos3 + sin3 * cos2
  let fin (c : ℝ) : Option Bool := if p.maxCos < c then some true else none
  if 0 < p.minu ∧ p.maxCos < cosphi then
    if d1sq ≤ s23sq ∧ 2 * d2 * d3 * p.maxCos < d2sq + d3sq - s23sq then some false
    else if 0 < s1 + s2 then
      if cos2sq < signedSq p.maxCos then some false
      else if 0 < s1 + s3 then
        if cos3sq < signedSq p.maxCos then some false
        else if cosd < p.maxCos then some false
        else fin (cosphi * cosd - sinphi * sind)
      else fin (cosphi * cos2 - sinphi * sin2)
    else if 0 < s1 + s3 then
      if cos3sq < signedSq p.maxCos then some false
      else fin (cosphi * cos3 - sinphi * sin3)
    else fin cosphi
  else none

/-- The test of `LogSAS` with `maxphi`, /repo/include/BinType.h:1020-1064; line 1051 compares with `maxcosphisq`. -/
def sasMaxPhi (p : Prm3) (cosphi d2 d3 s1 s2 s3 : ℝ) : Bool :=
  let sinphi := Real.sqrt (1 - cosphi * cosphi)
  let sin2 := (s1 + s2) / d3
  let cos2sq := 1 - sin2 ^ 2
  let cos2 := Real.sqrt cos2sq
  let sin3 := (s1 + s3) / d2
  let cos3sq := 1 - sin3 ^ 2
  let cos3 := Real.sqrt cos3sq
  let cosd := cos2 * cos3 - sin3 * sin2
  let sind := sin2 * cos3 + sin3 * cos2
  let fin (c : ℝ) : Bool := decide (c < p.minCos)
  if p.maxu < Real.pi ∧ cosphi < p.minCos then
    if 0 < s1 + s2 then
      if cos2sq < -signedSq p.minCos then false
      else if 0 < s1 + s3 then
        if cos3sq < -signedSq p.minCos then false
        else if cosd < -p.minCos then false
        else fin (cosphi * cosd + sinphi * sind)
      else fin (cosphi * cos2 + sinphi * sin2)
    else if 0 < s1 + s3 then
      if cos3sq < signedSq p.maxCos then false
      else fin (cosphi * cos3 + sinphi * sin3)
    else fin cosphi
  else false

/-- What `BinTypeHelper<LogSAS>::stop111` leaves behind: its value, and `d2`, `d3`, `cosphi`, which are -1 until set
(/repo/src/Corr3.cpp:682). -/
structure SasOut where
  stop : Bool
  d2 : ℝ
  d3 : ℝ
  cosphi : ℝ

/-- `BinTypeHelper<LogSAS>::stop111`, /repo/include/BinType.h:867-1067. -/
def sasStop (p : Prm3) (O : Ord3) (ccw132 : Prop) (d1sq d2sq d3sq s1 s2 s3 : ℝ) : SasOut :=
  if (d2sq < p.minsep * p.minsep ∧ s1 + s3 < p.minsep ∧ (s1 + s3 = 0 ∨ d2sq < (p.minsep - s1 - s3) ^ 2)) ∨
     (d3sq < p.minsep * p.minsep ∧ s1 + s2 < p.minsep ∧ (s1 + s2 = 0 ∨ d3sq < (p.minsep - s1 - s2) ^ 2)) ∨
     (p.maxsep * p.maxsep ≤ d2sq ∧ (s1 + s3 = 0 ∨ (p.maxsep + s1 + s3) ^ 2 ≤ d2sq)) ∨
     (p.maxsep * p.maxsep ≤ d3sq ∧ (s1 + s2 = 0 ∨ (p.maxsep + s1 + s2) ^ 2 ≤ d3sq)) ∨
     (s2 = 0 ∧ s3 = 0 ∧ d1sq = 0) ∨ (s1 = 0 ∧ s3 = 0 ∧ d2sq = 0) ∨ (s1 = 0 ∧ s2 = 0 ∧ d3sq = 0) then
    ⟨true, -1, -1, -1⟩
  else
    let d3 := Real.sqrt d3sq
    let d2 := Real.sqrt d2sq
    if d3 ≤ s1 + s2 then ⟨false, -1, d3, -1⟩
    else if d2 ≤ s1 + s3 then ⟨false, d2, d3, -1⟩
    else
      let cosphi := cosPhi d1sq d2sq d3sq d2 d3
      if O = .fixed ∧ ¬ ccw132 then ⟨decide (sasWrongSide cosphi d2 d3 s1 s2 s3), d2, d3, cosphi⟩
      else match sasMinPhi p cosphi d1sq d2sq d3sq d2 d3 s1 s2 s3 with
        | some r => ⟨r, d2, d3, cosphi⟩
        | none =>
          if d1sq ≤ (s2 + s3) ^ 2 then ⟨false, d2, d3, cosphi⟩
          else ⟨sasMaxPhi p cosphi d2 d3 s1 s2 s3, d2, d3, cosphi⟩

/-- The angle test in `split1`, /repo/include/BinType.h:1107-1113: the left side is infinite for `cosphi = 1` and not a number
(so the test false) for `cosphi = -1`. -/
def sasPhiTest (bphi cosphi d2 d3 s1 : ℝ) : Prop :=
  if 1 - cosphi ^ 2 ≤ 0 then cosphi = 1
  else bphi < (1 + cosphi) * (d2 + d3) / (Real.sqrt (1 - cosphi ^ 2) * d2 * d3) * s1

/-- `BinTypeHelper<LogSAS>::singleBin`, /repo/include/BinType.h:1069-1174: `none` if it returns true. -/
def sasSplit (p : Prm3) (d1sq d2 d3 cosphi s1 s2 s3 : ℝ) : Option (Bool × Bool × Bool) :=
  let bphi := min p.bu p.a
  let split1 : Prop := 0 < s1 ∧ (d2 * p.b < s1 ∨ d3 * p.b < s1 ∨ (d3 * p.b < s1 + s2 ∧ s2 ≤ s1) ∨
    (d2 * p.b < s1 + s3 ∧ s3 ≤ s1) ∨ sasPhiTest bphi cosphi d2 d3 s1)
  if split1 then some (true, decide (0.7 * s1 < s2), decide (0.7 * s1 < s3))
  else if 0 < s2 ∨ 0 < s3 then
    let ad1 := p.a * Real.sqrt d1sq
    let d2split : Prop := 0 < s1 ∧ d3 * p.b < s1 + s2
    let d3split : Prop := 0 < s1 ∧ d2 * p.b < s1 + s3
    let split2 : Prop := 0 < s2 ∧ (d2split ∨ (s1 = 0 ∧ d3 * p.b < s2) ∨ ad1 < s2 ∨ (ad1 < s2 + s3 ∧ s3 ≤ s2) ∨
      bphi * d3 < s1 + s2)
    let split3 : Prop := 0 < s3 ∧ (d3split ∨ (s1 = 0 ∧ d2 * p.b < s3) ∨ ad1 < s3 ∨ (ad1 < s2 + s3 ∧ s2 ≤ s3) ∨
      bphi * d2 < s1 + s3)
    if split2 ∨ split3 then some (false, decide (split2 ∨ s3 ≤ s2), decide (split3 ∨ s2 ≤ s3))
    else none
  else none

/-- `phi` in `isTriangleInRange`, /repo/include/BinType.h:1196-1198. -/
def sasPhi (cosphi : ℝ) : ℝ :=
  if -1 < cosphi ∧ cosphi < 1 then Real.arccos cosphi else if cosphi ≤ -1 then Real.pi else 0

/-- `BinTypeHelper<LogSAS>::isTriangleInRange`, /repo/include/BinType.h:1176-1269. -/
def sasIndex (p : Prm3) (O : Ord3) (ccw132 : Prop) (d2 d3 phi : ℝ) : Option ℤ :=
  if d2 < p.minsep ∨ p.maxsep ≤ d2 then none
  else if d3 < p.minsep ∨ p.maxsep ≤ d3 then none
  else if O = .fixed ∧ ¬ ccw132 then none
  else if phi < p.minu ∨ p.maxu ≤ phi then none
  else
    let kr2 := clampEq p.nbins ⌊(Real.log d2 - Real.log p.minsep) / p.binsize⌋
    let kr3 := clampEq p.nbins ⌊(Real.log d3 - Real.log p.minsep) / p.binsize⌋
    let kphi := clampBin p.nubins ⌊(phi - p.minu) / p.ubinsize⌋
    let index := (kr2 * p.nbins + kr3) * p.nubins + kphi
    if index < 0 ∨ p.nbins * p.nbins * p.nubins ≤ index then none else some index

/-- `process111Sorted<LogSAS,O>` up to the recursive calls, /repo/src/Corr3.cpp:664-717.  `finishProcess` is given `phi` and
`cosphi` in the places of `u` and `v`. -/
def sasAct {P : Type} (p : Prm3) (M : Metric3 P) (O : Ord3) (c1 c2 c3 : Cell P) : Act3 P :=
  let d1sq := M.distSq c2.pos c3.pos
  let d2sq := M.distSq c1.pos c3.pos
  let d3sq := M.distSq c1.pos c2.pos
  let o := sasStop p O (M.ccw c1.pos c3.pos c2.pos) d1sq d2sq d3sq c1.size c2.size c3.size
  if o.stop then .drop
  else match sasSplit p d1sq o.d2 o.d3 o.cosphi c1.size c2.size c3.size with
    | some (f1, f2, f3) => .split f1 f2 f3
    | none =>
      let d1 := Real.sqrt d1sq
      let phi := sasPhi o.cosphi
      match sasIndex p O (M.ccw c1.pos c3.pos c2.pos) o.d2 o.d3 phi with
      | none => .drop
      | some index => .direct ⟨c1, c2, c3, d1, o.d2, o.d3, phi, o.cosphi, Real.log d1, Real.log o.d2, Real.log o.d3, index⟩

/-- `BinTypeHelper<LogSAS>`, /repo/include/BinType.h:804-1273. -/
def binSAS {P : Type} (p : Prm3) (M : Metric3 P) : Bin3 P where
  sort := false
  swap23 := true
  tooSmallS2 := fun s2 => s2 = 0 ∨ s2 < 0.5 * p.minsep * p.minu
  tooSmallDist := fun rsq s => rsq < p.minsep * p.minsep ∧ s < p.minsep ∧ rsq < (p.minsep - s) ^ 2
  tooLargeDist := fun rsq s => p.maxsep * p.maxsep ≤ rsq ∧ (p.maxsep + s) ^ 2 ≤ rsq
  noAngles := fun O rsq _ s1 s2 =>
    p.maxCos < 1 ∧ (O ≠ .any ∨ s2 < 0.5 * p.minsep) ∧ s1 ^ 2 < rsq ∧
      p.maxCos < 1 - 2 * (s2 / (Real.sqrt rsq - s1)) ^ 2
  act := sasAct p M

/-! ## The recursion -/

/-- The six ways to hand three cells on. -/
inductive Perm3 where
  | p123 | p132 | p213 | p231 | p312 | p321
  deriving DecidableEq

/-- The three things in the new order: `p231` hands on the second, the third, the first. -/
def Perm3.apply {α : Type} : Perm3 → α → α → α → α × α × α
  | p123, a, b, c => (a, b, c)
  | p132, a, b, c => (a, c, b)
  | p213, a, b, c => (b, a, c)
  | p231, a, b, c => (b, c, a)
  | p312, a, b, c => (c, a, b)
  | p321, a, b, c => (c, b, a)

/-- The calls of `process111Sorted` made by `process111`, /repo/src/Corr3.cpp:565-661. -/
def arrange {P : Type} (M : Metric3 P) (sort swap23 : Bool) (O : Ord3) (p1 p2 p3 : P) : List (Ord3 × Perm3) :=
  let d1sq := M.distSq p2 p3
  let d2sq := M.distSq p1 p3
  let d3sq := M.distSq p1 p2
  match O with
  | .any =>
    if sort then
      if d2sq < d1sq then
        if d3sq < d2sq then [(.any, .p123)]
        else if d3sq < d1sq then [(.any, .p132)]
        else [(.any, .p312)]
      else
        if d3sq < d1sq then [(.any, .p213)]
        else if d3sq < d2sq then [(.any, .p231)]
        else [(.any, .p321)]
    else if swap23 then
      if ¬ M.ccw p1 p3 p2 then [(.first, .p132), (.first, .p213), (.first, .p321)]
      else [(.first, .p123), (.first, .p312), (.first, .p231)]
    else [(.fixed, .p132), (.fixed, .p123), (.fixed, .p213), (.fixed, .p231), (.fixed, .p321), (.fixed, .p312)]
  | .first =>
    if sort then
      if d3sq < d2sq then [(.first, .p123)] else [(.first, .p132)]
    else if swap23 then
      if ¬ M.ccw p1 p3 p2 then [(.first, .p132)] else [(.first, .p123)]
    else [(.fixed, .p123), (.fixed, .p132)]
  | .fixed => [(.fixed, .p123)]

/-- The children of a cell to be split, the cell itself otherwise; `none` for a null child. -/
def halves {P : Type} (split : Bool) (c : Cell P) : Option (List (Cell P)) :=
  if split then
    match c with
    | .node _ _ l r => some [l, r]
    | .leaf _ _ => none
  else some [c]

/-- The triples of cells of the recursive calls, in the order of /repo/src/Corr3.cpp:718-802.  With neither `split2` nor `split3` the
first is split. -/
def splitCells {P : Type} (f1 f2 f3 : Bool) (c1 c2 c3 : Cell P) : Option (List (Cell P × Cell P × Cell P)) := do
  let a ← halves (f1 || (!f2 && !f3)) c1
  let b ← halves f2 c2
  let c ← halves f3 c3
  pure (a.flatMap fun x => b.flatMap fun y => c.map fun z => (x, y, z))

/-- The lists of a list of calls, one after the other. -/
def concatM {α β : Type} (f : α → Option (List β)) : List α → Option (List β)
  | [] => some []
  | x :: xs => do
    let a ← f x
    let b ← concatM f xs
    pure (a ++ b)

/-- `process111` and `process111Sorted`, /repo/src/Corr3.cpp:529-804, as the list of `finishProcess` calls in order.  The first
argument bounds the depth of the recursion (`none` if it is too small; `process111` below gives enough). -/
def process111N {P : Type} (B : Bin3 P) (M : Metric3 P) : ℕ → Ord3 → Cell P → Cell P → Cell P → Option (List (Emit3 P))
  | 0, _, _, _, _ => none
  | n + 1, O, c1, c2, c3 =>
    if c1.w = 0 ∨ c2.w = 0 ∨ c3.w = 0 then some []
    else
      concatM (fun oσ : Ord3 × Perm3 =>
        let t := oσ.2.apply c1 c2 c3
        match B.act oσ.1 t.1 t.2.1 t.2.2 with
        | .drop => some []
        | .direct e => some [e]
        | .split f1 f2 f3 => do
          let ts ← splitCells f1 f2 f3 t.1 t.2.1 t.2.2
          concatM (fun s : Cell P × Cell P × Cell P => process111N B M n oσ.1 s.1 s.2.1 s.2.2) ts)
        (arrange M B.sort B.swap23 O c1.pos c2.pos c3.pos)

/-- `process111`. -/
def process111 {P : Type} (B : Bin3 P) (M : Metric3 P) (O : Ord3) (c1 c2 c3 : Cell P) : Option (List (Emit3 P)) :=
  process111N B M (c1.nodes + c2.nodes + c3.nodes) O c1 c2 c3

/-- The tests of `process12` before it splits, /repo/src/Corr3.cpp:467-507. -/
def skip12 {P : Type} (B : Bin3 P) (M : Metric3 P) (O : Ord3) (c1 c2 : Cell P) : Prop :=
  c1.w = 0 ∨ c2.w = 0 ∨ B.tooSmallS2 c2.size ∨
    B.tooSmallDist (M.distSq c1.pos c2.pos) (c1.size + c2.size) ∨
    B.tooLargeDist (M.distSq c1.pos c2.pos) (c1.size + c2.size) ∨
    B.noAngles O (M.distSq c1.pos c2.pos) (c1.size + c2.size) c1.size c2.size

/-- `process12`, /repo/src/Corr3.cpp:453-527. -/
def process12 {P : Type} (B : Bin3 P) (M : Metric3 P) (O : Ord3) : Cell P → Cell P → Option (List (Emit3 P))
  | c1, .leaf d os => if skip12 B M O c1 (.leaf d os) then some [] else none
  | c1, .node d s l r =>
    if skip12 B M O c1 (.node d s l r) then some []
    else if s < c1.size then
      match c1 with
      | .leaf _ _ => none
      | .node _ _ l1 r1 => do
        let x1 ← process12 B M O l1 l
        let x2 ← process12 B M O l1 r
        let x3 ← process12 B M O r1 l
        let x4 ← process12 B M O r1 r
        let x5 ← process111 B M O l1 l r
        let x6 ← process111 B M O r1 l r
        pure (x1 ++ x2 ++ x3 ++ x4 ++ x5 ++ x6)
    else do
      let x1 ← process12 B M O c1 l
      let x2 ← process12 B M O c1 r
      let x3 ← process111 B M O c1 l r
      pure (x1 ++ x2 ++ x3)
termination_by _ c2 => c2.nodes
decreasing_by all_goals (simp only [Cell.nodes]; omega)

/-- `process3`, /repo/src/Corr3.cpp:427-451. -/
def process3 {P : Type} (B : Bin3 P) (M : Metric3 P) (minsep : ℝ) : Cell P → Option (List (Emit3 P))
  | .leaf d _ => if d.w = 0 then some [] else if 0 < 0.5 * minsep then some [] else none
  | .node d s l r =>
    if d.w = 0 then some []
    else if s < 0.5 * minsep then some []
    else do
      let x1 ← process3 B M minsep l
      let x2 ← process3 B M minsep r
      let x3 ← process12 B M .any l r
      let x4 ← process12 B M .any r l
      pure (x1 ++ x2 ++ x3 ++ x4)

/-- The loop over `k` in `process`, /repo/src/Corr3.cpp:275-278, 341-344. -/
def loop111 {P : Type} (B : Bin3 P) (M : Metric3 P) (O : Ord3) (c1 c2 : Cell P) (rest : List (Cell P)) :
    Option (List (Emit3 P)) :=
  concatM (fun c3 => process111 B M O c1 c2 c3) rest

/-- The loop over `j` in the auto-correlation, /repo/src/Corr3.cpp:271-279. -/
def autoLoop2 {P : Type} (B : Bin3 P) (M : Metric3 P) (c1 : Cell P) : List (Cell P) → Option (List (Emit3 P))
  | [] => some []
  | c2 :: rest => do
    let x1 ← process12 B M .any c1 c2
    let x2 ← process12 B M .any c2 c1
    let x3 ← loop111 B M .any c1 c2 rest
    let x4 ← autoLoop2 B M c1 rest
    pure (x1 ++ x2 ++ x3 ++ x4)

/-- The auto-correlation, /repo/src/Corr3.cpp:231-290 (one thread). -/
def processAuto3 {P : Type} (B : Bin3 P) (M : Metric3 P) (minsep : ℝ) : List (Cell P) → Option (List (Emit3 P))
  | [] => some []
  | c1 :: rest => do
    let x1 ← process3 B M minsep c1
    let x2 ← autoLoop2 B M c1 rest
    let x3 ← processAuto3 B M minsep rest
    pure (x1 ++ x2 ++ x3)

/-- The loop over `j` for one field against another twice, /repo/src/Corr3.cpp:338-345. -/
def cross12Loop2 {P : Type} (B : Bin3 P) (M : Metric3 P) (O : Ord3) (c1 : Cell P) : List (Cell P) →
    Option (List (Emit3 P))
  | [] => some []
  | c2 :: rest => do
    let x1 ← process12 B M O c1 c2
    let x2 ← loop111 B M O c1 c2 rest
    let x3 ← cross12Loop2 B M O c1 rest
    pure (x1 ++ x2 ++ x3)

/-- The cross-correlation with one point in the first field and two in the second, /repo/src/Corr3.cpp:292-356. -/
def processCross12 {P : Type} (B : Bin3 P) (M : Metric3 P) (O : Ord3) (cs1 cs2 : List (Cell P)) : Option (List (Emit3 P)) :=
  concatM (fun c1 => cross12Loop2 B M O c1 cs2) cs1

/-- The cross-correlation of three fields, /repo/src/Corr3.cpp:358-425. -/
def processCross123 {P : Type} (B : Bin3 P) (M : Metric3 P) (O : Ord3) (cs1 cs2 cs3 : List (Cell P)) :
    Option (List (Emit3 P)) :=
  concatM (fun c1 => concatM (fun c2 => loop111 B M O c1 c2 cs3) cs2) cs1

/-! ## The sums -/

/-- The arrays filled by `finishProcess` (`zeta` for three scalar fields). -/
structure Acc3 where
  ntri : ℤ → ℝ
  weight : ℤ → ℝ
  zeta : ℤ → ℝ
  meand1 : ℤ → ℝ
  meanlogd1 : ℤ → ℝ
  meand2 : ℤ → ℝ
  meanlogd2 : ℤ → ℝ
  meand3 : ℤ → ℝ
  meanlogd3 : ℤ → ℝ
  meanu : ℤ → ℝ
  meanv : ℤ → ℝ

/-- `clear`, /repo/src/Corr3.cpp:211-229. -/
def Acc3.zero : Acc3 :=
  ⟨fun _ => 0, fun _ => 0, fun _ => 0, fun _ => 0, fun _ => 0, fun _ => 0, fun _ => 0, fun _ => 0, fun _ => 0, fun _ => 0,
    fun _ => 0⟩

/-- `finishProcess`, /repo/src/Corr3.cpp:2521-2550, with `ProcessZeta` of three scalars, :1662-1668. -/
def finish3 {P : Type} (A : Acc3) (e : Emit3 P) : Acc3 :=
  let nnn : ℝ := (e.c1.n : ℝ) * (e.c2.n : ℝ) * (e.c3.n : ℝ)
  let www := e.c1.w * e.c2.w * e.c3.w
  { ntri := addAt A.ntri e.index nnn
    meand1 := addAt A.meand1 e.index (www * e.d1)
    meanlogd1 := addAt A.meanlogd1 e.index (www * e.logd1)
    meand2 := addAt A.meand2 e.index (www * e.d2)
    meanlogd2 := addAt A.meanlogd2 e.index (www * e.logd2)
    meand3 := addAt A.meand3 e.index (www * e.d3)
    meanlogd3 := addAt A.meanlogd3 e.index (www * e.logd3)
    meanu := addAt A.meanu e.index (www * e.u)
    meanv := addAt A.meanv e.index (www * e.v)
    weight := addAt A.weight e.index www
    zeta := addAt A.zeta e.index (e.c1.wk * e.c2.wk * e.c3.wk) }

/-- The arrays after all calls. -/
def accumulate3 {P : Type} (A : Acc3) (es : List (Emit3 P)) : Acc3 := es.foldl finish3 A

end
end TreeCorr
