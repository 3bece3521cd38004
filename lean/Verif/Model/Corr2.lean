import Mathlib.Topology.MetricSpace.Pseudo.Defs
import Verif.Model.Cell
import Verif.Model.Bin

/-!
Model of the two-point pair counting, `/repo/src/Corr2.cpp:146-373, 581-684`.
-/

namespace TreeCorr
open Classical
noncomputable section

/-- What a `MetricHelper<M,P>` provides, /repo/include/Metric.h.  `distSq` may change the sizes. -/
structure MetricHelper (P : Type) where
  /-- `DistSq(p1, p2, s1, s2)`: squared distance and the possibly modified sizes. -/
  distSq : P → P → ℝ → ℝ → ℝ × ℝ × ℝ
  /-- `isRParOutsideRange(p1, p2, s1ps2, rpar)` -/
  rparOutside : P → P → ℝ → Prop
  /-- `isRParInsideRange(p1, p2, s1ps2, rpar)` -/
  rparInside : P → P → ℝ → Prop
  /-- `tooSmallDist` of the metric -/
  tooSmall : P → P → ℝ → ℝ → Params → Prop
  /-- `tooLargeDist` of the metric -/
  tooLarge : P → P → ℝ → ℝ → Params → Prop

/-- `MetricHelper<Euclidean,0>`, /repo/include/Metric.h:110-165: the squared distance of the
positions, sizes unchanged, no line-of-sight limits, both extra distance tests true.  Written for an
arbitrary (pseudo)metric space so that flat, 3d, chord and periodic distances are all instances. -/
def plainMetric (P : Type) [PseudoMetricSpace P] : MetricHelper P where
  distSq := fun p1 p2 s1 s2 => (dist p1 p2 ^ 2, s1, s2)
  rparOutside := fun _ _ _ => False
  rparInside := fun _ _ _ => True
  tooSmall := fun _ _ _ _ _ => True
  tooLarge := fun _ _ _ _ _ => True

/-- One call of `finishProcess`: the two cells and its arguments, /repo/src/Corr2.cpp:632-634. -/
structure Emit (P : Type) where
  c1 : Cell P
  c2 : Cell P
  rsq : ℝ
  r : ℝ
  logr : ℝ
  k : ℤ
  /-- `none` when the template argument `R` is 0. -/
  k2 : Option ℤ

/-- `directProcess11`, /repo/src/Corr2.cpp:581-630. -/
def directProcess11 {P : Type} (B : BinHelper P) (prm : Params) (R : Bool)
    (c1 c2 : Cell P) (rsq : ℝ) (o : BinOut) : Emit P :=
  let o : BinOut :=
    if o.k < 0 then
      let r := Real.sqrt rsq
      let logr := Real.log r
      { k := B.binK c1.pos c2.pos r logr prm, r := r, logr := logr }
    else o
  let k := if o.k = prm.nbins then o.k - 1 else o.k
  let k2 : Option ℤ :=
    if R then
      let k2 := B.binK c2.pos c1.pos o.r o.logr prm
      some (if k2 = prm.nbins then k2 - 1 else k2)
    else none
  { c1 := c1, c2 := c2, rsq := rsq, r := o.r, logr := o.logr, k := k, k2 := k2 }

/-- What process11 decides to do with a pair of cells. -/
inductive Action (P : Type) where
  | drop : Action P
  | direct (e : Emit P) : Action P
  | split (split1 split2 : Bool) : Action P

/-- The decision part of `process11`, /repo/src/Corr2.cpp:292-350, in the order of the code. -/
def decide11 {P : Type} (B : BinHelper P) (M : MetricHelper P) (prm : Params) (R : Bool)
    (c1 c2 : Cell P) : Action P :=
  if c1.w = 0 ∨ c2.w = 0 then .drop
  else
    let p1 := c1.pos
    let p2 := c2.pos
    let ds := M.distSq p1 p2 c1.size c2.size
    let rsq := ds.1
    let s1 := ds.2.1
    let s2 := ds.2.2
    let s1ps2 := s1 + s2
    if M.rparOutside p1 p2 s1ps2 then .drop
    else if B.tooSmall rsq s1ps2 prm ∧ M.tooSmall p1 p2 rsq s1ps2 prm then .drop
    else if B.tooLarge rsq s1ps2 prm ∧ M.tooLarge p1 p2 rsq s1ps2 prm then .drop
    else
      match (if M.rparInside p1 p2 s1ps2 then B.singleBin rsq s1ps2 p1 p2 prm else none) with
      | some o =>
        if B.inRange rsq p1 p2 prm then .direct (directProcess11 B prm R c1 c2 rsq o) else .drop
      | none =>
        let sp := calcSplitSq s1 s2 (B.effBSq rsq prm)
        .split sp.1 sp.2

/-- `process11`, /repo/src/Corr2.cpp:292-373, as the list of `finishProcess` calls it makes, in order.
`none` means that a null child pointer was dereferenced.  `act` is the decision (`decide11`). -/
def process11 {P : Type} (act : Cell P → Cell P → Action P) (c1 c2 : Cell P) :
    Option (List (Emit P)) :=
  match act c1 c2 with
  | .drop => some []
  | .direct e => some [e]
  | .split true true =>
    match c1, c2 with
    | .node _ _ l1 r1, .node _ _ l2 r2 => do
      let a ← process11 act l1 l2
      let b ← process11 act l1 r2
      let c ← process11 act r1 l2
      let d ← process11 act r1 r2
      pure (a ++ b ++ c ++ d)
    | _, _ => none
  | .split true false =>
    match c1 with
    | .node _ _ l1 r1 => do
      let a ← process11 act l1 c2
      let b ← process11 act r1 c2
      pure (a ++ b)
    | _ => none
  | .split false _ =>
    match c2 with
    | .node _ _ l2 r2 => do
      let a ← process11 act c1 l2
      let b ← process11 act c1 r2
      pure (a ++ b)
    | _ => none
termination_by c1.nodes + c2.nodes
decreasing_by all_goals (simp only [Cell.nodes]; omega)

/-- `process2`, /repo/src/Corr2.cpp:279-290. -/
def process2 {P : Type} (act : Cell P → Cell P → Action P) (prm : Params) :
    Cell P → Option (List (Emit P))
  | .leaf d _ => if d.w = 0 then some [] else if 0 ≤ 0.5 * prm.minsep then some [] else none
  | .node d s l r =>
    if d.w = 0 then some []
    else if s ≤ 0.5 * prm.minsep then some []
    else do
      let a ← process2 act prm l
      let b ← process2 act prm r
      let c ← process11 act l r
      pure (a ++ b ++ c)

/-- The body of the outer loop of the auto `process`, /repo/src/Corr2.cpp:177-191, for the cell `c` against
the later cells. -/
def processAutoRow {P : Type} (act : Cell P → Cell P → Action P) (prm : Params)
    (c : Cell P) (later : List (Cell P)) : Option (List (Emit P)) := do
  let a ← process2 act prm c
  let bs ← later.mapM (fun c2 => process11 act c c2)
  pure (a ++ bs.flatten)

/-- Auto-correlation of a field given by its top-level cells, /repo/src/Corr2.cpp:146-200 with one
thread. -/
def processAuto {P : Type} (act : Cell P → Cell P → Action P) (prm : Params) :
    List (Cell P) → Option (List (Emit P))
  | [] => some []
  | c :: rest => do
    let a ← processAutoRow act prm c rest
    let b ← processAuto act prm rest
    pure (a ++ b)

/-- The body of the outer loop of the cross `process`, /repo/src/Corr2.cpp:257-260. -/
def processCrossRow {P : Type} (act : Cell P → Cell P → Action P) (c1 : Cell P)
    (cells2 : List (Cell P)) : Option (List (Emit P)) := do
  let bs ← cells2.mapM (fun c2 => process11 act c1 c2)
  pure bs.flatten

/-- The double loop of the cross `process`, /repo/src/Corr2.cpp:246-261 with one thread. -/
def processCrossLoop {P : Type} (act : Cell P → Cell P → Action P) (cells1 cells2 : List (Cell P)) :
    Option (List (Emit P)) := do
  let rows ← cells1.mapM (fun c1 => processCrossRow act c1 cells2)
  pure rows.flatten

/-- A field: its centre, size and top-level cells (`BaseField`, /repo/include/Field.h:47-85). -/
structure Field (P : Type) where
  center : P
  size : ℝ
  cells : List (Cell P)

/-- The early-exit test at the head of the cross `process`, /repo/src/Corr2.cpp:209-226. -/
def fieldsTooFar {P : Type} (B : BinHelper P) (M : MetricHelper P) (prm : Params)
    (f1 f2 : Field P) : Prop :=
  let ds := M.distSq f1.center f2.center f1.size f2.size
  let s1ps2 := ds.2.1 + ds.2.2
  M.rparOutside f1.center f2.center s1ps2 ∨
  (B.tooSmall ds.1 s1ps2 prm ∧ M.tooSmall f1.center f2.center ds.1 s1ps2 prm) ∨
  (B.tooLarge ds.1 s1ps2 prm ∧ M.tooLarge f1.center f2.center ds.1 s1ps2 prm)

/-- Cross-correlation of two fields, /repo/src/Corr2.cpp:202-277 with one thread. -/
def processCross {P : Type} (B : BinHelper P) (M : MetricHelper P) (prm : Params)
    (f1 f2 : Field P) : Option (List (Emit P)) :=
  if fieldsTooFar B M prm f1 f2 then some []
  else processCrossLoop (decide11 B M prm false) f1.cells f2.cells

/-- The result arrays of a `Corr2`, indexed by bin.  `xi` stands for the scalar product sums (NK: `w*wk`,
KK: `wk*wk`), see `DirectHelper2`, /repo/src/Corr2.cpp:379-420. -/
structure Acc where
  npairs : ℤ → ℝ
  weight : ℤ → ℝ
  meanr : ℤ → ℝ
  meanlogr : ℤ → ℝ
  nk : ℤ → ℝ
  kk : ℤ → ℝ

/-- `_npairs[k] += v`. -/
def addAt (f : ℤ → ℝ) (k : ℤ) (v : ℝ) : ℤ → ℝ := fun j => if j = k then f j + v else f j

/-- `f[k] += v; if (R) f[k2] += v`. -/
def addAt2 (f : ℤ → ℝ) (k : ℤ) (k2 : Option ℤ) (v : ℝ) : ℤ → ℝ :=
  match k2 with
  | none => addAt f k v
  | some k2 => addAt (addAt f k v) k2 v

/-- `finishProcess`, /repo/src/Corr2.cpp:632-662, with the NK and KK product sums of
`DirectHelper2<1>` and `DirectHelper2<2>`, :379-420.  (For NK the reversed update does not exist because R=1
needs equal types; it is only applied to the arrays for which R can be 1.) -/
def finishProcess {P : Type} (A : Acc) (e : Emit P) : Acc where
  npairs := addAt2 A.npairs e.k e.k2 ((e.c1.n : ℝ) * (e.c2.n : ℝ))
  weight := addAt2 A.weight e.k e.k2 (e.c1.w * e.c2.w)
  meanr := addAt2 A.meanr e.k e.k2 (e.c1.w * e.c2.w * e.r)
  meanlogr := addAt2 A.meanlogr e.k e.k2 (e.c1.w * e.c2.w * e.logr)
  nk := addAt A.nk e.k (e.c1.w * e.c2.wk)
  kk := addAt2 A.kk e.k e.k2 (e.c1.wk * e.c2.wk)

/-- `clear()`, /repo/src/Corr2.cpp:134-144. -/
def Acc.zero : Acc := ⟨fun _ => 0, fun _ => 0, fun _ => 0, fun _ => 0, fun _ => 0, fun _ => 0⟩

/-- `operator+=`, /repo/src/Corr2.cpp:675-684. -/
def Acc.add (A B : Acc) : Acc where
  npairs := fun k => A.npairs k + B.npairs k
  weight := fun k => A.weight k + B.weight k
  meanr := fun k => A.meanr k + B.meanr k
  meanlogr := fun k => A.meanlogr k + B.meanlogr k
  nk := fun k => A.nk k + B.nk k
  kk := fun k => A.kk k + B.kk k

/-- All the calls of `finishProcess` in order. -/
def accumulate {P : Type} (A : Acc) (es : List (Emit P)) : Acc := es.foldl finishProcess A

/-- `triviallyZero`, /repo/src/Corr2.cpp:686-698 (metric without line-of-sight limits). -/
def triviallyZero {P : Type} (B : BinHelper P) (M : MetricHelper P) (prm : Params)
    (p1 p2 : P) (s1 s2 : ℝ) : Prop :=
  let ds := M.distSq p1 p2 s1 s2
  let s1ps2 := ds.2.1 + ds.2.2
  B.tooLarge ds.1 s1ps2 prm ∧ M.tooLarge p1 p2 ds.1 s1ps2 prm

end
end TreeCorr
