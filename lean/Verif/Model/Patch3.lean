import Verif.Model.Patch
import Verif.Model.Corr3
import Verif.Model.Periodic
import Verif.Model.Arc

/-!
Model of the patch bookkeeping of the three-point classes: `_trivially_zero`, `_single_process12`, `_single_process123`,
`_process_all_auto`, `_process_all_cross12`, `_process_all_cross`, `_add_tot`, `__iadd__`, `process`,
/repo/treecorr/corr3base.py:1103-1533, 1728-1765 and /repo/treecorr/nnncorrelation.py:253-304, 351-375, with `patch_method='global'`.

Counting itself is a parameter (`Kit3`).  Unloading (`low_mem`), logging and the compatibility checks of `__iadd__` and of the numbers of
patches are left out.
-/

namespace TreeCorr
open Classical
noncomputable section
variable {V C : Type}

/-- The accumulated data of a three-point object: its arrays (of whatever class) and (NNN only, otherwise 0) `tot`. -/
structure Res3 (V : Type) where
  acc : V
  tot : ℝ

/-- The dictionary `results`, as the list of its items. -/
abbrev Dict3 (V : Type) := List ((ℕ × ℕ × ℕ) × Res3 V)

/-- `d[key]` -/
def Dict3.get (d : Dict3 V) (key : ℕ × ℕ × ℕ) : Option (Res3 V) := d.lookup key

/-- `d[key] = v` -/
def Dict3.set (d : Dict3 V) (key : ℕ × ℕ × ℕ) (v : Res3 V) : Dict3 V :=
  if key ∈ d.map Prod.fst then d.map (fun x => if x.1 = key then (key, v) else x) else d ++ [(key, v)]

/-- `d.update(e)` -/
def Dict3.update (d e : Dict3 V) : Dict3 V := e.foldl (fun d x => d.set x.1 x.2) d

/-- A three-point object: its own data and `results`. -/
structure TriCorr (V : Type) where
  self : Res3 V
  results : Dict3 V

/-- What the loops need to know about counting. -/
structure Kit3 (V C : Type) where
  /-- `nonzero`: `np.any(self.ntri)`, /repo/treecorr/corr3base.py:1103-1107 -/
  nz : V → Prop
  /-- arrays after `process_auto(c)` on a cleared object -/
  auto : C → V
  /-- arrays after `process_cross12(c1, c2, ordered=...)` on a cleared object -/
  cross12 : Bool → C → C → V
  /-- arrays after `process_cross(c1, c2, c3, ordered=...)` on a cleared object -/
  cross : Ord3 → C → C → C → V
  /-- `_trivially_zero` -/
  triv : C → C → C → Prop
  /-- `cat.sumw` -/
  sumw : C → ℝ
  /-- `c2 is c3`: the same Python object -/
  same : C → C → Prop
  /-- whether the class is `NNNCorrelation`, which keeps `tot` -/
  nn : Bool

section
variable [Zero V] [Add V]

/-- A cleared object, /repo/treecorr/corr3base.py:1095-1101, nnncorrelation.py:320-322. -/
def Res3.zero : Res3 V := ⟨0, 0⟩

/-- After `clear()`. -/
def TriCorr.clear : TriCorr V := ⟨Res3.zero, []⟩

/-- `__iadd__`, corr3base.py:1902-1938 (returns early if the other one is empty) and nnncorrelation.py:365-375. -/
def Kit3.iadd (K : Kit3 V C) (r s : Res3 V) : Res3 V := ⟨if K.nz s.acc then r.acc + s.acc else r.acc, r.tot + s.tot⟩

/-- `temp` after `temp._clear(); temp.process_auto(c)`, nnncorrelation.py:252-253. -/
def Kit3.autoRes (K : Kit3 V C) (c : C) : Res3 V := ⟨K.auto c, if K.nn then 1 / 6 * K.sumw c ^ 3 else 0⟩

/-- `temp` after `temp._clear(); temp.process_cross12(c1,c2)`, nnncorrelation.py:278-279. -/
def Kit3.cross12Res (K : Kit3 V C) (o : Bool) (c1 c2 : C) : Res3 V :=
  ⟨K.cross12 o c1 c2, if K.nn then 0.5 * K.sumw c1 * K.sumw c2 ^ 2 else 0⟩

/-- `temp` after `temp._clear(); temp.process_cross(c1,c2,c3)`, nnncorrelation.py:302-304. -/
def Kit3.crossRes (K : Kit3 V C) (O : Ord3) (c1 c2 c3 : C) : Res3 V :=
  ⟨K.cross O c1 c2 c3, if K.nn then K.sumw c1 * K.sumw c2 * K.sumw c3 else 0⟩

/-- `_add_tot` when `c2 is c3` is `half`, corr3base.py:1109-1111 and nnncorrelation.py:351-363. -/
def Kit3.addTot (K : Kit3 V C) (ijk : ℕ × ℕ × ℕ) (half : Prop) (c1 c2 c3 : C) (S : TriCorr V) : TriCorr V :=
  if K.nn then
    let tot := K.sumw c1 * K.sumw c2 * K.sumw c3
    let tot := if half then tot / 2 else tot
    ⟨⟨S.self.acc, S.self.tot + tot⟩, S.results.set ijk ⟨0, tot⟩⟩
  else S

/-- What is done with a result worth keeping: `results[ijk] += temp` or `= temp.copy()`, then `self += temp`,
corr3base.py:1137-1141, 1157-1161, 1241-1245. -/
def Kit3.keep (K : Kit3 V C) (ijk : ℕ × ℕ × ℕ) (temp : Res3 V) (S : TriCorr V) : TriCorr V :=
  let results := match S.results.get ijk with
    | some r => if K.nz r.acc then S.results.set ijk (K.iadd r temp) else S.results.set ijk temp
    | none => S.results.set ijk temp
  ⟨K.iadd S.self temp, results⟩

/-- The auto job of the global loop, corr3base.py:1237-1245. -/
def Kit3.single111 (K : Kit3 V C) (i : ℕ) (c : C) (S : TriCorr V) : TriCorr V := K.keep (i, i, i) (K.autoRes c) S

/-- `_single_process12` with `c2` not `None`, corr3base.py:1126-1144. -/
def Kit3.single12 (K : Kit3 V C) (force : Bool) (o : Bool) (ijj : ℕ × ℕ × ℕ) (c1 c2 : C) (S : TriCorr V) : TriCorr V :=
  let temp := if K.triv c1 c2 c2 then Res3.zero else K.cross12Res o c1 c2
  if K.nz temp.acc ∨ force = true then K.keep ijj temp S else K.addTot ijj True c1 c2 c2 S

/-- `_single_process123` with `c2`, `c3` not `None`, corr3base.py:1146-1164. -/
def Kit3.single123 (K : Kit3 V C) (force : Bool) (O : Ord3) (ijk : ℕ × ℕ × ℕ) (c1 c2 c3 : C) (S : TriCorr V) : TriCorr V :=
  let temp := if K.triv c1 c2 c3 then Res3.zero else K.crossRes O c1 c2 c3
  if K.nz temp.acc ∨ force = true then K.keep ijk temp S else K.addTot ijk (K.same c2 c3) c1 c2 c3 S

/-- `ordered` for `process_cross` where one row is from the first catalogue and two from the second:
`ordered1 = 1 if ordered else 0`, corr3base.py:1348, 1660-1661. -/
def ord12 (o : Bool) : Ord3 := if o then .first else .any

/-- `ordered` for `process_cross`, corr3base.py:1660-1661. -/
def ord123 (o : Bool) : Ord3 := if o then .fixed else .any

/-- The global auto loop, corr3base.py:1235-1271.  `cats` are the patches with their numbers, `mine` is `is_my_job` (always true without
MPI). -/
def Kit3.allAuto (K : Kit3 V C) (mine : ℕ → ℕ → ℕ → Prop) (cats : List (ℕ × C)) (S : TriCorr V) : TriCorr V :=
  cats.foldl (fun S c1 =>
    let S := if mine c1.1 c1.1 c1.1 then K.single111 c1.1 c1.2 S else S
    cats.reverse.foldl (fun S c2 =>
      if c1.1 < c2.1 then
        let S := if mine c1.1 c2.1 c2.1 then
            K.single12 false false (c1.1, c1.1, c2.1) c2.2 c1.2 (K.single12 false false (c1.1, c2.1, c2.1) c1.2 c2.2 S)
          else S
        cats.foldl (fun S c3 =>
          if c2.1 < c3.1 ∧ mine c1.1 c2.1 c3.1 then K.single123 false .any (c1.1, c2.1, c3.1) c1.2 c2.2 c3.2 S else S) S
      else S) S) S

/-- The global loop for one catalogue against another twice, corr3base.py:1374-1395. -/
def Kit3.allCross12 (K : Kit3 V C) (mine : ℕ → ℕ → ℕ → Prop) (o : Bool) (n1 n2 : ℕ) (cats1 cats2 : List (ℕ × C)) (S : TriCorr V) :
    TriCorr V :=
  cats1.foldl (fun S c1 =>
    cats2.foldl (fun S c2 =>
      let S := if mine c1.1 c2.1 c2.1 then
          K.single12 (decide (c1.1 = c2.1) || decide (n1 = 1) || decide (n2 = 1)) o (c1.1, c2.1, c2.1) c1.2 c2.2 S
        else S
      cats2.reverse.foldl (fun S c3 =>
        if c2.1 < c3.1 ∧ mine c1.1 c2.1 c3.1 then K.single123 false (ord12 o) (c1.1, c2.1, c3.1) c1.2 c2.2 c3.2 S else S) S) S) S

/-- The global loop for three catalogues, corr3base.py:1504-1521. -/
def Kit3.allCross (K : Kit3 V C) (mine : ℕ → ℕ → ℕ → Prop) (o : Bool) (n1 n2 n3 : ℕ) (cats1 cats2 cats3 : List (ℕ × C))
    (S : TriCorr V) : TriCorr V :=
  cats1.foldl (fun S c1 => cats2.foldl (fun S c2 => cats3.foldl (fun S c3 =>
    if mine c1.1 c2.1 c3.1 then
      K.single123 ((decide (c1.1 = c2.1) && decide (c2.1 = c3.1)) || decide (n1 = 1) || decide (n2 = 1) || decide (n3 = 1)) (ord123 o)
        (c1.1, c2.1, c3.1) c1.2 c2.2 c3.2 S
    else S) S) S) S

end

/-- `is_my_job` of the auto loop under MPI, corr3base.py:1168-1199. -/
def myAutoJob3 (n size rank i j k : ℕ) : Prop :=
  if myIndex n size rank i ∧ myIndex n size rank j ∧ myIndex n size rank k then True
  else if ¬ myIndex n size rank i ∧ ¬ myIndex n size rank j ∧ ¬ myIndex n size rank k then False
  else (i % 3 = 0 ∧ myIndex n size rank i) ∨ (i % 3 = 1 ∧ myIndex n size rank j) ∨ (i % 3 = 2 ∧ myIndex n size rank k)

/-- `is_my_job` of the loop for one catalogue against another twice, corr3base.py:1287-1318. -/
def myCross12Job (n1 n2 size rank i j k : ℕ) : Prop :=
  let n := max n1 n2
  if n1 = n then myIndex n size rank i
  else if myIndex n size rank j ∧ myIndex n size rank k then True
  else if ¬ myIndex n size rank j ∧ ¬ myIndex n size rank k then False
  else if (k : ℤ) - j < ((n / 2 : ℕ) : ℤ) then j % 2 = (if myIndex n size rank j then 0 else 1)
  else k % 2 = (if myIndex n size rank k then 0 else 1)

/-- `is_my_job` of the loop for three catalogues, corr3base.py:1412-1432. -/
def myCross123Job (n1 n2 n3 size rank i j k : ℕ) : Prop :=
  let n := max n1 (max n2 n3)
  let m := if n1 = n then i else if n2 = n then j else k
  myIndex n size rank m

section
variable [Zero V] [Add V]

/-- `process(cat1, initialize=...)` without MPI on patches, corr3base.py:1752-1758. -/
def Kit3.processAuto (K : Kit3 V C) (init : Bool) (cats : List (ℕ × C)) (S : TriCorr V) : TriCorr V :=
  K.allAuto (fun _ _ _ => True) cats (if init then TriCorr.clear else S)

/-- `process(cat1, cat2, ordered=o, initialize=...)`, corr3base.py:1759-1761. -/
def Kit3.processCross12 (K : Kit3 V C) (init o : Bool) (cats1 cats2 : List (ℕ × C)) (S : TriCorr V) : TriCorr V :=
  K.allCross12 (fun _ _ _ => True) o cats1.length cats2.length cats1 cats2 (if init then TriCorr.clear else S)

/-- `process(cat1, cat2, cat3, ordered=o, initialize=...)`, corr3base.py:1762-1764. -/
def Kit3.processCross (K : Kit3 V C) (init o : Bool) (cats1 cats2 cats3 : List (ℕ × C)) (S : TriCorr V) : TriCorr V :=
  K.allCross (fun _ _ _ => True) o cats1.length cats2.length cats3.length cats1 cats2 cats3 (if init then TriCorr.clear else S)

/-- A call of `process`. -/
inductive TriCall (C : Type) where
  | auto (init : Bool) (cats : List (ℕ × C))
  | cross12 (init o : Bool) (cats1 cats2 : List (ℕ × C))
  | cross (init o : Bool) (cats1 cats2 cats3 : List (ℕ × C))

/-- The object after a call. -/
def TriCall.run (K : Kit3 V C) (S : TriCorr V) : TriCall C → TriCorr V
  | .auto init cats => K.processAuto init cats S
  | .cross12 init o cats1 cats2 => K.processCross12 init o cats1 cats2 S
  | .cross init o cats1 cats2 cats3 => K.processCross init o cats1 cats2 cats3 S

/-- The root process collects the others, corr3base.py:1272-1283, 1396-1407, 1522-1533. -/
def Kit3.gather (K : Kit3 V C) : List (TriCorr V) → Option (TriCorr V)
  | [] => none
  | root :: others =>
    some (others.foldl (fun S T => ⟨K.iadd S.self T.self, S.results.update T.results⟩) root)

/-- `process(cat1, comm=comm)` with `size` processes all of which hold the object `S`: what the root holds. -/
def Kit3.mpiAuto (K : Kit3 V C) (size : ℕ) (init : Bool) (cats : List (ℕ × C)) (S : TriCorr V) : Option (TriCorr V) :=
  K.gather ((List.range size).map fun rank =>
    K.allAuto (myAutoJob3 cats.length size rank) cats (if init then TriCorr.clear else S))

/-- `process(cat1, cat2, ordered=o, comm=comm)`. -/
def Kit3.mpiCross12 (K : Kit3 V C) (size : ℕ) (init o : Bool) (cats1 cats2 : List (ℕ × C)) (S : TriCorr V) : Option (TriCorr V) :=
  K.gather ((List.range size).map fun rank =>
    K.allCross12 (myCross12Job cats1.length cats2.length size rank) o cats1.length cats2.length cats1 cats2
      (if init then TriCorr.clear else S))

/-- `process(cat1, cat2, cat3, ordered=o, comm=comm)`. -/
def Kit3.mpiCross (K : Kit3 V C) (size : ℕ) (init o : Bool) (cats1 cats2 cats3 : List (ℕ × C)) (S : TriCorr V) :
    Option (TriCorr V) :=
  K.gather ((List.range size).map fun rank =>
    K.allCross (myCross123Job cats1.length cats2.length cats3.length size rank) o cats1.length cats2.length cats3.length
      cats1 cats2 cats3 (if init then TriCorr.clear else S))

end

/-! ## Triangle counting with trees -/

/-- `operator+=` of the arrays, /repo/src/Corr3.cpp:2610-2629 and the same in Python, corr3base.py:1916-1937. -/
def Acc3.add (A B : Acc3) : Acc3 where
  ntri k := A.ntri k + B.ntri k
  weight k := A.weight k + B.weight k
  zeta k := A.zeta k + B.zeta k
  meand1 k := A.meand1 k + B.meand1 k
  meanlogd1 k := A.meanlogd1 k + B.meanlogd1 k
  meand2 k := A.meand2 k + B.meand2 k
  meanlogd2 k := A.meanlogd2 k + B.meanlogd2 k
  meand3 k := A.meand3 k + B.meand3 k
  meanlogd3 k := A.meanlogd3 k + B.meanlogd3 k
  meanu k := A.meanu k + B.meanu k
  meanv k := A.meanv k + B.meanv k

instance : Zero Acc3 := ⟨Acc3.zero⟩
instance : Add Acc3 := ⟨Acc3.add⟩

/-- The middle one of three numbers: `sorted([a,b,c])[1]`. -/
def middle (a b c : ℝ) : ℝ := max (min a b) (min (max a b) c)

/-- `_trivially_zero` of the three-point classes, corr3base.py:1113-1122; the metric is ignored. -/
def trivZero3 {d : ℕ} (maxsep : ℝ) (l1 l2 l3 : List (Obj (EuclideanSpace ℝ (Fin d)))) : Prop :=
  let c1 := centerSize l1
  let c2 := centerSize l2
  let c3 := centerSize l3
  c1.2 + c2.2 + c3.2 + 2 * maxsep < middle (dist c2.1 c3.1) (dist c3.1 c1.1) (dist c1.1 c2.1)

/-- The arrays after a run on a cleared object; a crash (null pointer) would appear as an empty result; the theorems that use it show
that none happens. -/
def runAcc3 {P : Type} : Option (List (Emit3 P)) → Acc3
  | some es => accumulate3 Acc3.zero es
  | none => Acc3.zero

/-- Triangle counting with trees built by `A`, `g`, `fp`. -/
def triKit {d : ℕ} (A : StdAlg (EuclideanSpace ℝ (Fin d))) (g : Geom (EuclideanSpace ℝ (Fin d))) (fp : FieldParams)
    (B : Bin3 (EuclideanSpace ℝ (Fin d))) (M : Metric3 (EuclideanSpace ℝ (Fin d))) (prm : Prm3)
    (same : List (Obj (EuclideanSpace ℝ (Fin d))) → List (Obj (EuclideanSpace ℝ (Fin d))) → Prop) (nn : Bool) :
    Kit3 Acc3 (List (Obj (EuclideanSpace ℝ (Fin d)))) where
  nz := fun a => ∃ k, a.ntri k ≠ 0
  auto := fun l => runAcc3 (processAuto3 B M prm.minsep (buildField A g fp l).cells)
  cross12 := fun o l1 l2 => runAcc3 (TreeCorr.processCross12 B M (ord12 o) (buildField A g fp l1).cells (buildField A g fp l2).cells)
  cross := fun O l1 l2 l3 => runAcc3 (processCross123 B M O (buildField A g fp l1).cells (buildField A g fp l2).cells
    (buildField A g fp l3).cells)
  triv := trivZero3 prm.maxsep
  sumw := fun l => (l.map Obj.w).sum
  same := same
  nn := nn

/-! ## The other metrics -/

/-- `MetricHelper<Periodic,0>` in the plane as the three-point code uses it, /repo/include/Metric.h:740-772. -/
def perMetric3 (L : Fin 2 → ℝ) : Metric3 (EuclideanSpace ℝ (Fin 2)) where
  distSq := fun p1 p2 => ∑ i, wrapVal (L i) (p1 i - p2 i) ^ 2
  ccw := fun p1 p2 p3 => 0 < wrapVal (L 0) (p2 0 - p1 0) * wrapVal (L 1) (p3 1 - p1 1) -
    wrapVal (L 1) (p2 1 - p1 1) * wrapVal (L 0) (p3 0 - p1 0)

/-- `MetricHelper<Arc,0>` in 3d as the three-point code uses it, /repo/include/Metric.h:637-662.  The rescaling of the sizes of the cells is
left out: here it is used with single positions only, whose size is 0. -/
def arc3Metric3 : Metric3 (EuclideanSpace ℝ (Fin 3)) where
  distSq := fun p1 p2 => Real.arcsin (crossNorm p1 p2 / (‖p1‖ * ‖p2‖)) ^ 2
  ccw := spaceMetric3.ccw

end
end TreeCorr
