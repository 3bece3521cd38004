import Verif.Model.Trivial

/-!
Model of the patch bookkeeping of the two-point classes: `_single_process12`, `_process_all_auto`,
`_process_all_cross`, `__iadd__`, `_add_tot`, /repo/treecorr/corr2base.py:714-992, 1202-1227 and
/repo/treecorr/nncorrelation.py:150-260.

Counting itself is a parameter (`Kit`): what `process_auto`/`process_cross` add to a cleared object for a
catalogue or a pair of catalogues, whether a pair is trivially zero, and the sum of weights of a catalogue.
Unloading (`low_mem`), logging and the compatibility checks of `__iadd__` are left out.
-/

namespace TreeCorr
open Classical
noncomputable section
variable {C : Type}

/-- The accumulated data of a correlation object: the arrays and (NN only, otherwise 0) `tot`. -/
structure Res where
  acc : Acc
  tot : ℝ

/-- A cleared object, /repo/treecorr/corr2base.py:1188-1200, nncorrelation.py:214-218. -/
def Res.zero : Res := ⟨Acc.zero, 0⟩

/-- `nonzero`, /repo/treecorr/corr2base.py:714-718. -/
def Res.nonzero (r : Res) : Prop := ∃ k, r.acc.npairs k ≠ 0

/-- `__iadd__`, /repo/treecorr/corr2base.py:1202-1227 and nncorrelation.py:220-230. -/
def Res.iadd (r s : Res) : Res := ⟨if s.nonzero then r.acc.add s.acc else r.acc, r.tot + s.tot⟩

/-- The dictionary `results`, as the list of its items. -/
abbrev Dict := List ((ℕ × ℕ) × Res)

/-- `d[key]` -/
def Dict.get (d : Dict) (key : ℕ × ℕ) : Option Res := d.lookup key

/-- `d[key] = v` -/
def Dict.set (d : Dict) (key : ℕ × ℕ) (v : Res) : Dict :=
  if key ∈ d.map Prod.fst then d.map (fun x => if x.1 = key then (key, v) else x) else d ++ [(key, v)]

/-- `d.update(e)` -/
def Dict.update (d e : Dict) : Dict := e.foldl (fun d x => d.set x.1 x.2) d

/-- A correlation object: its own data and `results`. -/
structure Corr where
  self : Res
  results : Dict

/-- After `clear()`. -/
def Corr.clear : Corr := ⟨Res.zero, []⟩

/-- What the loops need to know about counting. -/
structure Kit (C : Type) where
  /-- arrays after `process_auto(c)` on a cleared object -/
  auto : C → Acc
  /-- arrays after `process_cross(c1,c2)` on a cleared object -/
  cross : C → C → Acc
  /-- `_trivially_zero` -/
  triv : C → C → Prop
  /-- `cat.sumw` -/
  sumw : C → ℝ
  /-- whether the class is `NNCorrelation`, which keeps `tot` -/
  nn : Bool

/-- `temp` after `temp._clear(); temp.process_auto(c)`, nncorrelation.py:163-178. -/
def Kit.autoRes (K : Kit C) (c : C) : Res := ⟨K.auto c, if K.nn then 0.5 * K.sumw c ^ 2 else 0⟩

/-- `temp` after `temp._clear(); temp.process_cross(c1,c2)`, nncorrelation.py:180-198. -/
def Kit.crossRes (K : Kit C) (c1 c2 : C) : Res := ⟨K.cross c1 c2, if K.nn then K.sumw c1 * K.sumw c2 else 0⟩

/-- `_add_tot`, corr2base.py:720-722 and nncorrelation.py:250-260. -/
def Kit.addTot (K : Kit C) (ij : ℕ × ℕ) (c1 c2 : C) (S : Corr) : Corr :=
  if K.nn then
    let tot := K.sumw c1 * K.sumw c2
    ⟨⟨S.self.acc, S.self.tot + tot⟩, S.results.set ij ⟨Acc.zero, tot⟩⟩
  else S

/-- `_single_process12` with `c2` not `None`, corr2base.py:784-800. -/
def Kit.single12 (K : Kit C) (force : Bool) (ij : ℕ × ℕ) (c1 c2 : C) (S : Corr) : Corr :=
  let temp := if K.triv c1 c2 then Res.zero else K.crossRes c1 c2
  if temp.nonzero ∨ force = true then
    let results := match S.results.get ij with
      | some r => if r.nonzero then S.results.set ij (r.iadd temp) else S.results.set ij temp
      | none => S.results.set ij temp
    ⟨S.self.iadd temp, results⟩
  else K.addTot ij c1 c2 S

/-- The auto job of the global loop, corr2base.py:869-877. -/
def Kit.single11 (K : Kit C) (i : ℕ) (c : C) (S : Corr) : Corr :=
  let temp := K.autoRes c
  let results := match S.results.get (i, i) with
    | none => S.results.set (i, i) temp
    | some r => S.results.set (i, i) (r.iadd temp)
  ⟨S.self.iadd temp, results⟩

/-- `my_indices = np.arange(n*rank//size, n*(rank+1)//size)`, corr2base.py:855, 947. -/
def myIndex (n size rank i : ℕ) : Prop := n * rank / size ≤ i ∧ i < n * (rank + 1) / size

/-- `is_my_job` of the auto loop under MPI, corr2base.py:804-843. -/
def myAutoJob (n size rank i j : ℕ) : Prop :=
  if myIndex n size rank i ∧ myIndex n size rank j then True
  else if ¬ myIndex n size rank i ∧ ¬ myIndex n size rank j then False
  else if (j : ℤ) - i < ((n / 2 : ℕ) : ℤ) then i % 2 = (if myIndex n size rank i then 0 else 1)
  else j % 2 = (if myIndex n size rank j then 0 else 1)

/-- `is_my_job` of the cross loop under MPI, corr2base.py:912-931, 943-947. -/
def myCrossJob (n1 n2 size rank i j : ℕ) : Prop :=
  let k := if n1 > n2 then i else j
  myIndex (max n1 n2) size rank k

/-- The global auto loop, corr2base.py:866-891.  `cats` are the patches with their numbers, `mine` is
`is_my_job` (always true without MPI). -/
def Kit.allAuto (K : Kit C) (mine : ℕ → ℕ → Prop) (cats : List (ℕ × C)) (S : Corr) : Corr :=
  cats.foldl (fun S c1 =>
    let S := if mine c1.1 c1.1 then K.single11 c1.1 c1.2 S else S
    cats.reverse.foldl (fun S c2 =>
      if c1.1 < c2.1 ∧ mine c1.1 c2.1 then K.single12 false (c1.1, c2.1) c1.2 c2.2 S else S) S) S

/-- The global cross loop, corr2base.py:963-975; `n1`, `n2` are the numbers of patches. -/
def Kit.allCross (K : Kit C) (mine : ℕ → ℕ → Prop) (n1 n2 : ℕ) (cats1 cats2 : List (ℕ × C)) (S : Corr) : Corr :=
  cats1.foldl (fun S c1 =>
    cats2.foldl (fun S c2 =>
      if mine c1.1 c2.1 then
        K.single12 (decide (c1.1 = c2.1) || decide (n1 = 1) || decide (n2 = 1)) (c1.1, c2.1) c1.2 c2.2 S
      else S) S) S

/-- `process(cat1, initialize=...)` without MPI on patches, corr2base.py:1079-1130. -/
def Kit.processAuto (K : Kit C) (init : Bool) (cats : List (ℕ × C)) (S : Corr) : Corr :=
  K.allAuto (fun _ _ => True) cats (if init then Corr.clear else S)

/-- `process(cat1, cat2, initialize=...)` without MPI on patches. -/
def Kit.processCross (K : Kit C) (init : Bool) (cats1 cats2 : List (ℕ × C)) (S : Corr) : Corr :=
  K.allCross (fun _ _ => True) cats1.length cats2.length cats1 cats2 (if init then Corr.clear else S)

/-- A call of `process`. -/
inductive Call (C : Type) where
  | auto (init : Bool) (cats : List (ℕ × C))
  | cross (init : Bool) (cats1 cats2 : List (ℕ × C))

/-- The object after a call. -/
def Call.run (K : Kit C) (S : Corr) : Call C → Corr
  | .auto init cats => K.processAuto init cats S
  | .cross init cats1 cats2 => K.processCross init cats1 cats2 S

/-- The root process collects the others, corr2base.py:892-908, 976-992. -/
def gather : List Corr → Option Corr
  | [] => none
  | root :: others =>
    some (others.foldl (fun S T => ⟨S.self.iadd T.self, S.results.update T.results⟩) root)

/-- `process(cat1, comm=comm)` with `size` processes all of which hold the object `S`: what the root holds. -/
def Kit.mpiAuto (K : Kit C) (size : ℕ) (init : Bool) (cats : List (ℕ × C)) (S : Corr) : Option Corr :=
  gather ((List.range size).map fun rank =>
    K.allAuto (myAutoJob cats.length size rank) cats (if init then Corr.clear else S))

/-- `process(cat1, cat2, comm=comm)`. -/
def Kit.mpiCross (K : Kit C) (size : ℕ) (init : Bool) (cats1 cats2 : List (ℕ × C)) (S : Corr) :
    Option Corr :=
  gather ((List.range size).map fun rank =>
    K.allCross (myCrossJob cats1.length cats2.length size rank) cats1.length cats2.length cats1 cats2
      (if init then Corr.clear else S))

/-- The counting code on catalogues in flat (`d = 2`) or 3d (`d = 3`) coordinates, one thread: trees are built with
`A` and `fp`.  A crash (null pointer) would appear here as an empty result; the theorems that use this
kit show that none happens. -/
def treeKit {d : ℕ} (A : StdAlg (EuclideanSpace ℝ (Fin d))) (fp : FieldParams)
    (B : BinHelper (EuclideanSpace ℝ (Fin d))) (M : MetricHelper (EuclideanSpace ℝ (Fin d))) (prm : Params)
    (nn : Bool) : Kit (List (Obj (EuclideanSpace ℝ (Fin d)))) where
  auto := fun l => match TreeCorr.processAuto (decide11 B M prm B.doReverse) prm
      (buildField A (euclidGeom d) fp l).cells with
    | some es => accumulate Acc.zero es
    | none => Acc.zero
  cross := fun l1 l2 => match TreeCorr.processCross B M prm (buildField A (euclidGeom d) fp l1)
      (buildField A (euclidGeom d) fp l2) with
    | some es => accumulate Acc.zero es
    | none => Acc.zero
  triv := fun l1 l2 => patchesTriviallyZero B M prm l1 l2
  sumw := fun l => (l.map Obj.w).sum
  nn := nn

end
end TreeCorr
