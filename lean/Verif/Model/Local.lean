import Verif.Model.Patch

/-!
Model of `patch_method='local'` for two-point objects: `_make_expanded_patch`, `_single_process12` and the local
loops, /repo/treecorr/corr2base.py:730-800, 865-873, 959-967.

Positions are points of ℝ² (flat coordinates, `z` absent) or ℝ³ (spherical and 3d coordinates); `threeD` says that the
coordinates are 3d.  `Catalog.combine` of the masked patches is the concatenation of the rows kept
(/repo/treecorr/catalog.py:1483-1513).  Unloading (`low_mem`) and names are left out.
-/

namespace TreeCorr
open Classical
noncomputable section
variable {C : Type}

/-- 3d coordinates are divided by the distance from the origin, unless that is 0, corr2base.py:734-739, 747-750,
756-760. -/
def collapse {d : ℕ} (threeD : Bool) (x : EuclideanSpace ℝ (Fin d)) : EuclideanSpace ℝ (Fin d) :=
  if threeD = true ∧ ‖x‖ ≠ 0 then ‖x‖⁻¹ • x else x

/-- `_make_expanded_patch`, corr2base.py:730-775: the rows of the patches `cats2` near `cat1`; `none` is Python's
`None`. -/
def expandPatch {d : ℕ} (threeD : Bool) (maxsep : ℝ) (cat1 : List (Obj (EuclideanSpace ℝ (Fin d))))
    (cats2 : List (List (Obj (EuclideanSpace ℝ (Fin d))))) : Option (List (Obj (EuclideanSpace ℝ (Fin d)))) :=
  let x1 := collapse threeD (centerSize cat1).1
  let s1 := (centerSize cat1).2
  let rows := cats2.flatMap fun p =>
    if dist (collapse threeD (centerSize p).1) x1 > maxsep + s1 + (centerSize p).2 then []
    else p.filter fun o => decide (dist (collapse threeD o.pos) x1 < s1 + maxsep)
  if rows = [] then none else some rows

/-- `temp` in `_single_process12` for an expanded patch, corr2base.py:777-781; the sum of weights of an expanded patch
is set to `sumw2`, that of all of the second catalogue (corr2base.py:769-772). -/
def Kit.localRes (K : Kit C) (sumw2 : ℝ) (c1 : C) : Option C → Res
  | none => Res.zero
  | some c2 => if K.triv c1 c2 then Res.zero else ⟨K.cross c1 c2, if K.nn then K.sumw c1 * sumw2 else 0⟩

/-- `_single_process12` with `force_write=True`, corr2base.py:777-800. -/
def Kit.singleLocal (K : Kit C) (sumw2 : ℝ) (i : ℕ) (c1 : C) (c2e : Option C) (S : Corr) : Corr :=
  let temp := K.localRes sumw2 c1 c2e
  let results := match S.results.get (i, i) with
    | some r => if r.nonzero then S.results.set (i, i) (r.iadd temp) else S.results.set (i, i) temp
    | none => S.results.set (i, i) temp
  ⟨S.self.iadd temp, results⟩

/-- The local loops, corr2base.py:865-873 and 959-967.  `expand` makes the expanded patch. -/
def Kit.allLocal (K : Kit C) (mine : ℕ → ℕ → Prop) (sumw2 : ℝ) (expand : C → Option C) (cats1 : List (ℕ × C))
    (S : Corr) : Corr :=
  cats1.foldl (fun S c1 =>
    if mine c1.1 c1.1 then K.singleLocal sumw2 c1.1 c1.2 (expand c1.2) S else S) S

/-- `process(cat1, cat2, patch_method='local')`, without MPI, with patches. -/
def Kit.localCross {d : ℕ} (K : Kit (List (Obj (EuclideanSpace ℝ (Fin d))))) (threeD : Bool) (maxsep : ℝ) (init : Bool)
    (cats1 cats2 : List (ℕ × List (Obj (EuclideanSpace ℝ (Fin d))))) (S : Corr) : Corr :=
  K.allLocal (fun _ _ => True) (cats2.map fun c => K.sumw c.2).sum
    (fun c => expandPatch threeD maxsep c (cats2.map Prod.snd)) cats1 (if init then Corr.clear else S)

/-- `process(cat1, patch_method='local')`: the expanded patches are made from the catalogue itself. -/
def Kit.localAuto {d : ℕ} (K : Kit (List (Obj (EuclideanSpace ℝ (Fin d))))) (threeD : Bool) (maxsep : ℝ) (init : Bool)
    (cats : List (ℕ × List (Obj (EuclideanSpace ℝ (Fin d))))) (S : Corr) : Corr :=
  K.localCross threeD maxsep init cats cats S

/-- `process(cat1, cat2, comm=comm, patch_method='local')` with `size` processes: what the root holds.  `is_my_job` is
called with the same number twice, corr2base.py:962. -/
def Kit.mpiLocalCross {d : ℕ} (K : Kit (List (Obj (EuclideanSpace ℝ (Fin d))))) (size : ℕ) (threeD : Bool) (maxsep : ℝ)
    (init : Bool) (cats1 cats2 : List (ℕ × List (Obj (EuclideanSpace ℝ (Fin d))))) (S : Corr) : Option Corr :=
  gather ((List.range size).map fun rank =>
    K.allLocal (myCrossJob cats1.length cats2.length size rank) (cats2.map fun c => K.sumw c.2).sum
      (fun c => expandPatch threeD maxsep c (cats2.map Prod.snd)) cats1 (if init then Corr.clear else S))

/-- `process(cat1, comm=comm, patch_method='local')`, corr2base.py:865-873. -/
def Kit.mpiLocalAuto {d : ℕ} (K : Kit (List (Obj (EuclideanSpace ℝ (Fin d))))) (size : ℕ) (threeD : Bool) (maxsep : ℝ)
    (init : Bool) (cats : List (ℕ × List (Obj (EuclideanSpace ℝ (Fin d))))) (S : Corr) : Option Corr :=
  gather ((List.range size).map fun rank =>
    K.allLocal (myAutoJob cats.length size rank) (cats.map fun c => K.sumw c.2).sum
      (fun c => expandPatch threeD maxsep c (cats.map Prod.snd)) cats (if init then Corr.clear else S))

end
end TreeCorr
