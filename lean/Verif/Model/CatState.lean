import Mathlib.Algebra.Module.Basic
import Mathlib.Data.List.Sort
import Mathlib.Algebra.BigOperators.Group.List.Basic

/-!
Model of what a Catalog object remembers (/repo/treecorr/catalog.py): loading its file when it is needed, unloading it, trimming it with
`select`, and the quantities that are kept once they are known: the sum of weights, the number of objects, the number of patches,
the centres of patches, the patches and the fields.

The rows are those after the input was finished (Model/Catalog), with their patch numbers.  A patch number above the given `npatch` is an
error that is not modelled here.  `low_mem` and `save_patch_dir` are the subject of Model/Saved.  One kind of field stands for all.
-/

namespace TreeCorr
namespace CatState

variable {R E K F : Type} [Field R] [DecidableEq R] [AddCommGroup E] [Module R E] [DecidableEq K]

/-- A row: its position, weight and patch number. -/
structure Row (R E : Type) where
  pos : E
  w : R
  patch : ℕ
deriving DecidableEq

/-- The columns; whether weights were given, and whether there are patch numbers. -/
structure Data (R E : Type) where
  rows : List (Row R E)
  weighted : Bool
  patched : Bool
deriving DecidableEq

/-- What does not depend on the object: how positions are brought to the sphere (`centers /= sqrt(...)`; `none` is NaN), and how a field is
built. -/
structure Env (R E K F : Type) where
  unit : E → Option E
  build : K → List (Row R E) → F

/-- `_patches`: `[self]`, or catalogues made of the rows of each number. -/
inductive Patches (R E : Type) where
  | self
  | parts (ps : List (List (Row R E)))
deriving DecidableEq

/-- The attributes: what the file holds (`none` for a catalogue of arrays), the centres that k-means will find if it is to be run when
the input is finished, `_centers`, the columns (`none` if not loaded), and what is kept: `_nontrivial_w`, `_sumw`, `_nobj`, `_sumw2`,
`_npatch`, `_computed_centers`, `_patches`, `nfields` and its size (`none` if there is no cache yet).  When k-means has been run and the file is
loaded again, rows go to the nearest of the centres: these are taken to be the same patches. -/
structure St (R E K F : Type) where
  file : Option (Data R E)
  kmeans : Option (List E)
  given : Option (List E)
  data : Option (Data R E)
  nontriv : Option Bool
  sumw : Option R
  nobj : Option ℕ
  sumw2 : Option R
  npatch : Option ℕ
  computed : Option (List (Option E))
  patches : Option (Patches R E)
  cache : List (K × F)
  size : Option ℕ

/-- `max(self._patch) + 1` in `_set_npatch`, /repo/treecorr/catalog.py:1527-1533. -/
def maxPatch (l : List (Row R E)) : ℕ := (l.map Row.patch).foldr max 0 + 1

/-- The end of `_finish_input`, /repo/treecorr/catalog.py:1407-1446, and `_set_npatch` if there is a column of patches. -/
def finish (d : Data R E) (s : St R E K F) : St R E K F where
  file := s.file
  kmeans := s.kmeans
  given := match s.given with
    | some c => some c
    | none => s.kmeans
  data := some d
  nontriv := some d.weighted
  sumw := some (if d.weighted then (d.rows.map Row.w).sum else (d.rows.length : R))
  nobj := match s.nobj with
    | some n => some n
    | none => some (if d.weighted then (d.rows.filter fun r => r.w ≠ 0).length else d.rows.length)
  sumw2 := s.sumw2
  npatch := if s.given.isNone && s.kmeans.isNone && d.patched then some (maxPatch d.rows) else s.npatch
  computed := s.computed
  patches := s.patches
  cache := s.cache
  size := s.size

/-- `load`, /repo/treecorr/catalog.py:2738-2752. -/
def load (s : St R E K F) : St R E K F :=
  match s.data with
  | some _ => s
  | none =>
    match s.file with
    | some d => finish d s
    | none => s

/-- `unload`, /repo/treecorr/catalog.py:2754-2794. -/
def unload (s : St R E K F) : St R E K F := { s with data := if s.file.isSome then none else s.data, cache := [] }

/-- `select`, /repo/treecorr/catalog.py:1592-1619: columns that are None stay None. -/
def select (idx : List ℕ) (s : St R E K F) : St R E K F :=
  { s with data := s.data.map fun d => { d with rows := idx.filterMap fun i => d.rows[i]? } }

/-- The rows, `self.x` and so on: /repo/treecorr/catalog.py:1064-1157. -/
def getRows (s : St R E K F) : List (Row R E) × St R E K F :=
  let s := load s
  ((s.data.map Data.rows).getD [], s)

/-- `npatch`, /repo/treecorr/catalog.py:1159-1163. -/
def getNpatch (s : St R E K F) : ℕ × St R E K F :=
  let s := if s.npatch.isNone then load s else s
  (s.npatch.getD 0, s)

/-- `nontrivial_w`, /repo/treecorr/catalog.py:1243-1246. -/
def getNontriv (s : St R E K F) : Bool × St R E K F :=
  let s := if s.nontriv.isNone then load s else s
  (s.nontriv.getD false, s)

/-- `sumw`, /repo/treecorr/catalog.py:1262-1265. -/
def getSumw (s : St R E K F) : R × St R E K F :=
  let s := if s.sumw.isNone then load s else s
  (s.sumw.getD 0, s)

/-- `nobj`, /repo/treecorr/catalog.py:1252-1260.  It looks at `_w` without loading: `np.sum(None != 0)` is 1.  Loading sets `_nobj` itself. -/
def getNobj (s : St R E K F) : ℕ × St R E K F :=
  match s.nobj with
  | some n => (n, s)
  | none =>
    let (b, s) := getNontriv s
    if b then
      let n := match s.data with
        | some d => (d.rows.filter fun r => r.w ≠ 0).length
        | none => 1
      (n, { s with nobj := some n })
    else
      let (l, s) := getRows s
      (l.length, { s with nobj := some l.length })

/-- `sumw2`, /repo/treecorr/catalog.py:1267-1274. -/
def getSumw2 (s : St R E K F) : R × St R E K F :=
  match s.sumw2 with
  | some x => (x, s)
  | none =>
    let (b, s) := getNontriv s
    let (l, s) := getRows s
    let x := if b then (l.map fun r => r.w ^ 2).sum else (l.length : R)
    (x, { s with sumw2 := some x })

/-- A quotient; `none` is NaN. -/
def quot (den : R) (num : E) : Option E := if den = 0 then none else some (den⁻¹ • num)

/-- `_weighted_mean` of all rows, /repo/treecorr/catalog.py:2621-2631: divided by the sum of weights that is kept. -/
def meanAll (nontriv : Bool) (sumw : R) (l : List (Row R E)) : Option E :=
  if nontriv then quot sumw (l.map fun r => r.w • r.pos).sum else quot (l.length : R) (l.map Row.pos).sum

/-- `_weighted_mean` with an index. -/
def meanIdx (nontriv : Bool) (l : List (Row R E)) : Option E :=
  if nontriv then quot (l.map Row.w).sum (l.map fun r => r.w • r.pos).sum else quot (l.length : R) (l.map Row.pos).sum

/-- `get_patch_centers`, /repo/treecorr/catalog.py:2633-2683; the error is the RuntimeError for a number without rows. -/
def getCenters (e : Env R E K F) (s : St R E K F) : Option (List (Option E)) × St R E K F :=
  match s.given with
  | some c => (some (c.map some), s)
  | none =>
    match s.computed with
    | some c => (some c, s)
    | none =>
      let s := load s
      let (b, s) := getNontriv s
      let l := (s.data.map Data.rows).getD []
      if (s.data.map Data.patched).getD false then
        let (n, s) := getNpatch s
        let parts := (List.range n).map fun p => l.filter fun r => r.patch = p
        if parts.any List.isEmpty then (none, s)
        else
          let c := parts.map fun q => (meanIdx b q).bind e.unit
          (some c, { s with computed := some c })
      else
        let (x, s) := getSumw s
        let c := [(meanAll b x l).bind e.unit]
        (some c, { s with computed := some c })

/-- `sorted(set(self.patch))` -/
def numbers (l : List (Row R E)) : List ℕ := (l.map Row.patch).dedup.insertionSort (· ≤ ·)

/-- `get_patches`, /repo/treecorr/catalog.py:2917-3009, without `low_mem` and `save_patch_dir`: the rows of each patch; `[self]` has the rows
that the catalogue has now. -/
def getPatches (s : St R E K F) : List (List (Row R E)) × St R E K F :=
  let s := match s.patches with
    | some _ => s
    | none =>
      let (n, s) := getNpatch s
      if n = 1 then { s with patches := some .self }
      else
        let (l, s) := getRows s
        { s with patches := some (.parts ((numbers l).map fun p => l.filter fun r => r.patch = p)) }
  match s.patches with
  | some (.parts ps) => (ps, s)
  | _ =>
    let (l, s) := getRows s
    ([l], s)

/-- `getNField` and the others, /repo/treecorr/catalog.py:2186-2201, 2377-2409: the field that is kept, or one that is built now (Model/LRU). -/
def getField (e : Env R E K F) (key : K) (s : St R E K F) : F × St R E K F :=
  match s.cache.find? fun x => x.1 = key with
  | some x => (x.2, { s with cache := x :: s.cache.filter fun y => y.1 ≠ key })
  | none =>
    let (l, s) := getRows s
    (e.build key l, { s with cache := ((key, e.build key l) :: s.cache).take (s.size.getD 1), size := some (s.size.getD 1) })

/-- What a user does. -/
inductive Op (K : Type) where
  | load | unload | clear
  | resize (n : ℕ)
  | rows | npatch | sumw | nobj | sumw2 | centers | patches
  | field (key : K)
  | select (idx : List ℕ)

/-- What the user sees. -/
inductive Ans (R E F : Type) where
  | nothing
  | rows (l : List (Row R E))
  | nat (n : ℕ)
  | num (x : R)
  | centers (c : Option (List (Option E)))
  | patches (l : List (List (Row R E)))
  | field (f : F)
deriving DecidableEq

/-- One step; `clear_cache`, /repo/treecorr/catalog.py:2331-2368, `resize_cache`, 2275-2329, which does nothing
before there is a cache. -/
def step (e : Env R E K F) (s : St R E K F) : Op K → Ans R E F × St R E K F
  | .load => (.nothing, load s)
  | .unload => (.nothing, unload s)
  | .clear => (.nothing, { s with cache := [] })
  | .resize n => (.nothing, { s with cache := s.cache.take n, size := s.size.map fun _ => n })
  | .rows => let (l, s) := getRows s; (.rows l, s)
  | .npatch => let (n, s) := getNpatch s; (.nat n, s)
  | .sumw => let (x, s) := getSumw s; (.num x, s)
  | .nobj => let (n, s) := getNobj s; (.nat n, s)
  | .sumw2 => let (x, s) := getSumw2 s; (.num x, s)
  | .centers => let (c, s) := getCenters e s; (.centers c, s)
  | .patches => let (l, s) := getPatches s; (.patches l, s)
  | .field key => let (f, s) := getField e key s; (.field f, s)
  | .select idx => (.nothing, select idx s)

/-- A history. -/
def run (e : Env R E K F) (s : St R E K F) : List (Op K) → List (Ans R E F)
  | [] => []
  | o :: os => (step e s o).1 :: run e (step e s o).2 os

/-- Where patches come from: there are none, a column with their numbers (and perhaps `npatch`), given centres, or `npatch` and k-means, which
finds these centres. -/
inductive How (E : Type) where
  | none
  | column (npatch : Option ℕ)
  | centers (c : List E)
  | kmeans (c : List E)

/-- `Catalog(file_name, …)`, /repo/treecorr/catalog.py:835-858: nothing is read; `npatch` is what is known without reading. -/
def fromFile (d : Data R E) (h : How E) : St R E K F where
  file := some d
  kmeans := match h with
    | .kmeans c => some c
    | _ => none
  given := match h with
    | .centers c => some c
    | _ => none
  data := none
  nontriv := none
  sumw := none
  nobj := none
  sumw2 := none
  npatch := match h with
    | .none => some 1
    | .column n => n
    | .centers c => some c.length
    | .kmeans c => some c.length
  computed := none
  patches := none
  cache := []
  size := none

/-- `Catalog(x=…, …)`, /repo/treecorr/catalog.py:949-956, 1052-1056: the input is finished at once. -/
def fromArrays (d : Data R E) (h : How E) : St R E K F := { load (fromFile d h) with file := none }

end CatState
end TreeCorr
