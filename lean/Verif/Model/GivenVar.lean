import Verif.Model.CatalogOps

/-!
# Variances that are given by the user

The parameters `vark`, `varz`, `varv`, `varg`, `vart`, `varq` of Catalog, what patches know of them, and the variance that `process` uses.
-/

namespace TreeCorr
namespace Catalog

variable {R : Type} [Field R] [DecidableEq R]

/-- A row: its patch, its weight, and the two components of the field (the second is not used for `k`). -/
structure VRow (R : Type) where
  patch : ℕ
  w : R
  a : R
  b : R

/-- A catalogue: its rows, whether it has weights, the given variance, and whether it has patches. -/
structure VCat (R : Type) where
  rows : List (VRow R)
  nontrivial : Bool
  given : Option R
  patched : Bool

/-- One component of the field. -/
def VCat.comp (c : VCat R) (f : VRow R → R) : WCat R := ⟨c.rows.map fun r => (r.w, f r), c.nontrivial⟩

/-- `_meank`, `_altmeank`, `_vark`, /repo/treecorr/catalog.py:1027-1050 and 1198-1239: a given variance comes with means 0. -/
def VCat.stats (c : VCat R) (f : VRow R → R) : R × R × R :=
  match c.given with
  | some v => (0, 0, v)
  | none => (c.comp f).weightedVar

/-- `vark`, /repo/treecorr/catalog.py:1197-1201. -/
def VCat.vark (c : VCat R) : R := (c.stats VRow.a).2.2

/-- `varg` and the like, /repo/treecorr/catalog.py:1203-1241. -/
def VCat.varg (c : VCat R) : R :=
  match c.given with
  | some v => v
  | none => ((c.stats VRow.a).2.2 + (c.stats VRow.b).2.2) / 2

/-- `_compute_var_multi_cat`, /repo/treecorr/catalog.py:3273-3296. -/
def poolGiven (cats : List (VCat R)) (f : VRow R → R) : R :=
  let vark := (cats.map fun c => (c.stats f).2.2 * (c.comp f).sumw +
    (c.stats f).1 * (c.comp f).sumw2 * (2 * (c.stats f).2.1 - (c.stats f).1)).sum
  let sumw := (cats.map fun c => (c.comp f).sumw).sum
  let sumw2 := (cats.map fun c => (c.comp f).sumw2).sum
  let meank := (cats.map fun c => (c.stats f).1 * (c.comp f).sumw).sum / sumw
  let altmeank := (cats.map fun c => (c.stats f).2.1 * (c.comp f).sumw2).sum / sumw2
  (vark - meank * sumw2 * (2 * altmeank - meank)) / sumw

/-- `calculateVarK` of a list, /repo/treecorr/catalog.py:3298-3322. -/
def varK (cats : List (VCat R)) : R :=
  match cats with
  | [c] => c.vark
  | cats => poolGiven cats VRow.a

/-- `calculateVarG` of a list and the like, /repo/treecorr/catalog.py:3369-3391. -/
def varG (cats : List (VCat R)) : R :=
  match cats with
  | [c] => c.varg
  | cats => (poolGiven cats VRow.a + poolGiven cats VRow.b) / 2

/-- `sorted(set(self.patch))` -/
def VCat.numbers (c : VCat R) : List ℕ := (c.rows.map VRow.patch).dedup.insertionSort (· ≤ ·)

/-- `get_patches`, /repo/treecorr/catalog.py:2932-3009.  `lowFile` is `low_mem` with a catalogue from a file: the patches have the configuration of the
catalogue.  Otherwise they are made from arrays, without it.  (`save_patch_dir` is left out.) -/
def VCat.patches (c : VCat R) (lowFile : Bool) : List (VCat R) :=
  if c.patched then
    c.numbers.map fun i => ⟨c.rows.filter fun r => r.patch = i, c.nontrivial, if lowFile then c.given else none, false⟩
  else [c]

/-- The variance that `process(cat)` hands to `finalize`, /repo/treecorr/corr2base.py:1124-1144. -/
def processVarK (c : VCat R) (lowFile : Bool) : R := varK (c.patches lowFile)

def processVarG (c : VCat R) (lowFile : Bool) : R := varG (c.patches lowFile)

end Catalog
end TreeCorr
