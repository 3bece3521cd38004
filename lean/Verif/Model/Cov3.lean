import Verif.Model.Patch3

/-!
Model of the selections of patch triples for the covariance estimates of the three-point classes,
/repo/treecorr/corr3base.py:2264-2412, and of `_sum`, /repo/treecorr/nnncorrelation.py:324-349 and
/repo/treecorr/kkkcorrelation.py:276-296.

`n1`, `n2`, `n3` are `npatch1`, `npatch2`, `npatch3`, `keys` the keys of `results`.  `none` is a failing `assert`.
-/

namespace TreeCorr
open Classical
noncomputable section

abbrev Triple := ℕ × ℕ × ℕ

/-- Whether `_process_all_cross` accepts these numbers of patches, corr3base.py:1446-1449. -/
def crossAccepts (n1 n2 n3 : ℕ) : Bool :=
  !(decide (n1 ≠ n2) && decide (n1 ≠ 1) && decide (n2 ≠ 1)) && !(decide (n1 ≠ n3) && decide (n1 ≠ 1) && decide (n3 ≠ 1))

/-- Row `i` of `_jackknife_pairs`, corr3base.py:2275-2308. -/
def jackknifeTriples (n1 n2 n3 : ℕ) (keys : List Triple) (i : ℕ) : Option (List Triple) :=
  if n3 = 1 then
    if n2 = 1 then some (keys.filter fun t => t.1 ≠ i)
    else if n1 = 1 then some (keys.filter fun t => t.2.1 ≠ i)
    else if n1 = n2 then some (keys.filter fun t => t.1 ≠ i ∧ t.2.1 ≠ i)
    else none
  else if n2 = 1 then
    if n1 = 1 then some (keys.filter fun t => t.2.2 ≠ i)
    else if n1 = n3 then some (keys.filter fun t => t.1 ≠ i ∧ t.2.2 ≠ i)
    else none
  else if n1 = 1 then
    if n2 = n3 then some (keys.filter fun t => t.2.1 ≠ i ∧ t.2.2 ≠ i)
    else none
  else if n1 = n2 ∧ n2 = n3 then some (keys.filter fun t => t.1 ≠ i ∧ t.2.1 ≠ i ∧ t.2.2 ≠ i)
  else none

/-- Row `i` of `_sample_pairs`, corr3base.py:2310-2343. -/
def sampleTriples (n1 n2 n3 : ℕ) (keys : List Triple) (i : ℕ) : Option (List Triple) :=
  if n3 = 1 then
    if n2 = 1 then some (keys.filter fun t => t.1 = i)
    else if n1 = 1 then some (keys.filter fun t => t.2.1 = i)
    else if n1 = n2 then some (keys.filter fun t => t.1 = i)
    else none
  else if n2 = 1 then
    if n1 = 1 then some (keys.filter fun t => t.2.2 = i)
    else if n1 = n3 then some (keys.filter fun t => t.1 = i)
    else none
  else if n1 = 1 then
    if n2 = n3 then some (keys.filter fun t => t.2.1 = i)
    else none
  else if n1 = n2 ∧ n2 = n3 then some (keys.filter fun t => t.1 = i)
  else none

/-- The array `_ok`, corr3base.py:2345-2350 (computed afresh; the code keeps it until `clear()`). -/
def okTriple (keys : List Triple) (t : Triple) : Bool := decide (t ∈ keys)

/-- `_marked_pairs`, corr3base.py:2352-2378; `index` are the drawn patches. -/
def markedTriples (n1 n2 n3 : ℕ) (keys : List Triple) (index : List ℕ) : Option (List Triple) :=
  let ok := okTriple keys
  if n3 = 1 then
    if n2 = 1 then some ((index.map fun i => (i, 0, 0)).filter ok)
    else if n1 = 1 then some ((index.map fun i => (0, i, 0)).filter ok)
    else if n1 = n2 then some (index.flatMap fun i => ((List.range n2).map fun j => (i, j, 0)).filter ok)
    else none
  else if n2 = 1 then
    if n1 = 1 then some ((index.map fun i => (0, 0, i)).filter ok)
    else if n1 = n3 then some (index.flatMap fun i => ((List.range n3).map fun j => (i, 0, j)).filter ok)
    else none
  else if n1 = 1 then
    if n2 = n3 then some (index.flatMap fun i => ((List.range n3).map fun j => (0, i, j)).filter ok)
    else none
  else if n1 = n2 ∧ n2 = n3 then
    some (index.flatMap fun i => (List.range n2).flatMap fun j => ((List.range n3).map fun k => (i, j, k)).filter ok)
  else none

/-- The double loop `for i in indx for j in indx if self._ok[f(i,j)] and i!=j` -/
def offDiagonal (keys : List Triple) (index : List ℕ) (f : ℕ → ℕ → Triple) : List Triple :=
  index.flatMap fun i => (index.filter fun j => okTriple keys (f i j) && decide (i ≠ j)).map fun j => f i j

/-- `_bootstrap_pairs`, corr3base.py:2380-2412. -/
def bootstrapTriples (n1 n2 n3 : ℕ) (keys : List Triple) (index : List ℕ) : Option (List Triple) :=
  let ok := okTriple keys
  if n3 = 1 then
    if n2 = 1 then some ((index.map fun i => (i, 0, 0)).filter ok)
    else if n1 = 1 then some ((index.map fun i => (0, i, 0)).filter ok)
    else if n1 = n2 then
      some ((index.map fun i => (i, i, 0)).filter ok ++ offDiagonal keys index fun i j => (i, j, 0))
    else none
  else if n2 = 1 then
    if n1 = 1 then some ((index.map fun i => (0, 0, i)).filter ok)
    else if n1 = n3 then
      some ((index.map fun i => (i, 0, i)).filter ok ++ offDiagonal keys index fun i j => (i, 0, j))
    else none
  else if n1 = 1 then
    if n2 = n3 then
      some ((index.map fun i => (0, i, i)).filter ok ++ offDiagonal keys index fun i j => (0, i, j))
    else none
  else if n1 = n2 ∧ n2 = n3 then
    some ((index.map fun i => (i, i, i)).filter ok
      ++ offDiagonal keys index (fun i j => (i, i, j))
      ++ offDiagonal keys index (fun i j => (i, j, i))
      ++ offDiagonal keys index (fun i j => (j, i, i))
      ++ index.flatMap fun i => (index.filter fun j => i ≠ j).flatMap fun j =>
          (index.filter fun k => okTriple keys (i, j, k) && (decide (i ≠ k) && decide (j ≠ k))).map fun k => (i, j, k))
  else none

variable {V C : Type} [AddCommMonoid V]

/-- `[self.results[ijk] for ijk in pairs]`, corr3base.py:2272; `none` is a KeyError. -/
def fetch3 (results : Dict3 V) (triples : List Triple) : Option (List (Res3 V)) := triples.mapM results.get

/-- `_sum`, nnncorrelation.py:324-349 (NNN: the arrays only of the non-zero ones, `tot` of all; cleared if there are
none) and kkkcorrelation.py:276-296 (`np.sum` of everything). -/
def Kit3.sumOthers (K : Kit3 V C) (others : List (Res3 V)) : Res3 V :=
  if K.nn then
    let nz := others.filter fun r => decide (K.nz r.acc)
    ⟨if nz = [] then 0 else (nz.map Res3.acc).sum, (others.map Res3.tot).sum⟩
  else ⟨(others.map Res3.acc).sum, 0⟩

end
end TreeCorr
