import Mathlib.Analysis.RCLike.Basic
import Mathlib.Data.Matrix.Mul
import Verif.Model.Patch

/-!
Model of the patch-based covariance estimates: the pair selections, the design matrix and the covariance
formulas, /repo/treecorr/corr2base.py:1581-1689, 1992-2231.
-/

namespace TreeCorr
open Classical
noncomputable section

/-! ### Which pairs of patches a row uses -/

/-- `JackknifePairIterator`, corr2base.py:1594-1612.  `none` is the failing `assert`. -/
def jackknifePairs (n1 n2 : ℕ) (keys : List (ℕ × ℕ)) (i : ℕ) : Option (List (ℕ × ℕ)) :=
  if n2 = 1 then some (keys.filter fun jk => jk.1 ≠ i)
  else if n1 = 1 then some (keys.filter fun jk => jk.2 ≠ i)
  else if n1 = n2 then some (keys.filter fun jk => jk.1 ≠ i ∧ jk.2 ≠ i)
  else none

/-- `SamplePairIterator`, corr2base.py:1614-1634. -/
def samplePairs (n1 n2 : ℕ) (keys : List (ℕ × ℕ)) (i : ℕ) : Option (List (ℕ × ℕ)) :=
  if n2 = 1 then some (keys.filter fun jk => jk.1 = i)
  else if n1 = 1 then some (keys.filter fun jk => jk.2 = i)
  else if n1 = n2 then some (keys.filter fun jk => jk.1 = i)
  else none

/-- The matrix `_ok`, corr2base.py:1641-1648 (computed afresh; the code keeps it until `clear()`). -/
def okPair (keys : List (ℕ × ℕ)) (i j : ℕ) : Bool := decide ((i, j) ∈ keys)

/-- `MarkedPairIterator`, corr2base.py:1650-1659; `index` are the drawn patches. -/
def markedPairs (n1 n2 : ℕ) (keys : List (ℕ × ℕ)) (index : List ℕ) : Option (List (ℕ × ℕ)) :=
  if n2 = 1 then some ((index.filter fun i => okPair keys i 0).map fun i => (i, 0))
  else if n1 = 1 then some ((index.filter fun i => okPair keys 0 i).map fun i => (0, i))
  else if n1 = n2 then
    some (index.flatMap fun i => ((List.range n2).filter fun j => okPair keys i j).map fun j => (i, j))
  else none

/-- `BootstrapPairIterator`, corr2base.py:1664-1689. -/
def bootstrapPairs (n1 n2 : ℕ) (keys : List (ℕ × ℕ)) (index : List ℕ) : Option (List (ℕ × ℕ)) :=
  if n2 = 1 then some ((index.filter fun i => okPair keys i 0).map fun i => (i, 0))
  else if n1 = 1 then some ((index.filter fun i => okPair keys 0 i).map fun i => (0, i))
  else if n1 = n2 then
    some (((index.filter fun i => okPair keys i i).map fun i => (i, i)) ++
      index.flatMap fun i => ((index.filter fun j => okPair keys i j && decide (i ≠ j)).map fun j => (i, j)))
  else none

/-- `[self.results[ij] for ij in pairs]`; `none` is a KeyError. -/
def fetch (results : Dict) (pairs : List (ℕ × ℕ)) : Option (List Res) := pairs.mapM results.get

/-- `_sum`, nncorrelation.py:232-248 (NN: the arrays only of the non-zero ones, `tot` of all; cleared if there are
none) and kkcorrelation.py:172-184 (`np.sum` of everything). -/
def sumOthers (nn : Bool) (others : List Res) : Res :=
  if nn then
    let nz := others.filter fun r => decide r.nonzero
    ⟨if nz = [] then Acc.zero else (nz.map Res.acc).foldl Acc.add Acc.zero, (others.map Res.tot).sum⟩
  else ⟨(others.map Res.acc).foldl Acc.add Acc.zero, 0⟩

/-! ### The design matrix -/

/-- A correlation object inside `_make_cov_design_matrix_core`: a state, what `_calculate_xi_from_pairs` and `_clear` do with it
and what `getStat`, `getWeight` return. -/
structure CovObj (σ V : Type) where
  fromPairs : σ → List (ℕ × ℕ) → Option σ
  clear : σ → σ
  stat : σ → V
  weight : σ → ℝ

variable {σ V : Type}

/-- One object in one row, corr2base.py:2024-2037. -/
def CovObj.step (O : CovObj σ V) (s : σ) (pairs : List (ℕ × ℕ)) : Option σ :=
  if pairs = [] then some (O.clear s) else O.fromPairs s pairs

/-- All objects in one row. -/
def stepAll : List (CovObj σ V) → List σ → List (List (ℕ × ℕ)) → Option (List σ)
  | O :: Os, s :: ss, p :: ps => do
    let s' ← O.step s p
    let ss' ← stepAll Os ss ps
    return s' :: ss'
  | _, ss, _ => some ss

/-- The loop over rows of `_make_cov_design_matrix_core`, corr2base.py:2019-2040, from row number `row` on: for each row the
data vector `func` of the objects and the total weight, or zeros if the row belongs to another
process.  `W` is the type of data vectors. -/
def designRows {W : Type} [Zero W] (Os : List (CovObj σ V)) (func : List V → W) (rank size : ℕ) :
    List (List (List (ℕ × ℕ))) → ℕ → List σ → Option (List (W × ℝ))
  | [], _, _ => some []
  | pairs :: plist, row, ss =>
    if row % size = rank then do
      let ss' ← stepAll Os ss pairs
      let rest ← designRows Os func rank size plist (row + 1) ss'
      return (func (List.zipWith CovObj.stat Os ss'), (List.zipWith CovObj.weight Os ss').sum) :: rest
    else do
      let rest ← designRows Os func rank size plist (row + 1) ss
      return (0, 0) :: rest

/-- `_make_cov_design_matrix` without MPI. -/
def designMatrix {W : Type} [Zero W] (Os : List (CovObj σ V)) (func : List V → W) (plist : List (List (List (ℕ × ℕ))))
    (ss : List σ) : Option (List (W × ℝ)) :=
  designRows Os func 0 1 plist 0 ss

/-- `comm.Allreduce`: the elementwise sum. -/
def allreduce {W : Type} [AddCommMonoid W] (nrows : ℕ) (vs : List (List (W × ℝ))) : List (W × ℝ) :=
  vs.foldl (fun a v => List.zipWith (· + ·) a v) (List.replicate nrows 0)

/-- `_make_cov_design_matrix` with MPI: every process starts from the same objects. -/
def designMatrixMpi {W : Type} [AddCommMonoid W] (Os : List (CovObj σ V)) (func : List V → W) (size : ℕ)
    (plist : List (List (List (ℕ × ℕ)))) (ss : List σ) : Option (List (W × ℝ)) := do
  let vs ← (List.range size).mapM fun rank => designRows Os func rank size plist 0 ss
  return allreduce plist.length vs

/-! ### Covariances -/

variable {𝕜 : Type} [RCLike 𝕜]

/-- `v -= np.mean(v, axis=0)` -/
def centred {n m : ℕ} (v : Fin n → Fin m → 𝕜) : Fin n → Fin m → 𝕜 :=
  fun i a => v i a - (∑ j, v j a) / (n : 𝕜)

/-- `_cov_jackknife`, corr2base.py:2115-2130; `none` is the ZeroDivisionError of `1./npatch`. -/
def covJackknife {n m : ℕ} (v : Fin n → Fin m → 𝕜) : Option (Matrix (Fin m) (Fin m) 𝕜) :=
  if n = 0 then none
  else some fun a b => (((1 - 1 / (n : ℝ) : ℝ)) : 𝕜) * ∑ i, (starRingEnd 𝕜) (centred v i a) * centred v i b

/-- `_cov_sample`, corr2base.py:2141-2165; `none` is the RuntimeError for zero weights or the ZeroDivisionError of
`1./(npatch-1)`. -/
def covSample {n m : ℕ} (v : Fin n → Fin m → 𝕜) (w : Fin n → ℝ) : Option (Matrix (Fin m) (Fin m) 𝕜) :=
  if (∃ i, w i = 0) ∨ n = 1 then none
  else some fun a b => ((1 / ((n : ℝ) - 1) : ℝ) : 𝕜) *
    ∑ i, ((w i / ∑ j, w j : ℝ) : 𝕜) * (starRingEnd 𝕜) (centred v i a) * centred v i b

/-- `_cov_marked` and `_cov_bootstrap`, corr2base.py:2184-2231. -/
def covBootstrap {n m : ℕ} (v : Fin n → Fin m → 𝕜) : Option (Matrix (Fin m) (Fin m) 𝕜) :=
  if n = 1 then none
  else some fun a b => ((1 / ((n : ℝ) - 1) : ℝ) : 𝕜) * ∑ i, (starRingEnd 𝕜) (centred v i a) * centred v i b

end
end TreeCorr
