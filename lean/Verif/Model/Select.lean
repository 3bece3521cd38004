import Mathlib.Algebra.Order.Archimedean.Real.Basic
import Mathlib.Algebra.Order.Floor.Semiring

/-!
Model of `SelectRandomFrom`, `/repo/src/Corr2.cpp:719-759`.

The numbers returned by the successive calls of `urand()` (`/repo/src/Cell.cpp:58-82`, `rand()/RAND_MAX`, between 0 and 1, both
included) are a sequence `u`; the functions take the number of calls made so far and return the number made in
the end.  `none` stands for touching memory outside of an array, or for a loop that has not come to an end.
-/

namespace TreeCorr
open Classical
noncomputable section

/-- `std::swap(v[i], v[j])`. -/
def swapIdx {α : Type} (v : List α) (i j : ℕ) : Option (List α) :=
  v[i]?.bind fun a => v[j]?.map fun b => (v.set i b).set j a

/-- The loop of Floyd's algorithm, /repo/src/Corr2.cpp:730-743.  `sel` holds the written entries of `selection`, which are also
the members of `selected`; `fuel` bounds the number of turns. -/
def floydLoop (u : ℕ → ℝ) (m n : ℕ) : ℕ → ℕ → List ℕ → Option (List ℕ × ℕ)
  | fuel, k, sel =>
    if sel.length < n then
      match fuel with
      | 0 => none
      | fuel + 1 =>
        let j := ⌊u k * m⌋₊
        let j := if j = m then m - 1 else j
        floydLoop u m n fuel (k + 1) (if j ∈ sel then sel else sel ++ [j])
    else some (sel, k)

/-- One turn of the Fisher–Yates loop, /repo/src/Corr2.cpp:750-755. -/
def fisherYatesStep (u : ℕ → ℝ) (m k : ℕ) (full : List ℕ) (i : ℕ) : Option (List ℕ) :=
  let j := ⌊u (k + i) * ((m : ℝ) - i)⌋₊ + i
  let j := if j = m then m - 1 else j
  swapIdx full i j

/-- `SelectRandomFrom(m, selection)`, /repo/src/Corr2.cpp:719-759, for a `selection` of length `n`. -/
def selectRandomFrom (u : ℕ → ℝ) (fuel m n k : ℕ) : Option (List ℕ × ℕ) :=
  if m > 3 * n then floydLoop u m n fuel k []
  else
    ((List.range n).foldlM (fisherYatesStep u m k) (List.range m)).bind fun full =>
      if n ≤ full.length then some (full.take n, k + n) else none

end
end TreeCorr
