import Verif.Proofs.Copies
import Mathlib.Data.Fintype.Basic

/-!
# C87: a copy is independent of the original
-/

namespace TreeCorr
namespace Copies

section
variable {K A C D V : Type} [DecidableEq K] (L : Lib K A C D V) [∀ r : K → Option A, Decidable (∃ k, r k ≠ none)]

/-- **C87.** After a safe program each object holds what it would hold if it shared nothing with other objects.  What is
missing: programs that copy or clear an object between `process(finalize=False)` and its end, or add patch results to an
object that was copied, see the `_wrong` theorems. -/
theorem copies_values_partial {p : List (Op C)} (hp : SafeRun L (World.start L) Marks.start p) :
    ∀ i < ((World.start L).run L p).n, ((Heap.start L).run L p).read i = ((World.start L).run L p).vals i := by
  obtain ⟨m, R⟩ := rel_run L p (rel_start L) hp
  exact R.read

/-- **C87, what is done to a copy is not seen through the original**, and the other way round: an object holds the same after
any number of operations on other objects. -/
theorem copies_independent_partial {p q : List (Op C)} (hpq : SafeRun L (World.start L) Marks.start (p ++ q)) {i : ℕ}
    (hi : i < ((World.start L).run L p).n) (hq : Leaves i ((World.start L).run L p).n q) :
    ((Heap.start L).run L (p ++ q)).read i = ((Heap.start L).run L p).read i := by
  have h1 := copies_values_partial L hpq
  have h2 := copies_values_partial L (safeRun_append L p q _ _ hpq) i hi
  have e : (World.start L).run L (p ++ q) = ((World.start L).run L p).run L q := List.foldl_append
  rw [h1 i (by rw [e]; exact Nat.lt_of_lt_of_le hi (run_n L q _)), h2, e, run_vals L i q _ hq]

/-- **C87 for programs that process from the start to the end**: no conditions are left. -/
theorem copies_plain {p : List (Op C)} (hp : Plain 0 p) :
    ∀ i < ((World.start L).run L p).n, ((Heap.start L).run L p).read i = ((World.start L).run L p).vals i :=
  copies_values_partial L (plain_safe L p (World.start L) Marks.start (fun _ => rfl) hp)

end

/-! ## Examples, and what fails -/

/-- Catalogues are numbers; those from 10 on have patches.  The arrays are the sum of what was added, and the variance, which is
the sum of the catalogues it is made from. -/
def exL : Lib (Fin 2) (ℕ × ℕ) ℕ (Option (ℕ × ℕ)) ℕ where
  zero := (0, 0)
  add a b := (a.1 + b.1, a.2)
  auto c := (c, 0)
  patches c := if c < 10 then none else if c < 20 then some [(0, (c, 0))] else some [(0, (c, 0)), (1, (1, 0))]
  var := List.sum
  fin v a := (a.1, v)
  est _ r := r 0
  estXi _ r _ _ := r 0

/-- What object `i` holds after the program. -/
def exRun (p : List (Op ℕ)) (i : ℕ) : Data (Fin 2) (ℕ × ℕ) ℕ (Option (ℕ × ℕ)) := ((Heap.start exL).run exL p).read i

/-- `copies_independent_partial`: the copy is processed anew with patches, goes on without `initialize`, and gets patch pairs from
`calculateXi`; the original is as before, and not empty. -/
example : exRun ([.new, .process 0 10 true true, .copy 0] ++ [.process 1 10 true true, .process 1 11 false true, .new,
      .process 2 20 true true, .calculateXi 1 2]) 0 = exRun [.new, .process 0 10 true true, .copy 0] 0 :=
  copies_independent_partial exL (by
    simp [SafeRun, Safe, World.step, Marks.step, World.start, Marks.start, process, empty]) (by decide)
    (by simp [Leaves, changes, World.run, World.step, World.start, made])

example : (exRun [.new, .process 0 10 true true, .copy 0] 0).arr = (10, 10) ∧
    (exRun [.new, .process 0 10 true true, .copy 0, .process 1 10 true true, .process 1 11 false true, .new,
      .process 2 20 true true, .calculateXi 1 2] 1).arr = (21, 11) ∧
    (exRun [.new, .process 0 10 true true, .copy 0, .process 1 10 true true, .process 1 11 false true, .new,
      .process 2 20 true true, .calculateXi 1 2] 1).res 1 = some (0, 0) := by decide

/-- `copies_plain`: copies of copies, sums, and new data in each. -/
example : (exRun [.new, .process 0 10 true true, .copy 0, .process 1 20 true true, .copy 1, .add 2 0, .clear 1, .cov 2] 2) =
    ((World.start exL).run exL
      [.new, .process 0 10 true true, .copy 0, .process 1 20 true true, .copy 1, .add 2 0, .clear 1, .cov 2]).vals 2 :=
  copies_plain exL (by simp [Plain, made]) 2 (by decide)

/-- **A copy made before `finalize` shares the list of catalogues**: when the copy is processed, the original forgets the
catalogue it holds already, and its variance is that of the last catalogue alone. -/
theorem copy_pending_wrong :
    (exRun [.new, .process 0 1 true false, .copy 0, .process 0 3 false true] 0).arr = (4, 4) ∧
    (exRun [.new, .process 0 1 true false, .copy 0, .process 1 2 true true, .process 0 3 false true] 0).arr = (4, 3) := by
  decide

/-- **Patch results added to a copy are added to the original**: its arrays are as before, its patch results and
the covariance made from them are those of the copy. -/
theorem copy_results_wrong :
    (exRun [.new, .process 0 10 true true, .copy 0, .cov 0] 0).arr = (10, 10) ∧
    (exRun [.new, .process 0 10 true true, .copy 0, .cov 0] 0).cov = some (some (10, 0)) ∧
    (exRun [.new, .process 0 10 true true, .copy 0, .process 1 11 false true, .cov 0] 0).arr = (10, 10) ∧
    (exRun [.new, .process 0 10 true true, .copy 0, .process 1 11 false true, .cov 0] 0).res 0 = some (21, 0) ∧
    (exRun [.new, .process 0 10 true true, .copy 0, .process 1 11 false true, .cov 0] 0).cov = some (some (21, 0)) := by
  decide

/-- **`calculateXi` on a copy gives the original patch pairs it did not have.** -/
theorem copy_calculateXi_wrong :
    (exRun [.new, .process 0 10 true true, .new, .process 1 20 true true, .copy 0] 0).res 1 = none ∧
    (exRun [.new, .process 0 10 true true, .new, .process 1 20 true true, .copy 0, .calculateXi 2 1] 0).res 1 =
      some (0, 0) := by
  decide

/-- **`clear` leaves the catalogues that wait to be finalized**: the sums begin at zero again, the variance is still of both
catalogues. -/
theorem clear_pending_wrong :
    (exRun [.new, .process 0 2 false true] 0).arr = (2, 2) ∧
    (exRun [.new, .process 0 1 true false, .clear 0, .process 0 2 false true] 0).arr = (2, 3) := by
  decide

end Copies
end TreeCorr
