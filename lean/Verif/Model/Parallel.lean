import Verif.Model.Corr2

/-!
Model of the OpenMP loops of the two-point code, `/repo/src/Corr2.cpp:157-199, 236-276`.

`schedule(dynamic)` gives every index of the outer loop to exactly one thread, in an order that is not
determined; each thread fills its own cleared copy (`duplicate()`), and the copies are added to the
object one after the other (`omp critical`), in an order that is not determined.
-/

namespace TreeCorr
open Classical
noncomputable section
variable {P : Type}

/-- What the threads did: for each thread, in the order in which they entered the final critical section, the
indices it got, in the order in which it got them. -/
abbrev Schedule := List (List ℕ)

/-- A schedule of a loop over `0..n-1`: every index is given out exactly once. -/
def Schedule.Of (s : Schedule) (n : ℕ) : Prop := s.flatten.Perm (List.range n)

/-- One thread: the `finishProcess` calls of its rows into a cleared copy. `row i` is the body of the loop for
index `i`. -/
def threadAcc (row : ℕ → Option (List (Emit P))) (is : List ℕ) : Option Acc := do
  let ess ← is.mapM row
  pure (accumulate Acc.zero ess.flatten)

/-- The parallel loop, starting from the contents `A` of the object. -/
def parallelLoop (row : ℕ → Option (List (Emit P))) (s : Schedule) (A : Acc) : Option Acc := do
  let accs ← s.mapM (threadAcc row)
  pure (accs.foldl Acc.add A)

/-- The row of the auto-correlation loop for top-level cell `i`, /repo/src/Corr2.cpp:185-190. -/
def autoRow (act : Cell P → Cell P → Action P) (prm : Params) (cells : List (Cell P)) (i : ℕ) :
    Option (List (Emit P)) :=
  match cells.drop i with
  | [] => none
  | c :: later => processAutoRow act prm c later

/-- The row of the cross-correlation loop for top-level cell `i`, /repo/src/Corr2.cpp:262-266. -/
def crossRow (act : Cell P → Cell P → Action P) (cells1 cells2 : List (Cell P)) (i : ℕ) :
    Option (List (Emit P)) :=
  match cells1[i]? with
  | none => none
  | some c => processCrossRow act c cells2

/-- The auto `process` with any number of threads, /repo/src/Corr2.cpp:146-200. -/
def processAutoPar (act : Cell P → Cell P → Action P) (prm : Params) (cells : List (Cell P))
    (s : Schedule) (A : Acc) : Option Acc :=
  parallelLoop (autoRow act prm cells) s A

/-- The cross `process` with any number of threads, /repo/src/Corr2.cpp:202-277. -/
def processCrossPar (B : BinHelper P) (M : MetricHelper P) (prm : Params)
    (f1 f2 : Field P) (s : Schedule) (A : Acc) : Option Acc :=
  if fieldsTooFar B M prm f1 f2 then some A
  else parallelLoop (crossRow (decide11 B M prm false) f1.cells f2.cells) s A

end
end TreeCorr
