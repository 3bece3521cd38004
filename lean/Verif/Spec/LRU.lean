import Mathlib.Data.List.Dedup

/-!
What a least-recently-used cache is: a capacity and the keys it remembers, most recently used first.
-/

namespace TreeCorr
namespace LRU

/-- The keys remembered, most recently used first, and how many may be. -/
structure Memory (K : Type) where
  cap : ℕ
  recent : List K

/-- What can be done with a cache. -/
inductive Op (K : Type) where
  | call (k : K)
  | resize (n : ℕ)
  | clear

variable {K V : Type} [DecidableEq K]

/-- Using a key makes it the most recent one; what exceeds the capacity is forgotten. -/
def Memory.step (m : Memory K) : Op K → Memory K
  | .call k => ⟨m.cap, (k :: m.recent.erase k).take m.cap⟩
  | .resize n => ⟨n, m.recent.take n⟩
  | .clear => ⟨m.cap, []⟩

/-- What a user sees of an operation: a call returns the value of the function and evaluates it (`true`) iff the key is
not remembered. -/
def Memory.out (f : K → V) (m : Memory K) : Op K → Option (V × Bool)
  | .call k => some (f k, decide (k ∉ m.recent))
  | .resize _ => none
  | .clear => none

/-- The results of a history of operations. -/
def Memory.outs (f : K → V) : Memory K → List (Op K) → List (Option (V × Bool))
  | _, [] => []
  | m, o :: os => m.out f o :: Memory.outs f (m.step o) os

/-- The memory after a history of operations. -/
def Memory.run (m : Memory K) (os : List (Op K)) : Memory K := os.foldl Memory.step m

/-- The distinct keys of a history of calls, the most recently used first. -/
def distinctRecent (ks : List K) : List K := ks.dedup.reverse

end LRU
end TreeCorr
