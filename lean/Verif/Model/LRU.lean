import Mathlib.Data.List.Basic
import Mathlib.Logic.Function.Iterate

/-!
Model of `LRU_Cache`, `/repo/treecorr/util.py:164-289`: a circular doubly linked list of links and a
dictionary from keys to links.  Links live in a heap indexed by natural numbers.  `none` as the outcome of an
operation means a Python exception (`None` subscripted, or a missing dictionary key).
-/

namespace TreeCorr
namespace LRU
variable {K V : Type} [DecidableEq K]

/-- A key of the dictionary: an argument tuple, or one of the `object()` placeholders. -/
inductive Slot (K : Type) where
  | user (k : K)
  | dummy (n : ℕ)
deriving DecidableEq

/-- A link `[PREV, NEXT, KEY, RESULT]`, util.py:196. -/
structure Link (K V : Type) where
  prev : Option ℕ
  next : Option ℕ
  key : Option (Slot K)
  result : Option V

/-- The cache object.  `cache` is the dictionary as the list of its items, `fresh` the next unused address. -/
structure State (K V : Type) where
  heap : ℕ → Link K V
  root : ℕ
  cache : List (Slot K × ℕ)
  fresh : ℕ
  count : ℕ

/-- `heap[i][1] = x` -/
def setNext (h : ℕ → Link K V) (i : ℕ) (x : Option ℕ) : ℕ → Link K V :=
  Function.update h i { h i with next := x }
/-- `heap[i][0] = x` -/
def setPrev (h : ℕ → Link K V) (i : ℕ) (x : Option ℕ) : ℕ → Link K V :=
  Function.update h i { h i with prev := x }
/-- `heap[i][2] = k; heap[i][3] = r` -/
def setKR (h : ℕ → Link K V) (i : ℕ) (k : Option (Slot K)) (r : Option V) : ℕ → Link K V :=
  Function.update h i { h i with key := k, result := r }
/-- `heap[i][3] = None` -/
def clearResult (h : ℕ → Link K V) (i : ℕ) : ℕ → Link K V :=
  Function.update h i { h i with result := none }

/-- `cache[k] = i` -/
def cset (c : List (Slot K × ℕ)) (k : Slot K) (i : ℕ) : List (Slot K × ℕ) :=
  if k ∈ c.map Prod.fst then c.map (fun x => if x.1 = k then (k, i) else x) else c ++ [(k, i)]

/-- `del cache[k]` -/
def cdel (c : List (Slot K × ℕ)) (k : Slot K) : Option (List (Slot K × ℕ)) :=
  if k ∈ c.map Prod.fst then some (c.filter (fun x => x.1 ≠ k)) else none

/-- One round of the loops of `__init__` and `clear`, util.py:202-204 and 280-283:
`self.cache[key] = last[1] = last = [last, self.root, key, None]`, with `last[3] = None` before it in `clear`. -/
def fillStep (wipe : Bool) (x : State K V × ℕ) : State K V × ℕ :=
  let s := x.1
  let last := x.2
  let h := if wipe then clearResult s.heap last else s.heap
  let i := s.fresh
  let h := Function.update h i ⟨some last, some s.root, some (.dummy i), none⟩
  let h := setNext h last (some i)
  ({ s with heap := h, cache := cset s.cache (.dummy i) i, fresh := i + 1 }, i)

/-- `__init__`, util.py:195-206. -/
def create (maxsize : ℕ) : State K V :=
  let s : State K V := { heap := fun _ => ⟨none, none, none, none⟩, root := 0, cache := [], fresh := 1, count := 0 }
  let x := (fillStep false)^[maxsize] (s, 0)
  { x.1 with heap := setPrev x.1.heap x.1.root (some x.2), count := 0 }

/-- `clear`, util.py:274-285. -/
def clear (s : State K V) : State K V :=
  let x := (fillStep true)^[s.cache.length] ({ s with cache := [] }, s.root)
  { x.1 with heap := setPrev x.1.heap x.1.root (some x.2), count := 0 }

/-- A cache hit, util.py:210-219: the link moves to the last position. -/
def touch (s : State K V) (i : ℕ) : Option (State K V × V) := do
  let lp ← (s.heap i).prev
  let ln ← (s.heap i).next
  let r ← (s.heap i).result
  let h := setNext s.heap lp (some ln)
  let h := setPrev h ln (some lp)
  let last ← (h s.root).prev
  let h := setNext h last (some i)
  let h := setPrev h s.root (some i)
  let h := setPrev h i (some last)
  let h := setNext h i (some s.root)
  pure ({ s with heap := h }, r)

/-- A cache miss, util.py:220-233, with the value `r` of the user function. -/
def insert (s : State K V) (k : K) (r : V) : Option (State K V) := do
  let h := setKR s.heap s.root (some (.user k)) (some r)
  let root ← (h s.root).next
  let oldkey ← (h root).key
  let h := setKR h root none none
  let c := cset s.cache (.user k) s.root
  let c ← cdel c oldkey
  pure { s with heap := h, root := root, cache := c,
                count := if s.count < c.length then s.count + 1 else s.count }

/-- `__call__`, util.py:208-233: the new state, the returned value, and whether the user function `f` was
evaluated. -/
def call (f : K → V) (s : State K V) (k : K) : Option (State K V × V × Bool) :=
  match s.cache.lookup (.user k) with
  | some i => (touch s i).bind fun x => some (x.1, x.2, false)
  | none => (insert s k (f k)).bind fun s => some (s, f k, true)

/-- One round of the shrinking loop of `resize`, util.py:259-264. -/
def shrinkStep (s : State K V) : Option (State K V) := do
  let cur ← (s.heap s.root).next
  let new ← (s.heap cur).next
  let h := setNext s.heap s.root (some new)
  let h := setPrev h new (some s.root)
  let key ← (s.heap cur).key
  let c ← cdel s.cache key
  pure { s with heap := h, cache := c }

/-- One round of the growing loop of `resize`, util.py:267-272. -/
def growStep (s : State K V) : Option (State K V) := do
  let i := s.fresh
  let nx ← (s.heap s.root).next
  let h := Function.update s.heap i ⟨some s.root, some nx, some (.dummy i), none⟩
  let h := setPrev h nx (some i)
  let h := setNext h s.root (some i)
  pure { s with heap := h, cache := cset s.cache (.dummy i) i, fresh := i + 1 }

/-- `n` rounds of a loop. -/
def loop (step : State K V → Option (State K V)) : ℕ → State K V → Option (State K V)
  | 0, s => some s
  | n + 1, s => (step s).bind (loop step n)

/-- `resize`, util.py:244-272, for `maxsize ≥ 0`. -/
def resize (s : State K V) (maxsize : ℕ) : Option (State K V) :=
  if maxsize = s.cache.length then some s
  else if maxsize < s.cache.length then
    (loop shrinkStep (s.cache.length - maxsize) s).bind fun s =>
      some { s with count := min s.count maxsize }
  else loop growStep (maxsize - s.cache.length) s

/-- `values`, util.py:235-237.  A value of the user function is taken never to be Python's `None`. -/
def values (s : State K V) : List V := s.cache.filterMap fun x => (s.heap x.2).result

/-- `last_value`, util.py:239-242. -/
def lastValue (s : State K V) : Option V := ((s.heap s.root).prev).bind fun i => (s.heap i).result

end LRU
end TreeCorr
