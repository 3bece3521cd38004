import Mathlib.Data.Nat.Notation
import Mathlib.Logic.Function.Basic

/-!
# Objects that share what they hold

A two-point correlation object holds references: its data arrays, the dict `results`, the list
`_processed_cats1`.  `copy` copies the arrays; the dict and the list are shared by both objects.

Simplifications: all data arrays of an object are one cell of memory, with the numbers that are
copied with them (`tot`, `_var_num`); the results of patch pairs in a dict are values, since no two dicts hold the
same result; `_processed_cats2` is like `_processed_cats1` and left out; MPI is left out.
-/

namespace TreeCorr
namespace Copies

variable {K A C D V : Type} [DecidableEq K]

/-- The calculations, as functions of what they are given: empty arrays, the sum of two sets of arrays,
what a catalogue adds (and what each of its patch pairs adds, if it has patches), the variance of a list
of catalogues, `finalize`, and the covariance. -/
structure Lib (K A C D V : Type) where
  zero : A
  add : A → A → A
  auto : C → A
  patches : C → Option (List (K × A))
  var : List C → V
  fin : V → A → A
  est : A → (K → Option A) → D
  estXi : A → (K → Option A) → A → (K → Option A) → D

/-- The attributes of an object: references to the arrays, the dict `results` and the list
`_processed_cats1`; and `_cov`, an array that `copy` copies (corr2base.py:507-519). -/
structure Obj (D : Type) where
  arr : ℕ
  res : ℕ
  cats : ℕ
  cov : Option D

/-- Memory.  `n` objects have been made; references below `next` are in use. -/
structure Heap (K A C D : Type) where
  arrs : ℕ → A
  ress : ℕ → K → Option A
  lists : ℕ → List C
  next : ℕ
  n : ℕ
  objs : ℕ → Obj D

/-- What a program does: make an object, copy one, clear it, process a catalogue, `i += j`, ask for
the covariance, and `calculateXi(rr=j)` of NN. -/
inductive Op (C : Type) where
  | new
  | copy (i : ℕ)
  | clear (i : ℕ)
  | process (i : ℕ) (c : C) (init fin : Bool)
  | add (i j : ℕ)
  | cov (i : ℕ)
  | calculateXi (i j : ℕ)

/-- corr2base.py:507-519: a new object has arrays, a dict and a list of its own. -/
def newH (L : Lib K A C D V) (h : Heap K A C D) : Heap K A C D :=
  { arrs := Function.update h.arrs h.next L.zero
    ress := Function.update h.ress h.next fun _ => none
    lists := Function.update h.lists h.next []
    next := h.next + 1, n := h.n + 1
    objs := Function.update h.objs h.n ⟨h.next, h.next, h.next, none⟩ }

/-- corr2base.py:669-685 `copy`: arrays are copied, everything else is the same object.
(corr3base.py:1061-1074 is the same.) -/
def copyH (h : Heap K A C D) (i : ℕ) : Heap K A C D :=
  { h with
    arrs := Function.update h.arrs h.next (h.arrs (h.objs i).arr)
    next := h.next + 1, n := h.n + 1
    objs := Function.update h.objs h.n { h.objs i with arr := h.next } }

/-- corr2base.py:706-712 `clear`, 1189-1200 `_clear`: zeros are written into the arrays, and `results` is a new dict. -/
def clearH (L : Lib K A C D V) (h : Heap K A C D) (i : ℕ) : Heap K A C D :=
  { h with
    arrs := Function.update h.arrs (h.objs i).arr L.zero
    ress := Function.update h.ress h.next fun _ => none
    next := h.next + 1
    objs := Function.update h.objs i { h.objs i with res := h.next, cov := none } }

/-- `self._processed_cats1.clear()`, corr2base.py:1116, 1164. -/
def clearList (h : Heap K A C D) (i : ℕ) : Heap K A C D :=
  { h with lists := Function.update h.lists (h.objs i).cats [] }

/-- `results[ij] += temp`, or `= temp.copy()` if there is none, corr2base.py:793-796, 881-884. -/
def bump (L : Lib K A C D V) (r : K → Option A) (p : K × A) : K → Option A :=
  Function.update r p.1 (some (match r p.1 with | none => p.2 | some b => L.add b p.2))

/-- corr2base.py:802-898 `_process_all_auto`: what the catalogue, or each patch pair, adds. -/
def addData (L : Lib K A C D V) (h : Heap K A C D) (i : ℕ) (c : C) : Heap K A C D :=
  let o := h.objs i
  match L.patches c with
  | none => { h with arrs := Function.update h.arrs o.arr (L.add (h.arrs o.arr) (L.auto c)) }
  | some l =>
    { h with
      arrs := Function.update h.arrs o.arr (l.foldl (fun a p => L.add a p.2) (h.arrs o.arr))
      ress := Function.update h.ress o.res (l.foldl (bump L) (h.ress o.res)) }

/-- corr2base.py:1133 `_processed_cats1.extend`. -/
def extend (h : Heap K A C D) (i : ℕ) (c : C) : Heap K A C D :=
  { h with lists := Function.update h.lists (h.objs i).cats (h.lists (h.objs i).cats ++ [c]) }

/-- corr2base.py:1136-1163: the variance of the catalogues in the list goes into `finalize`. -/
def finish (L : Lib K A C D V) (h : Heap K A C D) (i : ℕ) : Heap K A C D :=
  { h with
    arrs := Function.update h.arrs (h.objs i).arr
      (L.fin (L.var (h.lists (h.objs i).cats)) (h.arrs (h.objs i).arr)) }

/-- corr2base.py:1079-1165 `process` of one catalogue. -/
def processH (L : Lib K A C D V) (h : Heap K A C D) (i : ℕ) (c : C) (init fin : Bool) : Heap K A C D :=
  let h := if init then clearList (clearH L h i) i else h
  let h := extend (addData L h i c) i c
  if fin then clearList (finish L h i) i else h

/-- corr2base.py:1202-1227 `__iadd__`. -/
def addH (L : Lib K A C D V) (h : Heap K A C D) (i j : ℕ) : Heap K A C D :=
  { h with
    arrs := Function.update h.arrs (h.objs i).arr
      (L.add (h.arrs (h.objs i).arr) (h.arrs (h.objs j).arr)) }

/-- corr2base.py:606-615 `cov`. -/
def covH (L : Lib K A C D V) (h : Heap K A C D) (i : ℕ) : Heap K A C D :=
  match (h.objs i).cov with
  | some _ => h
  | none =>
    { h with
      objs := Function.update h.objs i
        { h.objs i with cov := some (L.est (h.arrs (h.objs i).arr) (h.ress (h.objs i).res)) } }

/-- `results[ij] = _zero_copy(0)` for the keys of `e` that are missing, nncorrelation.py:401-433 (when
`results` is not empty). -/
def fill (L : Lib K A C D V) (r e : K → Option A) : K → Option A := fun k =>
  match r k, e k with
  | none, some _ => some L.zero
  | x, _ => x

/-- nncorrelation.py:396-438, the end of `calculateXi(rr=j)`: `results` is filled in place, and the
covariance is calculated (if both objects share the dict, nothing is missing). `xi` and `varxi` follow from the arrays and the covariance. -/
def calculateXiH (L : Lib K A C D V) [∀ r : K → Option A, Decidable (∃ k, r k ≠ none)]
    (h : Heap K A C D) (i j : ℕ) : Heap K A C D :=
  let o := h.objs i
  let r := if ∃ k, h.ress o.res k ≠ none then fill L (h.ress o.res) (h.ress (h.objs j).res)
    else h.ress o.res
  { h with
    ress := Function.update h.ress o.res r
    objs := Function.update h.objs i
      { o with cov := some (L.estXi (h.arrs o.arr) r (h.arrs (h.objs j).arr) (h.ress (h.objs j).res)) } }

/-- One step. -/
def step (L : Lib K A C D V) [∀ r : K → Option A, Decidable (∃ k, r k ≠ none)]
    (h : Heap K A C D) : Op C → Heap K A C D
  | .new => newH L h
  | .copy i => copyH h i
  | .clear i => clearH L h i
  | .process i c init fin => processH L h i c init fin
  | .add i j => addH L h i j
  | .cov i => covH L h i
  | .calculateXi i j => calculateXiH L h i j

end Copies
end TreeCorr
