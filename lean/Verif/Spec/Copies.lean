import Verif.Model.Copies

/-!
# Objects that hold what belongs to them

Here an object is a value: an operation changes the object it is called on and no other, and a copy is another object
with the same value.
-/

namespace TreeCorr
namespace Copies

variable {K A C D V : Type} [DecidableEq K]

/-- What an object holds: its arrays, patch results, catalogues not yet finalized, covariance. -/
@[ext] structure Data (K A C D : Type) where
  arr : A
  res : K → Option A
  cats : List C
  cov : Option D

/-- What object `i` holds in memory. -/
def Heap.read (h : Heap K A C D) (i : ℕ) : Data K A C D :=
  ⟨h.arrs (h.objs i).arr, h.ress (h.objs i).res, h.lists (h.objs i).cats, (h.objs i).cov⟩

/-- The empty object. -/
def empty (L : Lib K A C D V) : Data K A C D := ⟨L.zero, fun _ => none, [], none⟩

/-- `process`: start anew if `initialize`; add the catalogue, or its patch pairs; with `finalize` use the variance of all catalogues
added since the object was empty or finalized. -/
def process (L : Lib K A C D V) (v : Data K A C D) (c : C) (init fin : Bool) : Data K A C D :=
  let v := if init then empty L else v
  let v := match L.patches c with
    | none => { v with arr := L.add v.arr (L.auto c) }
    | some l => { v with arr := l.foldl (fun a (p : K × A) => L.add a p.2) v.arr, res := l.foldl (bump L) v.res }
  let v := { v with cats := v.cats ++ [c] }
  if fin then { v with arr := L.fin (L.var v.cats) v.arr, cats := [] } else v

/-- The covariance, if it was not calculated before. -/
def askCov (L : Lib K A C D V) (v : Data K A C D) : Data K A C D :=
  match v.cov with
  | some _ => v
  | none => { v with cov := some (L.est v.arr v.res) }

/-- `calculateXi(rr=w)`: the patch pairs of `w` that `v` does not have are filled in. -/
def withXi (L : Lib K A C D V) [∀ r : K → Option A, Decidable (∃ k, r k ≠ none)] (v w : Data K A C D) :
    Data K A C D :=
  let r := if ∃ k, v.res k ≠ none then fill L v.res w.res else v.res
  { v with res := r, cov := some (L.estXi v.arr r w.arr w.res) }

/-- The objects of a program: `n` of them. -/
structure World (K A C D : Type) where
  n : ℕ
  vals : ℕ → Data K A C D

/-- One step: only the object that is operated on, or made, changes. -/
def World.step (L : Lib K A C D V) [∀ r : K → Option A, Decidable (∃ k, r k ≠ none)] (w : World K A C D) :
    Op C → World K A C D
  | .new => ⟨w.n + 1, Function.update w.vals w.n (empty L)⟩
  | .copy i => ⟨w.n + 1, Function.update w.vals w.n (w.vals i)⟩
  | .clear i => ⟨w.n, Function.update w.vals i (empty L)⟩
  | .process i c init fin => ⟨w.n, Function.update w.vals i (process L (w.vals i) c init fin)⟩
  | .add i j => ⟨w.n, Function.update w.vals i { w.vals i with arr := L.add (w.vals i).arr (w.vals j).arr }⟩
  | .cov i => ⟨w.n, Function.update w.vals i (askCov L (w.vals i))⟩
  | .calculateXi i j => ⟨w.n, Function.update w.vals i (withXi L (w.vals i) (w.vals j))⟩

/-- Which objects were never copied and are no copies (`lone`), and which of them were not copied, nor made by copying, since they were last
cleared or initialized (`own`). -/
structure Marks where
  lone : ℕ → Bool
  own : ℕ → Bool

/-- How these change; `n` is the number of objects before the step. -/
def Marks.step (m : Marks) (n : ℕ) : Op C → Marks
  | .new => ⟨Function.update m.lone n true, Function.update m.own n true⟩
  | .copy i => ⟨Function.update (Function.update m.lone i false) n false,
      Function.update (Function.update m.own i false) n false⟩
  | .clear i => ⟨m.lone, Function.update m.own i true⟩
  | .process i _ init _ => ⟨m.lone, if init then Function.update m.own i true else m.own⟩
  | _ => m

/-- Objects are copied and cleared when no catalogue waits to be finalized; on copies and objects that were copied every `process` finalizes; and nothing is
added to the patch results of an object that shares them, that is, no patches are processed without
`initialize`, and `calculateXi` finds no patch pair missing. -/
def Safe (L : Lib K A C D V) (w : World K A C D) (m : Marks) : Op C → Prop
  | .new => True
  | .copy i => i < w.n ∧ (w.vals i).cats = []
  | .clear i => i < w.n ∧ (w.vals i).cats = []
  | .process i c init fin => i < w.n ∧ (m.lone i = true ∨ fin = true) ∧
      (init = true ∨ m.own i = true ∨ L.patches c = none)
  | .add i j => i < w.n ∧ j < w.n
  | .cov i => i < w.n
  | .calculateXi i j => i < w.n ∧ j < w.n ∧ (m.own i = true ∨
      (∀ k, (w.vals i).res k = none) ∨ ∀ k, (w.vals i).res k = none → (w.vals j).res k = none)

/-- The objects after a program, as values. -/
def World.run (L : Lib K A C D V) [∀ r : K → Option A, Decidable (∃ k, r k ≠ none)] :
    World K A C D → List (Op C) → World K A C D :=
  List.foldl (World.step L)

/-- The memory after a program. -/
def Heap.run (L : Lib K A C D V) [∀ r : K → Option A, Decidable (∃ k, r k ≠ none)] :
    Heap K A C D → List (Op C) → Heap K A C D :=
  List.foldl (Copies.step L)

/-- Every step of the program is safe. -/
def SafeRun (L : Lib K A C D V) [∀ r : K → Option A, Decidable (∃ k, r k ≠ none)] :
    World K A C D → Marks → List (Op C) → Prop
  | _, _, [] => True
  | w, m, o :: os => Safe L w m o ∧ SafeRun L (w.step L o) (m.step w.n o) os

/-- At the start: no objects. -/
def World.start (L : Lib K A C D V) : World K A C D := ⟨0, fun _ => empty L⟩
def Heap.start (L : Lib K A C D V) : Heap K A C D :=
  ⟨fun _ => L.zero, fun _ _ => none, fun _ => [], 0, 0, fun _ => ⟨0, 0, 0, none⟩⟩
def Marks.start : Marks := ⟨fun _ => true, fun _ => true⟩

/-- The operation changes object `i`, or makes it. -/
def changes (n : ℕ) : Op C → ℕ → Prop
  | .new, i => i = n
  | .copy _, i => i = n
  | .clear j, i => i = j
  | .process j _ _ _, i => i = j
  | .add j _, i => i = j
  | .cov j, i => i = j
  | .calculateXi j _, i => i = j

/-- Which objects there are. -/
def made (n : ℕ) : Op C → ℕ
  | .new => n + 1
  | .copy _ => n + 1
  | _ => n

/-- No operation of the program is called on object `i`, which is there. -/
def Leaves (i : ℕ) : ℕ → List (Op C) → Prop
  | _, [] => True
  | n, o :: os => ¬ changes n o i ∧ Leaves i (made n o) os

/-- A program in which every `process` starts anew and finalizes, and `calculateXi` is not called. -/
def Plain : ℕ → List (Op C) → Prop
  | _, [] => True
  | n, o :: os => (match o with
      | .new => True
      | .copy i => i < n
      | .clear i => i < n
      | .process i _ init fin => i < n ∧ init = true ∧ fin = true
      | .add i j => i < n ∧ j < n
      | .cov i => i < n
      | .calculateXi _ _ => False) ∧ Plain (made n o) os

end Copies
end TreeCorr
