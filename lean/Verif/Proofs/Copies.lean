import Verif.Spec.Copies
import Mathlib.Tactic.Common

/-!
# Lemmas for C87: memory agrees with values as long as nothing is changed that is shared
-/

namespace TreeCorr
namespace Copies

variable {K A C D V : Type} [DecidableEq K]

/-- Memory, values, and what is shared. -/
structure Rel (h : Heap K A C D) (w : World K A C D) (m : Marks) : Prop where
  n : h.n = w.n
  lt : ∀ i < w.n, (h.objs i).arr < h.next ∧ (h.objs i).res < h.next ∧ (h.objs i).cats < h.next
  read : ∀ i < w.n, h.read i = w.vals i
  arr : ∀ i < w.n, ∀ j < w.n, j ≠ i → (h.objs j).arr ≠ (h.objs i).arr
  own : ∀ i < w.n, m.own i = true → ∀ j < w.n, j ≠ i → (h.objs j).res ≠ (h.objs i).res
  lone : ∀ i < w.n, m.lone i = true → ∀ j < w.n, j ≠ i → (h.objs j).cats ≠ (h.objs i).cats
  cats : ∀ i < w.n, m.lone i = false → (w.vals i).cats = []

theorem Rel.arr_eq {h : Heap K A C D} {w : World K A C D} {m : Marks} (R : Rel h w m) {i : ℕ} (hi : i < w.n) :
    h.arrs (h.objs i).arr = (w.vals i).arr := by rw [← R.read i hi]; rfl
theorem Rel.res_eq {h : Heap K A C D} {w : World K A C D} {m : Marks} (R : Rel h w m) {i : ℕ} (hi : i < w.n) :
    h.ress (h.objs i).res = (w.vals i).res := by rw [← R.read i hi]; rfl
theorem Rel.cats_eq {h : Heap K A C D} {w : World K A C D} {m : Marks} (R : Rel h w m) {i : ℕ} (hi : i < w.n) :
    h.lists (h.objs i).cats = (w.vals i).cats := by rw [← R.read i hi]; rfl
theorem Rel.cov_eq {h : Heap K A C D} {w : World K A C D} {m : Marks} (R : Rel h w m) {i : ℕ} (hi : i < w.n) :
    (h.objs i).cov = (w.vals i).cov := by rw [← R.read i hi]; rfl

/-- A step that changes object `i` only: its arrays, its dict (perhaps a new one), its list. -/
theorem Rel.change {h : Heap K A C D} {w : World K A C D} {m : Marks} (R : Rel h w m) {i : ℕ} (hi : i < w.n)
    (v : Data K A C D) (ref nx : ℕ) (own' : Bool)
    (hnx : ref < nx ∧ h.next ≤ nx)
    (href : ref = h.next ∨ (ref = (h.objs i).res ∧ (own' = true → m.own i = true) ∧
      (m.own i = true ∨ v.res = (w.vals i).res)))
    (hlist : m.lone i = true ∨ v.cats = []) :
    Rel { h with
          arrs := Function.update h.arrs (h.objs i).arr v.arr
          ress := Function.update h.ress ref v.res
          lists := Function.update h.lists (h.objs i).cats v.cats
          next := nx
          objs := Function.update h.objs i ⟨(h.objs i).arr, ref, (h.objs i).cats, v.cov⟩ }
        ⟨w.n, Function.update w.vals i v⟩ ⟨m.lone, Function.update m.own i own'⟩ where
  n := R.n
  lt := by
    intro j hj
    obtain ⟨a, b, c⟩ := R.lt j hj
    obtain ⟨a', b', c'⟩ := R.lt i hi
    by_cases hji : j = i
    · subst hji
      simp only [Function.update_self]
      omega
    · simp only [Function.update_of_ne hji]
      omega
  read := by
    intro j hj
    by_cases hji : j = i
    · subst hji
      simp [Heap.read, Function.update_self]
    · simp only [Heap.read, Function.update_of_ne hji]
      rw [Function.update_of_ne (R.arr i hi j hj hji)]
      have h1 : Function.update h.ress ref v.res (h.objs j).res = h.ress (h.objs j).res := by
        by_cases he : (h.objs j).res = ref
        · rcases href with rfl | ⟨rfl, -, hr⟩
          · exact absurd he (by have := (R.lt j hj).2.1; omega)
          · rcases hr with hr | hr
            · exact absurd he (R.own i hi hr j hj hji)
            · rw [he, Function.update_self, hr, R.res_eq hi]
        · rw [Function.update_of_ne he]
      have h2 : Function.update h.lists (h.objs i).cats v.cats (h.objs j).cats = h.lists (h.objs j).cats := by
        by_cases he : (h.objs j).cats = (h.objs i).cats
        · rcases hlist with hl | hl
          · exact absurd he (R.lone i hi hl j hj hji)
          · have hlj : m.lone j = false := by
              by_contra hc
              exact R.lone j hj (by simpa using hc) i hi (fun e => hji e.symm) he.symm
            rw [he, Function.update_self, hl, ← he, R.cats_eq hj, R.cats j hj hlj]
        · rw [Function.update_of_ne he]
      rw [h1, h2, ← R.read j hj]
      rfl
  arr := by
    intro a ha b hb hab
    have := R.arr a ha b hb hab
    by_cases h1 : a = i <;> by_cases h2 : b = i <;> simp_all [Function.update_apply]
  own := by
    intro a ha ho b hb hab
    by_cases h1 : a = i
    · subst h1
      simp only [Function.update_self, Function.update_of_ne hab] at ho ⊢
      rcases href with rfl | ⟨rfl, h3, -⟩
      · have := (R.lt b hb).2.1; omega
      · exact R.own a ha (h3 ho) b hb hab
    · simp only [Function.update_of_ne h1] at ho ⊢
      by_cases h2 : b = i
      · subst h2
        simp only [Function.update_self]
        rcases href with rfl | ⟨rfl, -, -⟩
        · have := (R.lt a ha).2.1; omega
        · exact R.own a ha ho b hb hab
      · simp only [Function.update_of_ne h2]
        exact R.own a ha ho b hb hab
  lone := by
    intro a ha ho b hb hab
    have := R.lone a ha ho b hb hab
    by_cases h1 : a = i <;> by_cases h2 : b = i <;> simp_all [Function.update_apply]
  cats := by
    intro a ha ho
    by_cases h1 : a = i
    · subst h1
      simp only [Function.update_self]
      rcases hlist with h | h
      · exact absurd (h.symm.trans ho) (by simp)
      · exact h
    · simp only [Function.update_of_ne h1]
      exact R.cats a ha ho

/-- Memory after object `i` was changed in place. -/
def changed (h : Heap K A C D) (i : ℕ) (v : Data K A C D) : Heap K A C D :=
  { h with
    arrs := Function.update h.arrs (h.objs i).arr v.arr
    ress := Function.update h.ress (h.objs i).res v.res
    lists := Function.update h.lists (h.objs i).cats v.cats
    objs := Function.update h.objs i ⟨(h.objs i).arr, (h.objs i).res, (h.objs i).cats, v.cov⟩ }

theorem Rel.changed {h : Heap K A C D} {w : World K A C D} {m : Marks} (R : Rel h w m) {i : ℕ} (hi : i < w.n)
    (v : Data K A C D) (hr : m.own i = true ∨ v.res = (w.vals i).res) (hl : m.lone i = true ∨ v.cats = (w.vals i).cats) :
    Rel (changed h i v) ⟨w.n, Function.update w.vals i v⟩ m := by
  have := R.change hi v (h.objs i).res h.next (m.own i) ⟨(R.lt i hi).2.1, Nat.le_refl _⟩ (Or.inr ⟨rfl, id, hr⟩) (by
    rcases hl with hl | hl
    · exact Or.inl hl
    · by_cases hm : m.lone i = true
      · exact Or.inl hm
      · right; rw [hl]; exact R.cats i hi (by simpa using hm))
  rw [Function.update_eq_self] at this
  exact this

variable (L : Lib K A C D V)

theorem rel_new {h : Heap K A C D} {w : World K A C D} {m : Marks} (R : Rel h w m) :
    Rel (newH L h) ⟨w.n + 1, Function.update w.vals w.n (empty L)⟩
      ⟨Function.update m.lone w.n true, Function.update m.own w.n true⟩ := by
  have hne : ∀ j < w.n + 1, j ≠ w.n → j < w.n := fun j h1 h2 => by omega
  constructor
  · simp [newH, R.n]
  · intro j hj
    by_cases e : j = w.n
    · subst e; simp [newH, R.n]
    · have := R.lt j (hne j hj e)
      simp only [newH, R.n, Function.update_of_ne e]
      omega
  · intro j hj
    by_cases e : j = w.n
    · subst e; simp [newH, R.n, Heap.read, empty]
    · have := R.lt j (hne j hj e)
      simp only [newH, R.n, Heap.read, Function.update_of_ne e]
      rw [Function.update_of_ne (by omega), Function.update_of_ne (by omega), Function.update_of_ne (by omega),
        ← R.read j (hne j hj e)]
      rfl
  · intro a ha b hb hab
    simp only [newH, R.n]
    by_cases h1 : a = w.n
    · subst h1
      have := R.lt b (hne b hb hab)
      simp only [Function.update_of_ne hab, Function.update_self]; omega
    · have ha' := R.lt a (hne a ha h1)
      by_cases h2 : b = w.n
      · subst h2; simp only [Function.update_of_ne h1, Function.update_self]; omega
      · simp only [Function.update_of_ne h1, Function.update_of_ne h2]
        exact R.arr a (hne a ha h1) b (hne b hb h2) hab
  · intro a ha ho b hb hab
    simp only [newH, R.n]
    by_cases h1 : a = w.n
    · subst h1
      have := R.lt b (hne b hb hab)
      simp only [Function.update_of_ne hab, Function.update_self]; omega
    · have ha' := R.lt a (hne a ha h1)
      simp only [Function.update_of_ne h1] at ho
      by_cases h2 : b = w.n
      · subst h2; simp only [Function.update_of_ne h1, Function.update_self]; omega
      · simp only [Function.update_of_ne h1, Function.update_of_ne h2]
        exact R.own a (hne a ha h1) ho b (hne b hb h2) hab
  · intro a ha ho b hb hab
    simp only [newH, R.n]
    by_cases h1 : a = w.n
    · subst h1
      have := R.lt b (hne b hb hab)
      simp only [Function.update_of_ne hab, Function.update_self]; omega
    · have ha' := R.lt a (hne a ha h1)
      simp only [Function.update_of_ne h1] at ho
      by_cases h2 : b = w.n
      · subst h2; simp only [Function.update_of_ne h1, Function.update_self]; omega
      · simp only [Function.update_of_ne h1, Function.update_of_ne h2]
        exact R.lone a (hne a ha h1) ho b (hne b hb h2) hab
  · intro a ha ho
    by_cases h1 : a = w.n
    · subst h1; simp [empty]
    · simp only [Function.update_of_ne h1] at ho ⊢
      exact R.cats a (hne a ha h1) ho

theorem rel_copy {h : Heap K A C D} {w : World K A C D} {m : Marks} (R : Rel h w m) {i : ℕ} (hi : i < w.n)
    (hc : (w.vals i).cats = []) :
    Rel (copyH h i) ⟨w.n + 1, Function.update w.vals w.n (w.vals i)⟩
      ⟨Function.update (Function.update m.lone i false) w.n false,
        Function.update (Function.update m.own i false) w.n false⟩ := by
  have hne : ∀ j < w.n + 1, j ≠ w.n → j < w.n := fun j h1 h2 => by omega
  have hin : i ≠ w.n := by omega
  have hil := R.lt i hi
  have key : ∀ (f : ℕ → Bool) (g : Obj D → ℕ), (∀ i < w.n, f i = true → ∀ j < w.n, j ≠ i → g (h.objs j) ≠ g (h.objs i)) →
      g { h.objs i with arr := h.next } = g (h.objs i) →
      ∀ a < w.n + 1, Function.update (Function.update f i false) w.n false a = true → ∀ b < w.n + 1, b ≠ a →
        g ((copyH h i).objs b) ≠ g ((copyH h i).objs a) := by
    intro f g hf hg a ha ho b hb hab
    have h1 : a ≠ w.n := by
      rintro rfl
      simp at ho
    rw [Function.update_of_ne h1] at ho
    have h2 : a ≠ i := by
      rintro rfl
      simp at ho
    rw [Function.update_of_ne h2] at ho
    simp only [copyH, R.n, Function.update_of_ne h1]
    by_cases h3 : b = w.n
    · subst h3
      rw [Function.update_self, hg]
      exact hf a (hne a ha h1) ho i hi (Ne.symm h2)
    · rw [Function.update_of_ne h3]
      exact hf a (hne a ha h1) ho b (hne b hb h3) hab
  constructor
  · simp [copyH, R.n]
  · intro j hj
    by_cases e : j = w.n
    · subst e; simp only [copyH, R.n, Function.update_self]; omega
    · have := R.lt j (hne j hj e)
      simp only [copyH, R.n, Function.update_of_ne e]
      omega
  · intro j hj
    by_cases e : j = w.n
    · subst e
      simp only [copyH, R.n, Heap.read, Function.update_self]
      rw [← R.read i hi]; rfl
    · have := R.lt j (hne j hj e)
      simp only [copyH, R.n, Heap.read, Function.update_of_ne e]
      rw [Function.update_of_ne (by omega), ← R.read j (hne j hj e)]
      rfl
  · intro a ha b hb hab
    simp only [copyH, R.n]
    by_cases h1 : a = w.n
    · subst h1
      have := R.lt b (hne b hb hab)
      simp only [Function.update_of_ne hab, Function.update_self]; omega
    · have ha' := R.lt a (hne a ha h1)
      by_cases h2 : b = w.n
      · subst h2; simp only [Function.update_of_ne h1, Function.update_self]; omega
      · simp only [Function.update_of_ne h1, Function.update_of_ne h2]
        exact R.arr a (hne a ha h1) b (hne b hb h2) hab
  · exact key m.own Obj.res R.own rfl
  · exact key m.lone Obj.cats R.lone rfl
  · intro a ha ho
    by_cases h1 : a = w.n
    · subst h1; simpa using hc
    · simp only [Function.update_of_ne h1] at ho ⊢
      by_cases h2 : a = i
      · subst h2; exact hc
      · rw [Function.update_of_ne h2] at ho
        exact R.cats a (hne a ha h1) ho

theorem update_eq_self {ι β : Type} [DecidableEq ι] (f : ι → β) {i : ι} {b : β} (hb : f i = b) : Function.update f i b = f := by
  rw [← hb, Function.update_eq_self]

/-- `process`, all at once. -/
theorem processH_eq {h : Heap K A C D} {w : World K A C D} {m : Marks} (R : Rel h w m) {i : ℕ} (hi : i < w.n) (c : C) (init fin : Bool) :
    processH L h i c init fin =
      { h with
        arrs := Function.update h.arrs (h.objs i).arr (process L (w.vals i) c init fin).arr
        ress := Function.update h.ress (if init then h.next else (h.objs i).res) (process L (w.vals i) c init fin).res
        lists := Function.update h.lists (h.objs i).cats (process L (w.vals i) c init fin).cats
        next := if init then h.next + 1 else h.next
        objs := Function.update h.objs i ⟨(h.objs i).arr, if init then h.next else (h.objs i).res, (h.objs i).cats,
          (process L (w.vals i) c init fin).cov⟩ } := by
  have e1 := R.arr_eq hi
  have e2 := R.res_eq hi
  have e3 := R.cats_eq hi
  have e4 := R.cov_eq hi
  have e5 : (⟨(h.objs i).arr, (h.objs i).res, (h.objs i).cats, (w.vals i).cov⟩ : Obj D) = h.objs i := by rw [← e4]
  cases init <;> cases fin <;> cases hp : L.patches c <;>
    simp [processH, process, addData, extend, clearList, clearH, finish, empty, hp, e1, e2, e3, e5,
      Function.update_eq_self, update_eq_self]

variable [∀ r : K → Option A, Decidable (∃ k, r k ≠ none)]

theorem fill_same (r e : K → Option A) (h : ∀ k, r k = none → e k = none) : fill L r e = r := by
  funext k
  unfold fill
  cases hr : r k with
  | none => rw [h k hr]
  | some a => rfl

/-- One safe step. -/
theorem rel_step {h : Heap K A C D} {w : World K A C D} {m : Marks} (R : Rel h w m) {o : Op C} (hs : Safe L w m o) :
    Rel (step L h o) (w.step L o) (m.step w.n o) := by
  cases o with
  | new => exact rel_new L R
  | copy i => exact rel_copy R hs.1 hs.2
  | clear i =>
    obtain ⟨hi, hc⟩ := hs
    have := R.change hi (empty L) h.next (h.next + 1) true ⟨by omega, by omega⟩ (Or.inl rfl) (Or.inr rfl)
    have e : Function.update h.lists (h.objs i).cats (empty L).cats = h.lists :=
      update_eq_self _ (by rw [R.cats_eq hi, hc]; rfl)
    rw [e] at this
    exact this
  | process i c init fin =>
    obtain ⟨hi, hf, hp⟩ := hs
    have hcats : m.lone i = true ∨ (process L (w.vals i) c init fin).cats = [] := by
      rcases hf with h | rfl
      · exact Or.inl h
      · right; simp [process]
    simp only [step, processH_eq L R hi]
    cases init with
    | true =>
      exact R.change hi _ h.next (h.next + 1) true ⟨by omega, by omega⟩ (Or.inl rfl) hcats
    | false =>
      have := R.change hi (process L (w.vals i) c false fin) (h.objs i).res h.next (m.own i)
        ⟨(R.lt i hi).2.1, Nat.le_refl _⟩ (Or.inr ⟨rfl, id, ?_⟩) hcats
      · rw [Function.update_eq_self] at this
        exact this
      · rcases hp with hp | hp | hp
        · exact absurd hp (by simp)
        · exact Or.inl hp
        · right; cases fin <;> simp [process, hp]
  | add i j =>
    obtain ⟨hi, hj⟩ := hs
    have e : step L h (.add i j) = changed h i { w.vals i with arr := L.add (w.vals i).arr (w.vals j).arr } := by
      simp only [step, addH, changed, R.arr_eq hi, R.arr_eq hj, ← R.res_eq hi, ← R.cats_eq hi, ← R.cov_eq hi,
        Function.update_eq_self]
    rw [e]
    exact R.changed hi _ (Or.inr rfl) (Or.inr rfl)
  | cov i =>
    have hi : i < w.n := hs
    have e : step L h (.cov i) = changed h i (askCov L (w.vals i)) := by
      simp only [step, covH, changed, askCov]
      rw [R.cov_eq hi]
      cases hc : (w.vals i).cov with
      | none =>
        simp only [← R.arr_eq hi, ← R.res_eq hi, ← R.cats_eq hi, Function.update_eq_self]
      | some d =>
        rw [← R.cov_eq hi] at hc
        simp only [← R.arr_eq hi, ← R.res_eq hi, ← R.cats_eq hi, ← R.cov_eq hi, Function.update_eq_self]
    rw [e]
    refine R.changed hi _ (Or.inr ?_) (Or.inr ?_) <;>
    · unfold askCov
      cases (w.vals i).cov <;> rfl
  | calculateXi i j =>
    obtain ⟨hi, hj, hs⟩ := hs
    have e : step L h (.calculateXi i j) = changed h i (withXi L (w.vals i) (w.vals j)) := by
      simp only [step, calculateXiH, changed, withXi, R.arr_eq hi, R.arr_eq hj, R.res_eq hi, R.res_eq hj]
      simp only [← R.arr_eq hi, ← R.cats_eq hi, Function.update_eq_self]
    rw [e]
    refine R.changed hi _ ?_ (Or.inr rfl)
    rcases hs with hs | hs | hs
    · exact Or.inl hs
    · right
      simp only [withXi]
      rw [if_neg (by simpa using hs)]
    · right
      simp only [withXi]
      rw [fill_same L _ _ hs, ite_self]

theorem rel_run : ∀ (p : List (Op C)) {h : Heap K A C D} {w : World K A C D} {m : Marks}, Rel h w m → SafeRun L w m p →
    ∃ m', Rel (h.run L p) (w.run L p) m'
  | [], _, _, m, R, _ => ⟨m, R⟩
  | _ :: p, _, _, _, R, hs => rel_run p (rel_step L R hs.1) hs.2

theorem rel_start : Rel (Heap.start L) (World.start L) Marks.start := by
  constructor <;> simp [Heap.start, World.start]

theorem step_n (w : World K A C D) (o : Op C) : (w.step L o).n = made w.n o := by
  cases o <;> rfl

theorem step_vals (w : World K A C D) {o : Op C} {i : ℕ} (h : ¬ changes w.n o i) : (w.step L o).vals i = w.vals i := by
  cases o <;> exact Function.update_of_ne h _ _

theorem run_vals (i : ℕ) : ∀ (q : List (Op C)) (w : World K A C D), Leaves i w.n q → (w.run L q).vals i = w.vals i
  | [], _, _ => rfl
  | o :: q, w, h => by
    have := run_vals i q (w.step L o) (by rw [step_n]; exact h.2)
    rw [← step_vals L w h.1, ← this]
    rfl

theorem run_n (q : List (Op C)) (w : World K A C D) : w.n ≤ (w.run L q).n := by
  induction q generalizing w with
  | nil => exact Nat.le_refl _
  | cons o q ih =>
    refine Nat.le_trans ?_ (ih (w.step L o))
    rw [step_n]
    cases o <;> simp [made]

theorem safeRun_append : ∀ (p q : List (Op C)) (w : World K A C D) (m : Marks), SafeRun L w m (p ++ q) → SafeRun L w m p
  | [], _, _, _, _ => trivial
  | _ :: p, q, _, _, h => ⟨h.1, safeRun_append p q _ _ h.2⟩

theorem plain_safe : ∀ (p : List (Op C)) (w : World K A C D) (m : Marks), (∀ i, (w.vals i).cats = []) → Plain w.n p →
    SafeRun L w m p
  | [], _, _, _, _ => trivial
  | o :: p, w, m, hc, hp => by
    obtain ⟨h1, h2⟩ := hp
    have hc' : ∀ i, ((w.step L o).vals i).cats = [] := by
      intro i
      by_cases hch : changes w.n o i
      · cases o with
        | new => obtain rfl := hch; simp [World.step, empty]
        | copy j => obtain rfl := hch; simpa [World.step] using hc j
        | clear j => obtain rfl := hch; simp [World.step, empty]
        | process j c init fin =>
          obtain rfl := hch
          obtain ⟨-, rfl, rfl⟩ := h1
          simp [World.step, process]
        | add j k => obtain rfl := hch; simpa [World.step] using hc _
        | cov j =>
          obtain rfl := hch
          simp only [World.step, Function.update_self, askCov]
          cases (w.vals i).cov <;> exact hc i
        | calculateXi j k => exact absurd h1 (by simp)
      · rw [step_vals L w hch]; exact hc i
    refine ⟨?_, plain_safe p _ _ hc' (by rw [step_n]; exact h2)⟩
    cases o with
    | new => trivial
    | copy i => exact ⟨h1, hc i⟩
    | clear i => exact ⟨h1, hc i⟩
    | process i c init fin => exact ⟨h1.1, Or.inr h1.2.2, Or.inl h1.2.1⟩
    | add i j => exact h1
    | cov i => exact h1
    | calculateXi i j => exact absurd h1 (by simp)

end Copies
end TreeCorr
