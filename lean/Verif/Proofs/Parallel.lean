import Verif.Model.Parallel
import Verif.Proofs.Loops
import Verif.Proofs.Accum

/-! The parallel loop computes the same as the serial one. -/

namespace TreeCorr
open Classical
variable {P : Type}

@[ext] theorem Acc.ext' {A B : Acc} (h1 : A.npairs = B.npairs) (h2 : A.weight = B.weight)
    (h3 : A.meanr = B.meanr) (h4 : A.meanlogr = B.meanlogr) (h5 : A.nk = B.nk) (h6 : A.kk = B.kk) :
    A = B := by
  cases A; cases B; simp_all

theorem Acc.add_assoc (A B C : Acc) : (A.add B).add C = A.add (B.add C) := by
  ext <;> simp [Acc.add] <;> ring

theorem Acc.add_comm (A B : Acc) : A.add B = B.add A := by
  ext <;> simp [Acc.add] <;> ring

theorem Acc.add_zero (A : Acc) : A.add Acc.zero = A := by
  ext <;> simp [Acc.add, Acc.zero]

theorem Acc.zero_add (A : Acc) : Acc.zero.add A = A := by rw [Acc.add_comm, Acc.add_zero]

theorem finishProcess_add (A B : Acc) (e : Emit P) :
    finishProcess (A.add B) e = A.add (finishProcess B e) := by
  ext k <;> simp only [finishProcess, Acc.add, addAt2_apply, addAt_apply] <;> ring

theorem accumulate_add (A B : Acc) (es : List (Emit P)) :
    accumulate (A.add B) es = A.add (accumulate B es) := by
  induction es generalizing B with
  | nil => rfl
  | cons e es ih =>
    change accumulate (finishProcess (A.add B) e) es = A.add (accumulate (finishProcess B e) es)
    rw [finishProcess_add, ih]

theorem accumulate_zero (A : Acc) (es : List (Emit P)) :
    accumulate A es = A.add (accumulate Acc.zero es) := by
  conv_lhs => rw [← Acc.add_zero A]
  exact accumulate_add A _ es

theorem accumulate_append (A : Acc) (es fs : List (Emit P)) :
    accumulate A (es ++ fs) = accumulate (accumulate A es) fs := by
  simp [accumulate]

/-- The order of the calls does not matter. -/
theorem accumulate_perm (A : Acc) {es fs : List (Emit P)} (h : es.Perm fs) :
    accumulate A es = accumulate A fs := by
  induction h generalizing A with
  | nil => rfl
  | cons e h ih => exact ih _
  | swap e f l =>
    change accumulate (finishProcess (finishProcess A f) e) l
      = accumulate (finishProcess (finishProcess A e) f) l
    congr 1
    ext k <;> simp only [finishProcess, addAt2_apply, addAt_apply] <;> ring
  | trans h1 h2 ih1 ih2 => rw [ih1, ih2]

theorem mapM_perm {α β : Type} (f : α → Option β) {xs ys : List α} (h : xs.Perm ys) {as : List β}
    (hx : xs.mapM f = some as) : ∃ bs, ys.mapM f = some bs ∧ as.Perm bs := by
  induction h generalizing as with
  | nil => exact ⟨as, hx, List.Perm.refl _⟩
  | cons x h ih =>
    simp only [List.mapM_cons, Option.bind_eq_bind, Option.pure_def] at hx
    obtain ⟨b, hb, hx⟩ := Option.bind_eq_some_iff.1 hx
    obtain ⟨bs, hbs, hx⟩ := Option.bind_eq_some_iff.1 hx
    obtain ⟨cs, hcs, hp⟩ := ih hbs
    simp only [Option.some.injEq] at hx
    subst hx
    exact ⟨b :: cs, by simp [List.mapM_cons, hb, hcs], hp.cons _⟩
  | swap x y l =>
    simp only [List.mapM_cons, Option.bind_eq_bind, Option.pure_def] at hx
    obtain ⟨b, hb, hx⟩ := Option.bind_eq_some_iff.1 hx
    obtain ⟨cs, hcs, hx⟩ := Option.bind_eq_some_iff.1 hx
    obtain ⟨c, hc, hcs⟩ := Option.bind_eq_some_iff.1 hcs
    obtain ⟨ds, hds, hcs⟩ := Option.bind_eq_some_iff.1 hcs
    simp only [Option.some.injEq] at hx hcs
    subst hcs; subst hx
    exact ⟨c :: b :: ds, by simp [List.mapM_cons, hb, hc, hds], List.Perm.swap _ _ _⟩
  | trans h1 h2 ih1 ih2 =>
    obtain ⟨bs, hbs, p1⟩ := ih1 hx
    obtain ⟨cs, hcs, p2⟩ := ih2 hbs
    exact ⟨cs, hcs, p1.trans p2⟩

theorem mapM_append {α β : Type} (f : α → Option β) (xs ys : List α) {as : List β}
    (h : (xs ++ ys).mapM f = some as) :
    ∃ bs cs, xs.mapM f = some bs ∧ ys.mapM f = some cs ∧ as = bs ++ cs := by
  rw [List.mapM_append] at h
  simp only [Option.bind_eq_bind, Option.pure_def] at h
  obtain ⟨b, hb, hx⟩ := Option.bind_eq_some_iff.1 h
  obtain ⟨bs, hbs, hx⟩ := Option.bind_eq_some_iff.1 hx
  simp only [Option.some.injEq] at hx
  exact ⟨b, bs, hb, hbs, hx.symm⟩

theorem parallelLoop_flatten (row : ℕ → Option (List (Emit P))) (s : Schedule) (A : Acc)
    {ess : List (List (Emit P))} (h : s.flatten.mapM row = some ess) :
    parallelLoop row s A = some (accumulate A ess.flatten) := by
  induction s generalizing A ess with
  | nil =>
    simp at h
    subst h
    simp [parallelLoop, accumulate]
  | cons is s ih =>
    rw [List.flatten_cons] at h
    obtain ⟨bs, cs, h1, h2, rfl⟩ := mapM_append row _ _ h
    have ht : threadAcc row is = some (accumulate Acc.zero bs.flatten) := by
      simp [threadAcc, h1]
    have := ih (A.add (accumulate Acc.zero bs.flatten)) h2
    simp only [parallelLoop, Option.bind_eq_bind, Option.pure_def] at this ⊢
    obtain ⟨accs, ha, hb⟩ := Option.bind_eq_some_iff.1 this
    rw [List.mapM_cons, ht, ha]
    simp only [Option.bind_eq_bind, Option.bind_some, Option.pure_def, List.foldl_cons]
    rw [List.flatten_append, accumulate_append, accumulate_zero A bs.flatten, ← hb]

/-- Any schedule gives the serial result. -/
theorem parallelLoop_eq (row : ℕ → Option (List (Emit P))) (s : Schedule) (n : ℕ) (hs : s.Of n) (A : Acc)
    {ess : List (List (Emit P))} (h : (List.range n).mapM row = some ess) :
    parallelLoop row s A = some (accumulate A ess.flatten) := by
  obtain ⟨fs, hf, hp⟩ := mapM_perm row hs.symm h
  rw [parallelLoop_flatten row s A hf]
  congr 1
  exact accumulate_perm A (hp.symm.flatten)

theorem mapM_congr' {α β : Type} {f g : α → Option β} {xs : List α} (h : ∀ x ∈ xs, f x = g x) :
    xs.mapM f = xs.mapM g := by
  induction xs with
  | nil => rfl
  | cons x xs ih =>
    rw [List.mapM_cons, List.mapM_cons, h x (by simp), ih (fun y hy => h y (by simp [hy]))]

theorem mapM_map' {α β γ : Type} (f : β → Option γ) (g : α → β) (xs : List α) :
    (xs.map g).mapM f = xs.mapM (fun x => f (g x)) := by
  induction xs with
  | nil => rfl
  | cons x xs ih => rw [List.map_cons, List.mapM_cons, List.mapM_cons, ih]

/-- The serial auto loop is the loop over the rows. -/
theorem processAuto_rows (act : Cell P → Cell P → Action P) (prm : Params) (cells : List (Cell P))
    {es : List (Emit P)} (h : processAuto act prm cells = some es) :
    ∃ ess, (List.range cells.length).mapM (autoRow act prm cells) = some ess ∧ ess.flatten = es := by
  induction cells generalizing es with
  | nil =>
    simp only [processAuto, Option.some.injEq] at h
    exact ⟨[], by simp, by simpa using h⟩
  | cons c cs ih =>
    simp only [processAuto, Option.bind_eq_bind, Option.pure_def] at h
    obtain ⟨a, ha, h⟩ := Option.bind_eq_some_iff.1 h
    obtain ⟨b, hb, h⟩ := Option.bind_eq_some_iff.1 h
    simp only [Option.some.injEq] at h
    obtain ⟨ess, h1, h2⟩ := ih hb
    refine ⟨a :: ess, ?_, by simp [h2, h]⟩
    rw [List.length_cons, List.range_succ_eq_map, List.mapM_cons, mapM_map']
    have e1 : autoRow act prm (c :: cs) 0 = some a := by simp [autoRow, ha]
    have e2 : (List.range cs.length).mapM (fun x => autoRow act prm (c :: cs) x.succ) = some ess := by
      rw [← h1]
      apply mapM_congr'
      intro x _
      simp [autoRow]
    rw [e1, e2]
    rfl

/-- The serial cross loop is the loop over the rows. -/
theorem processCross_rows (act : Cell P → Cell P → Action P) (cells1 cells2 : List (Cell P))
    {es : List (Emit P)} (h : processCrossLoop act cells1 cells2 = some es) :
    ∃ ess, (List.range cells1.length).mapM (crossRow act cells1 cells2) = some ess ∧
      ess.flatten = es := by
  simp only [processCrossLoop, Option.bind_eq_bind, Option.pure_def] at h
  obtain ⟨rows, hr, h'⟩ := Option.bind_eq_some_iff.1 h
  simp only [Option.some.injEq] at h'
  refine ⟨rows, ?_, h'⟩
  rw [← hr]
  clear hr h h'
  induction cells1 with
  | nil => simp
  | cons c cs ih =>
    rw [List.length_cons, List.range_succ_eq_map, List.mapM_cons, List.mapM_cons, mapM_map']
    have e1 : crossRow act (c :: cs) cells2 0 = processCrossRow act c cells2 := by simp [crossRow]
    have e2 : (List.range cs.length).mapM (fun x => crossRow act (c :: cs) cells2 x.succ)
        = (List.range cs.length).mapM (crossRow act cs cells2) := by
      apply mapM_congr'
      intro x _
      simp [crossRow]
    rw [e1, e2, ih]

end TreeCorr
