import Mathlib.Data.Multiset.Bind
import Mathlib.Tactic.Linarith
import Mathlib.Tactic.Abel
import Verif.Model.Corr2
import Verif.Spec.Counted

/-! Structural facts about the traversal, for an arbitrary decision function. -/

namespace TreeCorr
variable {P : Type}

@[simp] theorem pairsOf_nil : pairsOf ([] : List (Emit P)) = 0 := rfl
@[simp] theorem pairsOf_append (a b : List (Emit P)) :
    pairsOf (a ++ b) = pairsOf a + pairsOf b := by simp [pairsOf]
@[simp] theorem pairsOf_singleton (e : Emit P) : pairsOf [e] = e.pairs := by simp [pairsOf]

theorem process11_direct {act : Cell P → Cell P → Action P} {c1 c2 : Cell P} {e : Emit P}
    (h : act c1 c2 = .direct e) : process11 act c1 c2 = some [e] := by
  rw [process11.eq_def, h]

theorem process11_drop {act : Cell P → Cell P → Action P} {c1 c2 : Cell P}
    (h : act c1 c2 = .drop) : process11 act c1 c2 = some [] := by
  rw [process11.eq_def, h]

/-- A property of cells inherited by the two children. -/
def Hered (Q : Cell P → Prop) : Prop := ∀ d s l r, Q (.node d s l r) → Q l ∧ Q r

/-- A decision function reports the cells it was given. -/
def Honest (act : Cell P → Cell P → Action P) : Prop :=
  ∀ a b e, act a b = .direct e → e.c1 = a ∧ e.c2 = b

theorem decide11_honest (B : BinHelper P) (M : MetricHelper P) (prm : Params) (R : Bool) :
    Honest (decide11 B M prm R) := by
  intro a b e h
  unfold decide11 at h
  split at h
  · cases h
  simp only at h
  split at h
  · cases h
  split at h
  · cases h
  split at h
  · cases h
  split at h
  · split at h
    · injection h with h
      subst h
      simp [directProcess11]
    · cases h
  · cases h

theorem objs_node (d : CellData P) (s : ℝ) (l r : Cell P) :
    (((Cell.node d s l r).objs : List (Obj P)) : Multiset (Obj P))
      = (l.objs : Multiset (Obj P)) + (r.objs : Multiset (Obj P)) := by
  simp [Cell.objs]

/-- What is known about the pairs of a pair of cells after processing. -/
def Covers (act : Cell P → Cell P → Action P) (Q1 Q2 : Cell P → Prop)
    (all : Multiset (Obj P × Obj P)) (es : List (Emit P)) : Prop :=
  ∃ D : Multiset (Obj P × Obj P), pairsOf es + D = all ∧
    (∀ e ∈ es, ∃ a b, Q1 a ∧ Q2 b ∧ act a b = .direct e) ∧
    (∀ p ∈ D, ∃ a b, Q1 a ∧ Q2 b ∧ act a b = .drop ∧ p.1 ∈ a.objs ∧ p.2 ∈ b.objs)

theorem Covers.append {act : Cell P → Cell P → Action P} {Q1 Q2 : Cell P → Prop}
    {A B : Multiset (Obj P × Obj P)} {es fs : List (Emit P)}
    (h1 : Covers act Q1 Q2 A es) (h2 : Covers act Q1 Q2 B fs) :
    Covers act Q1 Q2 (A + B) (es ++ fs) := by
  obtain ⟨D, hD, he, hd⟩ := h1
  obtain ⟨D', hD', he', hd'⟩ := h2
  refine ⟨D + D', ?_, ?_, ?_⟩
  · rw [← hD, ← hD', pairsOf_append]; abel
  · intro e h
    rcases List.mem_append.1 h with h | h
    · exact he e h
    · exact he' e h
  · intro p h
    rcases Multiset.mem_add.1 h with h | h
    · exact hd p h
    · exact hd' p h

theorem Covers.nil {act : Cell P → Cell P → Action P} {Q1 Q2 : Cell P → Prop} :
    Covers act Q1 Q2 0 [] := ⟨0, by simp, by simp, by simp⟩

theorem process11_covers (act : Cell P → Cell P → Action P) (hact : Honest act)
    (Q1 Q2 : Cell P → Prop) (hQ1 : Hered Q1) (hQ2 : Hered Q2) (c1 c2 : Cell P) :
    Q1 c1 → Q2 c2 → ∀ es, process11 act c1 c2 = some es →
      Covers act Q1 Q2 ((c1.objs : Multiset (Obj P)) ×ˢ (c2.objs : Multiset (Obj P))) es := by
  induction c1, c2 using process11.induct (act := act) with
  | case1 c1 c2 h =>
    intro h1 h2 es hes
    rw [process11.eq_def, h] at hes
    simp only [Option.some.injEq] at hes
    subst hes
    refine ⟨(c1.objs : Multiset (Obj P)) ×ˢ (c2.objs : Multiset (Obj P)), by simp, by simp, ?_⟩
    intro p hp
    refine ⟨c1, c2, h1, h2, h, ?_⟩
    rw [Multiset.mem_product] at hp
    simpa using hp
  | case2 c1 c2 e h =>
    intro h1 h2 es hes
    rw [process11.eq_def, h] at hes
    simp only [Option.some.injEq] at hes
    subst hes
    obtain ⟨ha, hb⟩ := hact _ _ _ h
    refine ⟨0, by simp [Emit.pairs, ha, hb], ?_, by simp⟩
    intro e' he'
    simp only [List.mem_singleton] at he'
    subst he'
    exact ⟨c1, c2, h1, h2, h⟩
  | case3 d1 s1 l1 r1 d2 s2 l2 r2 h ih1 ih2 ih3 ih4 =>
    intro h1 h2 es hes
    rw [process11.eq_def, h] at hes
    simp only [Option.bind_eq_bind, Option.pure_def] at hes
    obtain ⟨a, ha, hes⟩ := Option.bind_eq_some_iff.1 hes
    obtain ⟨b, hb, hes⟩ := Option.bind_eq_some_iff.1 hes
    obtain ⟨c, hc, hes⟩ := Option.bind_eq_some_iff.1 hes
    obtain ⟨d, hd, hes⟩ := Option.bind_eq_some_iff.1 hes
    simp only [Option.some.injEq] at hes
    subst hes
    obtain ⟨q1, q1'⟩ := hQ1 _ _ _ _ h1
    obtain ⟨q2, q2'⟩ := hQ2 _ _ _ _ h2
    have := (((ih1 q1 q2 a ha).append (ih2 q1 q2' b hb)).append (ih3 q1' q2 c hc)).append
      (ih4 q1' q2' d hd)
    rw [objs_node, objs_node, Multiset.add_product, Multiset.product_add, Multiset.product_add,
      ← add_assoc]
    exact this
  | case4 c1 c2 h hne =>
    intro h1 h2 es hes
    rw [process11.eq_def, h] at hes
    simp only at hes
    cases hes
  | case5 c2 d1 s1 l1 r1 h ih1 ih2 =>
    intro h1 h2 es hes
    rw [process11.eq_def, h] at hes
    simp only [Option.bind_eq_bind, Option.pure_def] at hes
    obtain ⟨a, ha, hes⟩ := Option.bind_eq_some_iff.1 hes
    obtain ⟨b, hb, hes⟩ := Option.bind_eq_some_iff.1 hes
    simp only [Option.some.injEq] at hes
    subst hes
    obtain ⟨q1, q1'⟩ := hQ1 _ _ _ _ h1
    rw [objs_node, Multiset.add_product]
    exact (ih1 q1 h2 a ha).append (ih2 q1' h2 b hb)
  | case6 c1 c2 h hne =>
    intro h1 h2 es hes
    rw [process11.eq_def, h] at hes
    simp only at hes
    cases hes
  | case7 c1 sp d2 s2 l2 r2 h ih1 ih2 =>
    intro h1 h2 es hes
    rw [process11.eq_def, h] at hes
    simp only [Option.bind_eq_bind, Option.pure_def] at hes
    obtain ⟨a, ha, hes⟩ := Option.bind_eq_some_iff.1 hes
    obtain ⟨b, hb, hes⟩ := Option.bind_eq_some_iff.1 hes
    simp only [Option.some.injEq] at hes
    subst hes
    obtain ⟨q2, q2'⟩ := hQ2 _ _ _ _ h2
    rw [objs_node, Multiset.product_add]
    exact (ih1 h1 q2 a ha).append (ih2 h1 q2' b hb)
  | case8 c1 c2 sp h hne =>
    intro h1 h2 es hes
    rw [process11.eq_def, h] at hes
    simp only at hes
    cases hes

/-- A decision function never asks to split a leaf, for cells satisfying `Q1`, `Q2`. -/
def SafeSplit (act : Cell P → Cell P → Action P) (Q1 Q2 : Cell P → Prop) : Prop :=
  ∀ a b s1 s2, Q1 a → Q2 b → act a b = .split s1 s2 →
    (s1 = true → a.children.isSome) ∧ (s2 = true → b.children.isSome) ∧ (s1 = true ∨ s2 = true)

theorem process11_total (act : Cell P → Cell P → Action P)
    (Q1 Q2 : Cell P → Prop) (hQ1 : Hered Q1) (hQ2 : Hered Q2) (hs : SafeSplit act Q1 Q2)
    (c1 c2 : Cell P) : Q1 c1 → Q2 c2 → ∃ es, process11 act c1 c2 = some es := by
  induction c1, c2 using process11.induct (act := act) with
  | case1 c1 c2 h => intro _ _; exact ⟨[], by rw [process11.eq_def, h]⟩
  | case2 c1 c2 e h => intro _ _; exact ⟨[e], by rw [process11.eq_def, h]⟩
  | case3 d1 s1 l1 r1 d2 s2 l2 r2 h ih1 ih2 ih3 ih4 =>
    intro h1 h2
    obtain ⟨q1, q1'⟩ := hQ1 _ _ _ _ h1
    obtain ⟨q2, q2'⟩ := hQ2 _ _ _ _ h2
    obtain ⟨a, ha⟩ := ih1 q1 q2
    obtain ⟨b, hb⟩ := ih2 q1 q2'
    obtain ⟨c, hc⟩ := ih3 q1' q2
    obtain ⟨d, hd⟩ := ih4 q1' q2'
    refine ⟨a ++ b ++ c ++ d, ?_⟩
    rw [process11.eq_def, h]
    simp [ha, hb, hc, hd]
  | case4 c1 c2 h hne =>
    intro h1 h2
    obtain ⟨ha, hb, _⟩ := hs _ _ _ _ h1 h2 h
    cases c1 with
    | leaf => simp [Cell.children] at ha
    | node => cases c2 with
      | leaf => simp [Cell.children] at hb
      | node => exact (hne _ _ _ _ _ _ _ _ rfl rfl).elim
  | case5 c2 d1 s1 l1 r1 h ih1 ih2 =>
    intro h1 h2
    obtain ⟨q1, q1'⟩ := hQ1 _ _ _ _ h1
    obtain ⟨a, ha⟩ := ih1 q1 h2
    obtain ⟨b, hb⟩ := ih2 q1' h2
    refine ⟨a ++ b, ?_⟩
    rw [process11.eq_def, h]
    simp [ha, hb]
  | case6 c1 c2 h hne =>
    intro h1 h2
    obtain ⟨ha, hb, _⟩ := hs _ _ _ _ h1 h2 h
    cases c1 with
    | leaf => simp [Cell.children] at ha
    | node => exact (hne _ _ _ _ rfl).elim
  | case7 c1 sp d2 s2 l2 r2 h ih1 ih2 =>
    intro h1 h2
    obtain ⟨q2, q2'⟩ := hQ2 _ _ _ _ h2
    obtain ⟨a, ha⟩ := ih1 h1 q2
    obtain ⟨b, hb⟩ := ih2 h1 q2'
    refine ⟨a ++ b, ?_⟩
    rw [process11.eq_def, h]
    simp [ha, hb]
  | case8 c1 c2 sp h hne =>
    intro h1 h2
    obtain ⟨ha, hb, hc⟩ := hs _ _ _ _ h1 h2 h
    cases c2 with
    | leaf => simp [Cell.children] at hb; simp [hb] at hc
    | node => exact (hne _ _ _ _ rfl).elim

end TreeCorr
