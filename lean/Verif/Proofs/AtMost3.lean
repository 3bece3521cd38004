import Verif.Proofs.Sums3

/-! The three-point recursion comes to an end and visits no triple of rows twice, for any binning that only splits cells that can be
split. -/

namespace TreeCorr
open Classical
variable {P : Type}

/-- The calls `es` cover triples of `all`, each at most once; a call that stands for the orders `O` of its triples uses them all up.
Each call satisfies `E`. -/
def Most3 (O : Ord3) (E : Emit3 P → Prop) (all : Multiset (Obj P × Obj P × Obj P)) (es : List (Emit3 P)) : Prop :=
  (triplesOf es).bind O.orders ≤ all ∧ ∀ e ∈ es, E e

variable {O : Ord3} {E : Emit3 P → Prop}

theorem triplesOf_append (a b : List (Emit3 P)) : triplesOf (a ++ b) = triplesOf a + triplesOf b := by
  simp [triplesOf]

theorem Most3.nil {all : Multiset (Obj P × Obj P × Obj P)} : Most3 O E all [] := by
  simp [Most3, triplesOf]

theorem Most3.add {a b : Multiset (Obj P × Obj P × Obj P)} {es fs : List (Emit3 P)} (h1 : Most3 O E a es) (h2 : Most3 O E b fs) :
    Most3 O E (a + b) (es ++ fs) := by
  refine ⟨?_, ?_⟩
  · rw [triplesOf_append, Multiset.add_bind]
    exact add_le_add h1.1 h2.1
  · intro e he
    rcases List.mem_append.1 he with he | he
    · exact h1.2 e he
    · exact h2.2 e he

theorem concatM_most {α : Type} {f : α → Option (List (Emit3 P))} {g : α → Multiset (Obj P × Obj P × Obj P)} {l : List α}
    (hf : ∀ x ∈ l, ∃ fs, f x = some fs ∧ Most3 O E (g x) fs) : ∃ es, concatM f l = some es ∧ Most3 O E ((l.map g).sum) es := by
  induction l with
  | nil => exact ⟨[], rfl, Most3.nil⟩
  | cons x xs ih =>
    obtain ⟨a, ha, h1⟩ := hf x (by simp)
    obtain ⟨b, hb, h2⟩ := ih fun y hy => hf y (by simp [hy])
    exact ⟨a ++ b, by simp [concatM, ha, hb], by
      rw [List.map_cons, List.sum_cons]
      exact h1.add h2⟩

/-- The decisions of a binning scheme only split cells that can be split, and say something true of the cells. -/
structure Safe3 (B : Bin3 P) (M : Metric3 P) (Q : Cell P → Prop) (E : Emit3 P → Prop) : Prop where
  direct : ∀ O c1 c2 c3 e, Q c1 → Q c2 → Q c3 → Arranged B M O c1.pos c2.pos c3.pos → B.act O c1 c2 c3 = .direct e →
    (e.c1 = c1 ∧ e.c2 = c2 ∧ e.c3 = c3) ∧ E e
  split : ∀ O c1 c2 c3 f1 f2 f3, Q c1 → Q c2 → Q c3 → B.act O c1 c2 c3 = .split f1 f2 f3 →
    (splitCells f1 f2 f3 c1 c2 c3).isSome
  leaf12 : ∀ O c1 c2, Q c1 → Q c2 → ¬ TreeCorr.skip12 B M O c1 c2 → 0 < c2.size

/-- The orders of the points that one call stands for (`Oe`) when the orders `O` have to be looked at. -/
def Emits (sort : Bool) (O Oe : Ord3) : Prop :=
  if sort then O = Oe else (O = .any ∧ Oe = .first) ∨ (O = Oe ∧ O ≠ .any)

theorem emits_arrange {sort : Bool} {M : Metric3 P} {O Oe O' : Ord3} {σ : Perm3} {p1 p2 p3 : P} (h : Emits sort O Oe)
    (hm : (O', σ) ∈ arrange M sort true O p1 p2 p3) : O' = Oe ∧ Emits sort O' Oe := by
  unfold Emits at h ⊢
  unfold arrange at hm
  cases sort
  · simp only [Bool.false_eq_true, if_false, if_true] at h hm ⊢
    rcases h with ⟨rfl, rfl⟩ | ⟨rfl, h⟩
    · simp only at hm
      split at hm <;> simp only [List.mem_cons, Prod.mk.injEq, List.not_mem_nil, or_false] at hm <;>
        (rcases hm with ⟨rfl, _⟩ | ⟨rfl, _⟩ | ⟨rfl, _⟩ <;> simp)
    · cases O
      · exact absurd rfl h
      · simp only at hm
        split at hm <;> simp only [List.mem_singleton, Prod.mk.injEq] at hm <;> (obtain ⟨rfl, _⟩ := hm; simp)
      · simp only [List.mem_singleton, Prod.mk.injEq] at hm
        obtain ⟨rfl, _⟩ := hm
        simp
  · simp only [if_true] at h hm ⊢
    subst h
    cases O
    · simp only at hm
      split_ifs at hm <;> simp only [List.mem_singleton, Prod.mk.injEq] at hm <;> (obtain ⟨rfl, _⟩ := hm; simp)
    · simp only at hm
      split_ifs at hm <;> simp only [List.mem_singleton, Prod.mk.injEq] at hm <;> (obtain ⟨rfl, _⟩ := hm; simp)
    · simp only [List.mem_singleton, Prod.mk.injEq] at hm
      obtain ⟨rfl, _⟩ := hm
      simp

variable {B : Bin3 P} {M : Metric3 P} {Q : Cell P → Prop} {Oe : Ord3}

theorem process111N_most (hx : Safe3 B M Q E) (h23 : B.swap23 = true) (hQ : Hered Q) (n : ℕ) (O : Ord3) (hO : Emits B.sort O Oe)
    (c1 c2 c3 : Cell P) (q1 : Q c1) (q2 : Q c2) (q3 : Q c3) (hn : c1.nodes + c2.nodes + c3.nodes ≤ n) (hn0 : 0 < n) :
    ∃ es, process111N B M n O c1 c2 c3 = some es ∧ Most3 Oe E (cells111 O (c1, c2, c3)) es := by
  induction n generalizing O c1 c2 c3 with
  | zero => omega
  | succ n ih =>
    rw [process111N]
    split
    · exact ⟨[], rfl, Most3.nil⟩
    · have harr : cells111 O (c1, c2, c3) = ((arrange M B.sort B.swap23 O c1.pos c2.pos c3.pos).map fun oσ =>
          cells111 oσ.1 (oσ.2.apply c1 c2 c3)).sum := by
        unfold cells111
        rw [from111_arrange M B.sort B.swap23 O c1.pos c2.pos c3.pos]
        congr 1
        apply List.map_congr_left
        rintro ⟨O', σ⟩ _
        cases σ <;> rfl
      rw [harr]
      apply concatM_most
      rintro ⟨O', σ⟩ hmem
      have hAr : Arranged B M O' (σ.apply c1 c2 c3).1.pos (σ.apply c1 c2 c3).2.1.pos (σ.apply c1 c2 c3).2.2.pos :=
        ⟨O, c1.pos, c2.pos, c3.pos, σ, hmem, by cases σ <;> rfl⟩
      rw [h23] at hmem
      obtain ⟨rfl, hO'⟩ := emits_arrange hO hmem
      have hq : Q (σ.apply c1 c2 c3).1 ∧ Q (σ.apply c1 c2 c3).2.1 ∧ Q (σ.apply c1 c2 c3).2.2 := by
        cases σ <;> simp [Perm3.apply, q1, q2, q3]
      have hnn : (σ.apply c1 c2 c3).1.nodes + (σ.apply c1 c2 c3).2.1.nodes + (σ.apply c1 c2 c3).2.2.nodes ≤ n + 1 := by
        cases σ <;> simp only [Perm3.apply] <;> omega
      simp only
      generalize σ.apply c1 c2 c3 = t at hq hnn hAr ⊢
      obtain ⟨a1, a2, a3⟩ := t
      simp only at hq hnn hAr ⊢
      cases hact : B.act O' a1 a2 a3 with
      | drop => exact ⟨[], rfl, Most3.nil⟩
      | direct e =>
        refine ⟨[e], rfl, ?_⟩
        obtain ⟨⟨e1, e2, e3⟩, hE⟩ := hx.direct O' a1 a2 a3 e hq.1 hq.2.1 hq.2.2 hAr hact
        refine ⟨le_of_eq ?_, by simpa using hE⟩
        unfold cells111
        simp only [triplesOf, List.map_cons, List.map_nil, List.sum_cons, List.sum_nil, add_zero, Emit3.triples, e1, e2, e3]
        rw [crossTriples_eq]
        unfold from111
        simp only [Multiset.bind_assoc, Ord3.orders, Multiset.singleton_bind]
      | split f1 f2 f3 =>
        have hs := hx.split O' a1 a2 a3 f1 f2 f3 hq.1 hq.2.1 hq.2.2 hact
        obtain ⟨ts, hts⟩ := Option.isSome_iff_exists.1 hs
        obtain ⟨hsum, hmem'⟩ := splitCells_spec hQ O' hq.1 hq.2.1 hq.2.2 hts
        obtain ⟨es, hes, hE⟩ : ∃ es, concatM (fun s : Cell P × Cell P × Cell P => process111N B M n O' s.1 s.2.1 s.2.2) ts =
            some es ∧ Most3 O' E ((ts.map (cells111 O')).sum) es := by
          apply concatM_most
          rintro ⟨b1, b2, b3⟩ hb
          have hh := hmem' _ hb
          have h0 := b1.nodes_pos
          simp only at hh
          exact ih O' hO' b1 b2 b3 hh.1.1 hh.1.2.1 hh.1.2.2 (by omega) (by omega)
        rw [hsum]
        exact ⟨es, by simp [hts, hes], hE⟩

theorem process111_most (hx : Safe3 B M Q E) (h23 : B.swap23 = true) (hQ : Hered Q) (O : Ord3) (hO : Emits B.sort O Oe)
    (c1 c2 c3 : Cell P) (q1 : Q c1) (q2 : Q c2) (q3 : Q c3) :
    ∃ es, process111 B M O c1 c2 c3 = some es ∧ Most3 Oe E (cells111 O (c1, c2, c3)) es :=
  process111N_most hx h23 hQ _ O hO c1 c2 c3 q1 q2 q3 le_rfl (by have := c1.nodes_pos; omega)

theorem process12_most (hx : Safe3 B M Q E) (h23 : B.swap23 = true) (hQ : Hered Q) (O : Ord3) (hO : Emits B.sort O Oe) (c2 : Cell P) :
    ∀ c1 : Cell P, Q c1 → Q c2 → ∃ es, process12 B M O c1 c2 = some es ∧ Most3 Oe E (from12 O c1.objs c2.objs) es := by
  induction c2 with
  | leaf d os =>
    intro c1 q1 q2
    rw [process12]
    by_cases hs : skip12 B M O c1 (.leaf d os)
    · rw [if_pos hs]
      exact ⟨[], rfl, Most3.nil⟩
    · have := hx.leaf12 O c1 _ q1 q2 hs
      simp [Cell.size] at this
  | node d s l r ihl ihr =>
    intro c1 q1 q2
    obtain ⟨ql, qr⟩ := hQ _ _ _ _ q2
    rw [process12.eq_def]
    simp only
    by_cases hs : skip12 B M O c1 (.node d s l r)
    · rw [if_pos hs]
      exact ⟨[], rfl, Most3.nil⟩
    rw [if_neg hs]
    have hsz : 0 < s := hx.leaf12 O c1 _ q1 q2 hs
    by_cases hlt : s < c1.size
    · rw [if_pos hlt]
      cases c1 with
      | leaf d1 os1 => simp [Cell.size] at hlt; linarith
      | node d1 s1 l1 r1 =>
        obtain ⟨ql1, qr1⟩ := hQ _ _ _ _ q1
        have hsum : from12 O (Cell.node d1 s1 l1 r1).objs (Cell.node d s l r).objs =
            from12 O l1.objs l.objs + from12 O l1.objs r.objs + from12 O r1.objs l.objs + from12 O r1.objs r.objs +
            cells111 O (l1, l, r) + cells111 O (r1, l, r) := by
          simp only [Cell.objs, from12_append1, from12_append2, from111_append1, cells111]
          abel
        rw [hsum]
        obtain ⟨x1, h1, e1⟩ := ihl l1 ql1 ql
        obtain ⟨x2, h2, e2⟩ := ihr l1 ql1 qr
        obtain ⟨x3, h3, e3⟩ := ihl r1 qr1 ql
        obtain ⟨x4, h4, e4⟩ := ihr r1 qr1 qr
        obtain ⟨x5, h5, e5⟩ := process111_most hx h23 hQ O hO l1 l r ql1 ql qr
        obtain ⟨x6, h6, e6⟩ := process111_most hx h23 hQ O hO r1 l r qr1 ql qr
        exact ⟨_, by simp [h1, h2, h3, h4, h5, h6], ((((e1.add e2).add e3).add e4).add e5).add e6⟩
    · rw [if_neg hlt]
      have hsum : from12 O c1.objs (Cell.node d s l r).objs =
          from12 O c1.objs l.objs + from12 O c1.objs r.objs + cells111 O (c1, l, r) := by
        simp only [Cell.objs, from12_append2, cells111]
      rw [hsum]
      obtain ⟨x1, h1, e1⟩ := ihl c1 q1 ql
      obtain ⟨x2, h2, e2⟩ := ihr c1 q1 qr
      obtain ⟨x3, h3, e3⟩ := process111_most hx h23 hQ O hO c1 l r q1 ql qr
      exact ⟨_, by simp [h1, h2, h3], (e1.add e2).add e3⟩

theorem process3_most (hx : Safe3 B M Q E) (h23 : B.swap23 = true) (hQ : Hered Q) (hO : Emits B.sort .any Oe) {minsep : ℝ}
    (hm : 0 < minsep) (c : Cell P) (qc : Q c) :
    ∃ es, process3 B M minsep c = some es ∧ Most3 Oe E (orderedTriples c.objs) es := by
  induction c with
  | leaf d os =>
    rw [process3]
    have hpos : (0 : ℝ) < 0.5 * minsep := by positivity
    by_cases hw : d.w = 0
    · rw [if_pos hw]
      exact ⟨[], rfl, Most3.nil⟩
    · rw [if_neg hw, if_pos hpos]
      exact ⟨[], rfl, Most3.nil⟩
  | node d s l r ihl ihr =>
    obtain ⟨ql, qr⟩ := hQ _ _ _ _ qc
    rw [process3]
    by_cases hw : d.w = 0
    · rw [if_pos hw]
      exact ⟨[], rfl, Most3.nil⟩
    rw [if_neg hw]
    by_cases hs : s < 0.5 * minsep
    · rw [if_pos hs]
      exact ⟨[], rfl, Most3.nil⟩
    rw [if_neg hs]
    have hsum : orderedTriples (Cell.node d s l r).objs = orderedTriples l.objs + orderedTriples r.objs +
        from12 .any l.objs r.objs + from12 .any r.objs l.objs := by
      simp only [Cell.objs]
      exact autoTriples_append_bind _ _
    rw [hsum]
    obtain ⟨x1, h1, e1⟩ := ihl ql
    obtain ⟨x2, h2, e2⟩ := ihr qr
    obtain ⟨x3, h3, e3⟩ := process12_most hx h23 hQ .any hO r l ql qr
    obtain ⟨x4, h4, e4⟩ := process12_most hx h23 hQ .any hO l r qr ql
    exact ⟨_, by simp [h1, h2, h3, h4], ((e1.add e2).add e3).add e4⟩

theorem loop111_most (hx : Safe3 B M Q E) (h23 : B.swap23 = true) (hQ : Hered Q) (O : Ord3) (hO : Emits B.sort O Oe)
    (c1 c2 : Cell P) (q1 : Q c1) (q2 : Q c2) (cs : List (Cell P)) (hcs : ∀ c ∈ cs, Q c) :
    ∃ es, loop111 B M O c1 c2 cs = some es ∧ Most3 Oe E (from111 O c1.objs c2.objs (objsOf cs)) es := by
  induction cs with
  | nil => exact ⟨[], rfl, Most3.nil⟩
  | cons c cs ih =>
    have hsum : from111 O c1.objs c2.objs (objsOf (c :: cs)) = cells111 O (c1, c2, c) +
        from111 O c1.objs c2.objs (objsOf cs) := by
      simp only [objsOf, List.flatMap_cons, from111_append3, cells111]
    rw [hsum]
    obtain ⟨x1, h1, e1⟩ := process111_most hx h23 hQ O hO c1 c2 c q1 q2 (hcs c (by simp))
    obtain ⟨x2, h2, e2⟩ := ih (fun c hc => hcs c (by simp [hc]))
    unfold loop111 at h2
    exact ⟨_, by simp [loop111, concatM, h1, h2], e1.add e2⟩

theorem autoLoop2_most (hx : Safe3 B M Q E) (h23 : B.swap23 = true) (hQ : Hered Q) (hO : Emits B.sort .any Oe) (c1 : Cell P)
    (q1 : Q c1) (cs : List (Cell P)) (hcs : ∀ c ∈ cs, Q c) :
    ∃ es, autoLoop2 B M c1 cs = some es ∧
      Most3 Oe E (from12 .any c1.objs (objsOf cs) + from12 .any (objsOf cs) c1.objs) es := by
  induction cs with
  | nil => exact ⟨[], rfl, Most3.nil⟩
  | cons c cs ih =>
    have hsum : from12 .any c1.objs (objsOf (c :: cs)) + from12 .any (objsOf (c :: cs)) c1.objs =
        from12 .any c1.objs c.objs + from12 .any c.objs c1.objs + from111 .any c1.objs c.objs (objsOf cs) +
        (from12 .any c1.objs (objsOf cs) + from12 .any (objsOf cs) c1.objs) := by
      simp only [objsOf, List.flatMap_cons, from12_append1, from12_append2]
      abel
    rw [hsum]
    have qc := hcs c (by simp)
    obtain ⟨x1, h1, e1⟩ := process12_most hx h23 hQ .any hO c c1 q1 qc
    obtain ⟨x2, h2, e2⟩ := process12_most hx h23 hQ .any hO c1 c qc q1
    obtain ⟨x3, h3, e3⟩ := loop111_most hx h23 hQ .any hO c1 c q1 qc cs (fun c hc => hcs c (by simp [hc]))
    obtain ⟨x4, h4, e4⟩ := ih (fun c hc => hcs c (by simp [hc]))
    exact ⟨_, by simp [autoLoop2, h1, h2, h3, h4], ((e1.add e2).add e3).add e4⟩

theorem processAuto3_most (hx : Safe3 B M Q E) (h23 : B.swap23 = true) (hQ : Hered Q) (hO : Emits B.sort .any Oe) {minsep : ℝ}
    (hm : 0 < minsep) (cs : List (Cell P)) (hcs : ∀ c ∈ cs, Q c) :
    ∃ es, processAuto3 B M minsep cs = some es ∧ Most3 Oe E (orderedTriples (objsOf cs)) es := by
  induction cs with
  | nil => exact ⟨[], rfl, Most3.nil⟩
  | cons c cs ih =>
    have hsum : orderedTriples (objsOf (c :: cs)) = orderedTriples c.objs +
        (from12 .any c.objs (objsOf cs) + from12 .any (objsOf cs) c.objs) + orderedTriples (objsOf cs) := by
      simp only [objsOf, List.flatMap_cons]
      rw [autoTriples_append_bind]
      abel
    rw [hsum]
    have qc := hcs c (by simp)
    obtain ⟨x1, h1, e1⟩ := process3_most hx h23 hQ hO hm c qc
    obtain ⟨x2, h2, e2⟩ := autoLoop2_most hx h23 hQ hO c qc cs (fun c hc => hcs c (by simp [hc]))
    obtain ⟨x3, h3, e3⟩ := ih (fun c hc => hcs c (by simp [hc]))
    exact ⟨_, by simp [processAuto3, h1, h2, h3], (e1.add e2).add e3⟩

theorem cross12Loop2_most (hx : Safe3 B M Q E) (h23 : B.swap23 = true) (hQ : Hered Q) (O : Ord3) (hO : Emits B.sort O Oe)
    (c1 : Cell P) (q1 : Q c1) (cs : List (Cell P)) (hcs : ∀ c ∈ cs, Q c) :
    ∃ es, cross12Loop2 B M O c1 cs = some es ∧ Most3 Oe E (from12 O c1.objs (objsOf cs)) es := by
  induction cs with
  | nil => exact ⟨[], rfl, Most3.nil⟩
  | cons c cs ih =>
    have hsum : from12 O c1.objs (objsOf (c :: cs)) =
        from12 O c1.objs c.objs + from111 O c1.objs c.objs (objsOf cs) + from12 O c1.objs (objsOf cs) := by
      simp only [objsOf, List.flatMap_cons, from12_append2]
      abel
    rw [hsum]
    have qc := hcs c (by simp)
    obtain ⟨x1, h1, e1⟩ := process12_most hx h23 hQ O hO c c1 q1 qc
    obtain ⟨x2, h2, e2⟩ := loop111_most hx h23 hQ O hO c1 c q1 qc cs (fun c hc => hcs c (by simp [hc]))
    obtain ⟨x3, h3, e3⟩ := ih (fun c hc => hcs c (by simp [hc]))
    exact ⟨_, by simp [cross12Loop2, h1, h2, h3], (e1.add e2).add e3⟩

theorem processCross12_most (hx : Safe3 B M Q E) (h23 : B.swap23 = true) (hQ : Hered Q) (O : Ord3) (hO : Emits B.sort O Oe)
    (cs1 cs2 : List (Cell P)) (h1 : ∀ c ∈ cs1, Q c) (h2 : ∀ c ∈ cs2, Q c) :
    ∃ es, processCross12 B M O cs1 cs2 = some es ∧ Most3 Oe E (from12 O (objsOf cs1) (objsOf cs2)) es := by
  induction cs1 with
  | nil => exact ⟨[], rfl, Most3.nil⟩
  | cons c cs ih =>
    have hsum : from12 O (objsOf (c :: cs)) (objsOf cs2) = from12 O c.objs (objsOf cs2) +
        from12 O (objsOf cs) (objsOf cs2) := by
      have : objsOf (c :: cs) = c.objs ++ objsOf cs := by simp [objsOf]
      rw [this, from12_append1]
    rw [hsum]
    obtain ⟨x1, e1, f1⟩ := cross12Loop2_most hx h23 hQ O hO c (h1 c (by simp)) cs2 h2
    obtain ⟨x2, e2, f2⟩ := ih (fun c hc => h1 c (by simp [hc]))
    unfold processCross12 at e2
    exact ⟨_, by simp [processCross12, concatM, e1, e2], f1.add f2⟩

theorem processCross123_most (hx : Safe3 B M Q E) (h23 : B.swap23 = true) (hQ : Hered Q) (O : Ord3) (hO : Emits B.sort O Oe)
    (cs1 cs2 cs3 : List (Cell P)) (h1 : ∀ c ∈ cs1, Q c) (h2 : ∀ c ∈ cs2, Q c) (h3 : ∀ c ∈ cs3, Q c) :
    ∃ es, processCross123 B M O cs1 cs2 cs3 = some es ∧
      Most3 Oe E (from111 O (objsOf cs1) (objsOf cs2) (objsOf cs3)) es := by
  have inner : ∀ c1, Q c1 → ∀ cs2 : List (Cell P), (∀ c ∈ cs2, Q c) →
      ∃ es, concatM (fun c2 => loop111 B M O c1 c2 cs3) cs2 = some es ∧
        Most3 Oe E (from111 O c1.objs (objsOf cs2) (objsOf cs3)) es := by
    intro c1 q1 cs2 h2
    induction cs2 with
    | nil => exact ⟨[], rfl, Most3.nil⟩
    | cons c cs ih =>
      have hsum : from111 O c1.objs (objsOf (c :: cs)) (objsOf cs3) = from111 O c1.objs c.objs (objsOf cs3) +
          from111 O c1.objs (objsOf cs) (objsOf cs3) := by
        have : objsOf (c :: cs) = c.objs ++ objsOf cs := by simp [objsOf]
        rw [this, from111_append2]
      rw [hsum]
      obtain ⟨x1, e1, f1⟩ := loop111_most hx h23 hQ O hO c1 c q1 (h2 c (by simp)) cs3 h3
      obtain ⟨x2, e2, f2⟩ := ih (fun c hc => h2 c (by simp [hc]))
      exact ⟨_, by simp [concatM, e1, e2], f1.add f2⟩
  induction cs1 with
  | nil => exact ⟨[], rfl, Most3.nil⟩
  | cons c cs ih =>
    have hsum : from111 O (objsOf (c :: cs)) (objsOf cs2) (objsOf cs3) = from111 O c.objs (objsOf cs2) (objsOf cs3) +
        from111 O (objsOf cs) (objsOf cs2) (objsOf cs3) := by
      have : objsOf (c :: cs) = c.objs ++ objsOf cs := by simp [objsOf]
      rw [this, from111_append1]
    rw [hsum]
    obtain ⟨x1, e1, f1⟩ := inner c (h1 c (by simp)) cs2 h2
    obtain ⟨x2, e2, f2⟩ := ih (fun c hc => h1 c (by simp [hc]))
    unfold processCross123 at e2
    exact ⟨_, by simp [processCross123, concatM, e1, e2], f1.add f2⟩

end TreeCorr
