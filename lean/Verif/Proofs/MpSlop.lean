import Verif.Proofs.MpRun
import Verif.Spec.MpSlop

/-! The multipole traversal with any slop, for abstract scratch arrays: every row of the first catalogue sees rows of the others from
the centre of a cell that holds it, at the centre of a cell that holds them. -/

namespace TreeCorr
open Classical
variable {P : Type}

/-- The centres of a cell and of all cells below it. -/
def Cell.centres : Cell P → List P
  | .leaf d _ => [d.pos]
  | .node d _ l r => d.pos :: (l.centres ++ r.centres)

/-- No cell below another has its centre further from the centre of the other than the size. -/
def Cell.Nested [PseudoMetricSpace P] : Cell P → Prop
  | .leaf _ _ => True
  | .node d s l r => (∀ x ∈ l.centres ++ r.centres, dist x d.pos ≤ s) ∧ l.Nested ∧ r.Nested

theorem hered_nested [PseudoMetricSpace P] : Hered (Cell.Nested (P := P)) := fun _ _ _ _ h => h.2

theorem Cell.pos_mem (c : Cell P) : c.pos ∈ c.centres := by cases c <;> simp [Cell.centres, Cell.pos, Cell.data]

theorem children_centres {c l r : Cell P} (h : c.children = some (l, r)) : l.centres ⊆ c.centres ∧ r.centres ⊆ c.centres := by
  cases c with
  | leaf d os => simp [Cell.children] at h
  | node d s a b =>
    simp only [Cell.children, Option.some.injEq, Prod.mk.injEq] at h
    rw [← h.1, ← h.2]
    constructor <;> intro x hx <;> simp [Cell.centres, hx]

/-- No centre of the one and of the other is further apart than `B`. -/
def Reach [PseudoMetricSpace P] (c1 c2 : Cell P) (B : ℝ) : Prop := ∀ x ∈ c1.centres, ∀ y ∈ c2.centres, dist x y ≤ B

theorem Reach.mono [PseudoMetricSpace P] {c1 c2 c1' c2' : Cell P} {B B' : ℝ} (h : Reach c1 c2 B) (h1 : c1'.centres ⊆ c1.centres)
    (h2 : c2'.centres ⊆ c2.centres) (hB : B ≤ B') : Reach c1' c2' B' :=
  fun x hx y hy => (h x (h1 hx) y (h2 hy)).trans hB

theorem Cell.Nested.dist_le [PseudoMetricSpace P] {c : Cell P} (h : c.Nested) (hs : 0 ≤ c.size) {x : P} (hx : x ∈ c.centres) :
    dist x c.pos ≤ c.size := by
  cases c with
  | leaf d os =>
    simp only [Cell.centres, List.mem_singleton] at hx
    subst hx
    simp [Cell.pos, Cell.data, Cell.size]
  | node d s l r =>
    simp only [Cell.centres, List.mem_cons] at hx
    rcases hx with rfl | hx
    · simpa [Cell.pos, Cell.data] using hs
    · exact h.1 x hx

theorem Reach.of_nested [PseudoMetricSpace P] {c1 c2 : Cell P} (h1 : c1.Nested) (h2 : c2.Nested) (s1 : 0 ≤ c1.size)
    (s2 : 0 ≤ c2.size) : Reach c1 c2 (dist c1.pos c2.pos + (c1.size + c2.size)) := by
  intro x hx y hy
  have a := h1.dist_le s1 hx
  have b := h2.dist_le s2 hy
  have t := dist_triangle4 x c1.pos c2.pos y
  rw [dist_comm c2.pos y] at t
  linarith

/-- What the traversal needs to know about the scratch arrays: `Rep mp M` says that `mp` holds the rows seen, `M`. -/
def SeenRep [PseudoMetricSpace P] {S : Type} (p : Params) (gn : Cell P → Cell P → ℝ → ℝ → ℤ → S → S) (Q1 Q : Cell P → Prop)
    (Rep : S → List (Seen P) → Prop) : Prop :=
  ∀ (c1 c2 : Cell P) (mp : S) (M : List (Seen P)) (k : ℤ) (r logr : ℝ), Q1 c1 → Q c2 → mpPair p c1 c2 = .use k r logr → Rep mp M →
    Rep (gn c1 c2 r logr k mp) (M ++ c2.objs.map fun o => ⟨o, c1.pos, c2.pos⟩)

section
variable [PseudoMetricSpace P] {S A : Type} {p : Params} {gn : Cell P → Cell P → ℝ → ℝ → ℤ → S → S} {Q1 Q : Cell P → Prop}
  {Rep : S → List (Seen P) → Prop} {near : Obj P → Seen P → Prop} {far : Obj P → Obj P → Prop}

/-- What the decisions about two cells mean for their rows. -/
structure PairOk (p : Params) (Q1 Q : Cell P → Prop) (near : Obj P → Seen P → Prop) (far : Obj P → Obj P → Prop) : Prop where
  size1 : ∀ c, Q1 c → 0 ≤ c.size
  size : ∀ c, Q c → 0 ≤ c.size
  nested1 : ∀ c, Q1 c → c.Nested
  nested : ∀ c, Q c → c.Nested
  use : ∀ c1 c2 k r logr, Q1 c1 → Q c2 → mpPair p c1 c2 = .use k r logr → ∀ o1 ∈ c1.objs, ∀ o ∈ c2.objs,
    near o1 ⟨o, c1.pos, c2.pos⟩
  skip : ∀ c1 c2, Q1 c1 → Q c2 → mpPair p c1 c2 = .skip → ∀ o1 ∈ c1.objs, ∀ o ∈ c2.objs, far o1 o

/-- What the loop of `splitC2CellsOrCalculateGn` has done. -/
structure FoldOut (p : Params) (Q : Cell P → Prop) (near : Obj P → Seen P → Prop) (far : Obj P → Obj P → Prop) (c1 : Cell P) (t : ℝ)
    (lst : List (Cell P)) (st st' : MpStep P S) (M : List (Seen P)) (D : Multiset (Obj P)) : Prop where
  rows : (M.map Seen.row : Multiset (Obj P)) + D + cellRows st'.lst = cellRows st.lst + cellRows lst
  near : ∀ o1 ∈ c1.objs, ∀ m ∈ M, near o1 m
  far : ∀ o1 ∈ c1.objs, ∀ o ∈ D, far o1 o
  src : ∀ m ∈ M, m.eye ∈ c1.centres ∧ ∃ c2 ∈ lst, m.spot ∈ c2.centres
  good : ∀ c ∈ st'.lst, c ∈ st.lst ∨ (Q c ∧ ∃ c2 ∈ lst, c.centres ⊆ c2.centres ∧ Reach c1 c2 st'.maxr)
  maxle : st.maxr ≤ st'.maxr
  att : st'.maxr = st.maxr ∨ ∃ c2 ∈ lst, ∃ f1 f2, mpPair p c1 c2 = .keep st'.maxr f1 f2
  keepLe : ∀ c2 ∈ lst, ∀ r f1 f2, mpPair p c1 c2 = .keep r f1 f2 → r ≤ st'.maxr
  anyMono : st.any = true → st'.any = true
  anyOf : ∀ c2 ∈ lst, ∀ r f2, mpPair p c1 c2 = .keep r true f2 → t < r → st'.any = true
  anySize : st'.any = true → st.any = true ∨ 0 < c1.size
  nodes : listNodes st'.lst ≤ listNodes st.lst + listNodes lst
  stuck : listNodes st'.lst = listNodes st.lst + listNodes lst →
    st'.lst = st.lst ++ lst ∧ ∀ c2 ∈ lst, ∃ r, mpPair p c1 c2 = .keep r true false

theorem gnFold_slop (hQ : Hered Q) (hok : PairOk p Q1 Q near far) (hgn : SeenRep p gn Q1 Q Rep) {c1 : Cell P} (hc : Q1 c1) (t : ℝ)
    (lst : List (Cell P)) :
    ∀ (st : MpStep P S) (M0 : List (Seen P)), (∀ c ∈ lst, Q c) → Rep st.mp M0 →
      ∃ st' M D, lst.foldlM (gnOne p gn c1 t) st = some st' ∧ Rep st'.mp (M0 ++ M) ∧ FoldOut p Q near far c1 t lst st st' M D := by
  induction lst with
  | nil =>
    intro st M0 _ h
    refine ⟨st, [], 0, rfl, by simpa using h, ?_⟩
    exact ⟨by simp [cellRows_nil], by simp, by simp, by simp, fun c h => .inl h, le_rfl, .inl rfl, by simp, id, by simp, .inl,
      by simp [listNodes_nil], by simp⟩
  | cons c2 cs ih =>
    intro st M0 h1 h3
    have q2 := h1 c2 (by simp)
    have hn := nodes_pos c2
    have h1' : ∀ c ∈ cs, Q c := fun c h => h1 c (by simp [h])
    cases hm : mpPair p c1 c2 with
    | skip =>
      have e : gnOne p gn c1 t st c2 = some st := by unfold gnOne; rw [hm]
      obtain ⟨st', M, D, g1, g2, g⟩ := ih st M0 h1' h3
      refine ⟨st', M, (c2.objs : Multiset (Obj P)) + D, by rw [List.foldlM_cons, e]; exact g1, g2, ?_⟩
      refine ⟨?_, g.near, ?_, ?_, ?_, g.maxle, ?_, ?_, g.anyMono, ?_, g.anySize, ?_, ?_⟩
      · rw [cellRows_cons, add_left_comm (cellRows st.lst), ← g.rows]; abel
      · intro o1 ho1 o ho
        rcases Multiset.mem_add.1 ho with ho | ho
        · exact hok.skip _ _ hc q2 hm o1 ho1 o (Multiset.mem_coe.1 ho)
        · exact g.far o1 ho1 o ho
      · intro m hm
        obtain ⟨a, c, hc, b⟩ := g.src m hm
        exact ⟨a, c, by simp [hc], b⟩
      · intro c hc
        rcases g.good c hc with h | ⟨h, d, hd, h'⟩
        · exact .inl h
        · exact .inr ⟨h, d, by simp [hd], h'⟩
      · rcases g.att with h | ⟨d, hd, h⟩
        · exact .inl h
        · exact .inr ⟨d, by simp [hd], h⟩
      · intro d hd r f1 f2 hk
        rcases List.mem_cons.1 hd with rfl | hd
        · rw [hm] at hk; cases hk
        · exact g.keepLe d hd r f1 f2 hk
      · intro d hd r f2 hk
        rcases List.mem_cons.1 hd with rfl | hd
        · rw [hm] at hk; cases hk
        · exact g.anyOf d hd r f2 hk
      · have := g.nodes; rw [listNodes_cons]; omega
      · have := g.nodes
        rw [listNodes_cons]; intro h; omega
    | use k r logr =>
      have e : gnOne p gn c1 t st c2 = some { st with mp := gn c1 c2 r logr k st.mp } := by unfold gnOne; rw [hm]
      obtain ⟨st', M, D, g1, g2, g⟩ := ih { st with mp := gn c1 c2 r logr k st.mp } _ h1' (hgn _ _ _ _ _ _ _ hc q2 hm h3)
      refine ⟨st', (c2.objs.map fun o => ⟨o, c1.pos, c2.pos⟩) ++ M, D, by rw [List.foldlM_cons, e]; exact g1,
        by rw [← List.append_assoc]; exact g2, ?_⟩
      refine ⟨?_, ?_, g.far, ?_, ?_, g.maxle, ?_, ?_, g.anyMono, ?_, g.anySize, ?_, ?_⟩
      · have hr := g.rows
        simp only at hr
        rw [cellRows_cons, add_left_comm (cellRows st.lst), ← hr, List.map_append, List.map_map, ← Multiset.coe_add]
        have : (Seen.row ∘ fun o : Obj P => (⟨o, c1.pos, c2.pos⟩ : Seen P)) = id := rfl
        rw [this, List.map_id]
        abel
      · intro o1 ho1 m hmm
        rcases List.mem_append.1 hmm with h | h
        · obtain ⟨o, ho, rfl⟩ := List.mem_map.1 h
          exact hok.use _ _ _ _ _ hc q2 hm o1 ho1 o ho
        · exact g.near o1 ho1 m h
      · intro m hmm
        rcases List.mem_append.1 hmm with h | h
        · obtain ⟨o, ho, rfl⟩ := List.mem_map.1 h
          exact ⟨c1.pos_mem, c2, by simp, c2.pos_mem⟩
        · obtain ⟨a, c, hc, b⟩ := g.src m h
          exact ⟨a, c, by simp [hc], b⟩
      · intro c hc
        rcases g.good c hc with h | ⟨h, d, hd, h'⟩
        · exact .inl h
        · exact .inr ⟨h, d, by simp [hd], h'⟩
      · rcases g.att with h | ⟨d, hd, h⟩
        · exact .inl h
        · exact .inr ⟨d, by simp [hd], h⟩
      · intro d hd r f1 f2 hk
        rcases List.mem_cons.1 hd with rfl | hd
        · rw [hm] at hk; cases hk
        · exact g.keepLe d hd r f1 f2 hk
      · intro d hd r f2 hk
        rcases List.mem_cons.1 hd with rfl | hd
        · rw [hm] at hk; cases hk
        · exact g.anyOf d hd r f2 hk
      · have := g.nodes; simp only at this; rw [listNodes_cons]; omega
      · have := g.nodes
        simp only at this
        rw [listNodes_cons]; intro h; omega
    | keep rtot f1 f2 =>
      obtain ⟨k1, k2, k3, k4, k5, -⟩ := mpPair_keep (hok.size1 _ hc) (hok.size _ q2) hm
      have hreach : Reach c1 c2 rtot := by
        rw [k1]; exact Reach.of_nested (hok.nested1 _ hc) (hok.nested _ q2) (hok.size1 _ hc) (hok.size _ q2)
      -- the cells put on the list
      have key : ∃ new : List (Cell P), gnOne p gn c1 t st c2 = some { st with lst := st.lst ++ new, any := st.any || (f1 && decide (rtot > t)), maxr := max rtot st.maxr } ∧
          cellRows new = (c2.objs : Multiset (Obj P)) ∧ (∀ c ∈ new, Q c ∧ c.centres ⊆ c2.centres) ∧ listNodes new ≤ c2.nodes ∧
          (listNodes new = c2.nodes → new = [c2] ∧ f2 = false) := by
        cases f2 with
        | false =>
          refine ⟨[c2], ?_, by simp [cellRows_cons, cellRows_nil], ?_, by simp [listNodes_cons, listNodes_nil], fun _ => ⟨rfl, rfl⟩⟩
          · unfold gnOne; rw [hm]; simp
          · intro c hc
            rw [List.mem_singleton] at hc
            subst hc
            exact ⟨q2, fun _ h => h⟩
        | true =>
          obtain ⟨l, r, hlr⟩ := children_of_size (k4 rfl)
          obtain ⟨ql, qr⟩ := children_hered hQ hlr q2
          obtain ⟨cl, cr⟩ := children_centres hlr
          refine ⟨[l, r], ?_, ?_, ?_, ?_, ?_⟩
          · unfold gnOne; rw [hm]; simp [hlr]
          · rw [cellRows_cons, cellRows_cons, cellRows_nil, children_objs hlr, add_zero, ← Multiset.coe_add]
          · intro c hc
            simp only [List.mem_cons, List.not_mem_nil, or_false] at hc
            rcases hc with rfl | rfl
            · exact ⟨ql, cl⟩
            · exact ⟨qr, cr⟩
          · rw [listNodes_cons, listNodes_cons, listNodes_nil, children_nodes hlr]; omega
          · rw [listNodes_cons, listNodes_cons, listNodes_nil, children_nodes hlr]; omega
      obtain ⟨new, e, n1, n2, n3, n4⟩ := key
      obtain ⟨st', M, D, g1, g2, g⟩ := ih
        { st with lst := st.lst ++ new, any := st.any || (f1 && decide (rtot > t)), maxr := max rtot st.maxr } M0 h1' h3
      refine ⟨st', M, D, by rw [List.foldlM_cons, e]; exact g1, g2, ?_⟩
      have hmax := g.maxle
      simp only at hmax
      refine ⟨?_, g.near, g.far, ?_, ?_, (le_max_right _ _).trans hmax, ?_, ?_, ?_, ?_, ?_, ?_, ?_⟩
      · rw [g.rows]; simp only [cellRows_append, cellRows_cons, n1]; abel
      · intro m hm
        obtain ⟨a, c, hc, b⟩ := g.src m hm
        exact ⟨a, c, by simp [hc], b⟩
      · intro c hc
        rcases g.good c hc with h | ⟨h, d, hd, h'⟩
        · rcases List.mem_append.1 h with h | h
          · exact .inl h
          · exact .inr ⟨(n2 c h).1, c2, by simp, (n2 c h).2,
              hreach.mono (fun _ h => h) (fun _ h => h) ((le_max_left _ _).trans hmax)⟩
        · exact .inr ⟨h, d, by simp [hd], h'⟩
      · rcases g.att with h | ⟨d, hd, h⟩
        · simp only at h
          rcases max_choice rtot st.maxr with h' | h'
          · rw [h'] at h
            exact .inr ⟨c2, by simp, f1, f2, by rw [hm, h]⟩
          · rw [h'] at h; exact .inl h
        · exact .inr ⟨d, by simp [hd], h⟩
      · intro d hd r g1 g2 hk
        rcases List.mem_cons.1 hd with rfl | hd
        · rw [hm] at hk; cases hk
          exact (le_max_left _ _).trans hmax
        · exact g.keepLe d hd r g1 g2 hk
      · intro ha; exact g.anyMono (by simp [ha])
      · intro d hd r g2 hk ht
        rcases List.mem_cons.1 hd with rfl | hd
        · rw [hm] at hk; cases hk
          exact g.anyMono (by simp [ht])
        · exact g.anyOf d hd r g2 hk ht
      · intro ha
        rcases g.anySize ha with h | h
        · simp only [Bool.or_eq_true, Bool.and_eq_true] at h
          rcases h with h | h
          · exact .inl h
          · exact .inr (k3 h.1)
        · exact .inr h
      · have := g.nodes
        simp only [listNodes_append] at this
        rw [listNodes_cons]; omega
      · intro h
        have h' := g.nodes
        have hs := g.stuck
        simp only [listNodes_append] at h' hs
        rw [listNodes_cons] at h
        obtain ⟨e1, e2⟩ := n4 (by omega)
        obtain ⟨u1, u2⟩ := hs (by omega)
        refine ⟨by rw [u1, e1]; simp, ?_⟩
        intro d hd
        rcases List.mem_cons.1 hd with rfl | hd
        · subst e2
          simp only [Bool.false_eq_true, or_false] at k5
          subst k5
          exact ⟨rtot, hm⟩
        · exact u2 d hd

theorem Sees.append {o : Obj P} {r2 rows : Multiset (Obj P)} {M1 M2 : List (Seen P)} {D : Multiset (Obj P)}
    (h2 : Sees near far o r2 M2) (hn : ∀ m ∈ M1, near o m) (hf : ∀ x ∈ D, far o x)
    (hr : (M1.map Seen.row : Multiset (Obj P)) + D + r2 = rows) : Sees near far o rows (M1 ++ M2) := by
  obtain ⟨a, D2, b, c⟩ := h2
  refine ⟨?_, D + D2, ?_, ?_⟩
  · intro m hm
    rcases List.mem_append.1 hm with h | h
    · exact hn m h
    · exact a m h
  · rw [← hr, ← b, List.map_append, ← Multiset.coe_add]; abel
  · intro x hx
    rcases Multiset.mem_add.1 hx with h | h
    · exact hf x h
    · exact c x h

/-- A quantity that `calculateZeta` adds up: `vo o M2 M3` for each row `o` of the first cell, where only the rows seen in bins `≥ j`
matter. -/
structure Adds {V : Type} [AddCommMonoid V] (p : Params) (Q1 : Cell P → Prop) (Rep : S → List (Seen P) → Prop)
    (zeta : Cell P → S → S → ℤ → ℤ → List A) (tot : List A → V) (j : ℤ) (vo : Obj P → List (Seen P) → List (Seen P) → V) : Prop where
  nil : tot [] = 0
  append : ∀ a b, tot (a ++ b) = tot a + tot b
  eq : ∀ c mp2 mp3 M2 M3, Q1 c → Rep mp2 M2 → Rep mp3 M3 → ∀ ks mink, 0 ≤ ks → mink ≤ p.nbins →
    tot (zeta c mp2 mp3 ks mink) = if ks ≤ j ∧ j < mink then (c.objs.map fun o => vo o M2 M3).sum else 0
  loc : ∀ o M2 M3 M2' M3', (∀ m ∈ M2' ++ M3', ∀ k, j ≤ k → ¬ InLogBin p.minsep p.binsize p.nbins k (dist m.eye m.spot)) →
    vo o (M2 ++ M2') (M3 ++ M3') = vo o M2 M3

/-- All that is known of the result of a recursive call: the rows of the first cell, with what each sees besides `M2`, `M3`. -/
structure FinOut (p : Params) (near : Obj P → Seen P → Prop) (far : Obj P → Obj P → Prop) (c1 : Cell P) (lst2 lst3 : List (Cell P))
    (L : List (Obj P × List (Seen P) × List (Seen P))) : Prop where
  fst : L.map Prod.fst = c1.objs
  sees2 : ∀ v ∈ L, Sees near far v.1 (cellRows lst2) v.2.1
  sees3 : ∀ v ∈ L, Sees near far v.1 (cellRows lst3) v.2.2
  reach2 : ∀ v ∈ L, ∀ m ∈ v.2.1, m.eye ∈ c1.centres ∧ ∃ c ∈ lst2, m.spot ∈ c.centres
  reach3 : ∀ v ∈ L, ∀ m ∈ v.2.2, m.eye ∈ c1.centres ∧ ∃ c ∈ lst3, m.spot ∈ c.centres

/-- The next round makes progress. -/
def Prog (p : Params) (gn : Cell P → Cell P → ℝ → ℝ → ℤ → S → S) (Rep : S → List (Seen P) → Prop) (c1 : Cell P)
    (lst2 lst3 : List (Cell P)) (maxr2 maxr3 : ℝ) : Prop :=
  ∀ mp2 mp3 M2 M3 st2 st3, Rep mp2 M2 → Rep mp3 M3 → splitOrGn p gn c1 lst2 false mp2 maxr2 = some st2 → splitOrGn p gn c1 lst3 st2.any mp3 maxr3 = some st3 →
    st3.any = true ∨ listNodes st2.lst + listNodes st3.lst < listNodes lst2 + listNodes lst3

theorem pre_eq {L : List (Obj P × List (Seen P) × List (Seen P))} {V : Type} [AddCommMonoid V] {os : List (Obj P)}
    (h : L.map Prod.fst = os) (f : Obj P → V) : (os.map f).sum = (L.map fun v => f v.1).sum := by
  rw [← h, List.map_map]; rfl

theorem foldAny (hQ : Hered Q) (hok : PairOk p Q1 Q near far) (hgn : SeenRep p gn Q1 Q Rep) {c1 : Cell P} (hc : Q1 c1)
    {lst : List (Cell P)} (hl : ∀ c ∈ lst, Q c) {any : Bool} {mp : S} {M : List (Seen P)} (hR : Rep mp M) (maxr : ℝ) :
    ∃ st' M' D, splitOrGn p gn c1 lst any mp maxr = some st' ∧ Rep st'.mp (M ++ M') ∧
      FoldOut p Q near far c1 ((1 - p.binsize) * maxr) lst { lst := [], any := any, mp := mp, maxr := 0 } st' M' D :=
  gnFold_slop hQ hok hgn hc _ lst _ M hl hR

theorem foldOut_split {c1 : Cell P} {t : ℝ} {lst : List (Cell P)} {any : Bool} {mp : S} {st' : MpStep P S} {M : List (Seen P)}
    {D : Multiset (Obj P)} (g : FoldOut p Q near far c1 t lst { lst := [], any := any, mp := mp, maxr := 0 } st' M D) :
    (∀ c ∈ st'.lst, Q c ∧ ∃ c2 ∈ lst, c.centres ⊆ c2.centres ∧ Reach c1 c2 st'.maxr) ∧
      (M.map Seen.row : Multiset (Obj P)) + D + cellRows st'.lst = cellRows lst ∧ listNodes st'.lst ≤ listNodes lst := by
  refine ⟨?_, ?_, ?_⟩
  · intro c hc
    rcases g.good c hc with h | h
    · simp at h
    · exact h
  · have := g.rows
    simpa [cellRows_nil] using this
  · have := g.nodes
    simpa [listNodes_nil] using this


/-- A list kept whole makes `split1` true in the next round. -/
theorem stuck_next (hp : LogParams p) (hQ : Hered Q) (hok : PairOk p Q1 Q near far) (hgn : SeenRep p gn Q1 Q Rep) {c1 : Cell P}
    (hc : Q1 c1) {t : ℝ} {lst : List (Cell P)} (hl : ∀ c ∈ lst, Q c) (hne : lst ≠ []) {any any' : Bool} {mp : S} {st' : MpStep P S}
    {M : List (Seen P)} {D : Multiset (Obj P)}
    (g : FoldOut p Q near far c1 t lst { lst := [], any := any, mp := mp, maxr := 0 } st' M D)
    (hs : listNodes st'.lst = listNodes lst) {mp' : S} {M' : List (Seen P)} (hR : Rep mp' M') {st'' : MpStep P S}
    (h : splitOrGn p gn c1 lst any' mp' st'.maxr = some st'') : st''.any = true := by
  obtain ⟨u, M'', D', e, -, k⟩ := foldAny hQ hok hgn hc hl (any := any') hR st'.maxr
  rw [h] at e; cases e
  obtain ⟨-, hk⟩ := g.stuck (by simpa [listNodes_nil] using hs)
  obtain ⟨c0, h0⟩ := List.exists_mem_of_ne_nil _ hne
  obtain ⟨r0, hr0⟩ := hk c0 h0
  have p0 := mpPair_keep (hok.size1 _ hc) (hok.size _ (hl _ h0)) hr0
  have hpos : 0 < st'.maxr := by
    have a := g.keepLe c0 h0 _ _ _ hr0
    have b := dist_nonneg (x := c1.pos) (y := c0.pos)
    linarith [p0.1, p0.2.1]
  rcases g.att with h1 | ⟨c2, h2, f1, f2, h3⟩
  · simp only at h1; linarith
  · obtain ⟨r, hr⟩ := hk c2 h2
    rw [h3] at hr
    injection hr with e1 e2 e3
    subst e2
    apply k.anyOf c2 h2 st'.maxr f2 h3
    have := hp.binsize
    nlinarith

theorem early_combine {V : Type} [AddCommMonoid V] (hp : LogParams p) {zeta : Cell P → S → S → ℤ → ℤ → List A} {tot : List A → V}
    {j : ℤ} {vo : Obj P → List (Seen P) → List (Seen P) → V} (ha : Adds p Q1 Rep zeta tot j vo) {c1 : Cell P} (hc : Q1 c1)
    {mp2 mp3 : S} {M2 M3 : List (Seen P)} (hR2 : Rep mp2 M2) (hR3 : Rep mp3 M3) {mink : ℤ} (hmk : mink ≤ p.nbins) {maxr : ℝ}
    {L : List (Obj P × List (Seen P) × List (Seen P))} (hL : L.map Prod.fst = c1.objs)
    (hr : ∀ v ∈ L, ∀ m ∈ v.2.1 ++ v.2.2, dist m.eye m.spot ≤ maxr) {rest : List A}
    (hrest : tot rest = if 0 ≤ j ∧ j < (earlyZeta p (zeta c1 mp2 mp3) mink maxr).2 then
      (L.map fun v => vo v.1 (M2 ++ v.2.1) (M3 ++ v.2.2)).sum else 0) :
    tot ((earlyZeta p (zeta c1 mp2 mp3) mink maxr).1 ++ rest) = if 0 ≤ j ∧ j < mink then
      (L.map fun v => vo v.1 (M2 ++ v.2.1) (M3 ++ v.2.2)).sum else 0 := by
  rw [ha.append, hrest]
  unfold earlyZeta
  split
  · split
    · rename_i h
      simp only
      have hk0 := earlyK_nonneg hp maxr
      rw [ha.eq c1 mp2 mp3 M2 M3 hc hR2 hR3 _ _ hk0 hmk]
      by_cases c1' : earlyK p maxr ≤ j
      · by_cases c2 : j < mink
        · rw [if_pos ⟨c1', c2⟩, if_neg (by omega), if_pos ⟨by omega, c2⟩, add_zero, pre_eq hL]
          congr 1
          apply List.map_congr_left
          intro v hv
          rw [ha.loc]
          intro m hm k hk
          exact earlyK_none hp (hr v hv m hm) (c1'.trans hk)
        · rw [if_neg (by omega), if_neg (by omega), if_neg (by omega), add_zero]
      · rw [if_neg (by omega)]
        by_cases c3 : 0 ≤ j
        · rw [if_pos ⟨c3, by omega⟩, if_pos ⟨c3, by omega⟩, zero_add]
        · rw [if_neg (by omega), if_neg (by omega), zero_add]
    · simp only [ha.nil, zero_add]
  · simp only [ha.nil, zero_add]

/-- Put the rows seen before in front of those seen later. -/
def preL (M2 M3 : List (Seen P)) (L : List (Obj P × List (Seen P) × List (Seen P))) : List (Obj P × List (Seen P) × List (Seen P)) :=
  L.map fun v => (v.1, M2 ++ v.2.1, M3 ++ v.2.2)

theorem preL_fst (M2 M3 : List (Seen P)) (L : List (Obj P × List (Seen P) × List (Seen P))) :
    (preL M2 M3 L).map Prod.fst = L.map Prod.fst := by
  unfold preL; rw [List.map_map]; rfl

theorem early_le {Z : ℤ → ℤ → List A} (hp : LogParams p) (mink : ℤ) (maxr : ℝ) : (earlyZeta p Z mink maxr).2 ≤ mink := by
  unfold earlyZeta
  split
  · split
    · rename_i h; exact h.le
    · exact le_rfl
  · exact le_rfl

/-- `multipoleFinish` with any slop. -/
theorem finish2_slop (hp : LogParams p) (hQ1 : Hered Q1) (hQ : Hered Q) (hok : PairOk p Q1 Q near far)
    (hgn : SeenRep p gn Q1 Q Rep) {zeta : Cell P → S → S → ℤ → ℤ → List A} :
    ∀ (n : ℕ) (c1 : Cell P) (lst2 lst3 : List (Cell P)) (mp2 mp3 : S) (M2 M3 : List (Seen P)) (mink : ℤ) (maxr2 maxr3 : ℝ),
      Q1 c1 → mink ≤ p.nbins → (∀ c ∈ lst2, Q c) → (∀ c ∈ lst3, Q c) → Rep mp2 M2 → Rep mp3 M3 →
      (2 * (c1.nodes + listNodes lst2 + listNodes lst3) + 1 < n ∨
        2 * (c1.nodes + listNodes lst2 + listNodes lst3) < n ∧ Prog p gn Rep c1 lst2 lst3 maxr2 maxr3) →
      ∃ out L, multipoleFinish2N p gn zeta n c1 lst2 lst3 mp2 mp3 mink maxr2 maxr3 = some out ∧
        FinOut p near far c1 lst2 lst3 L ∧ ∀ (V : Type) [AddCommMonoid V] (tot : List A → V) (j : ℤ)
          (vo : Obj P → List (Seen P) → List (Seen P) → V), Adds p Q1 Rep zeta tot j vo →
          tot out = if 0 ≤ j ∧ j < mink then (L.map fun v => vo v.1 (M2 ++ v.2.1) (M3 ++ v.2.2)).sum else 0 := by
  intro n
  induction n with
  | zero => intro c1 lst2 lst3 mp2 mp3 M2 M3 mink m2 m3 _ _ _ _ _ _ h; omega
  | succ n ih =>
    intro c1 lst2 lst3 mp2 mp3 M2 M3 mink maxr2 maxr3 hc hmk hl2 hl3 hR2 hR3 hn
    obtain ⟨st2, N2, D2, e2, r2, g2⟩ := foldAny hQ hok hgn hc hl2 (any := false) hR2 maxr2
    obtain ⟨st3, N3, D3, e3, r3, g3⟩ := foldAny hQ hok hgn hc hl3 (any := st2.any) hR3 maxr3
    obtain ⟨a2, b2, d2⟩ := foldOut_split g2
    obtain ⟨a3, b3, d3⟩ := foldOut_split g3
    unfold multipoleFinish2N
    rw [e2]
    simp only
    rw [e3]
    simp only
    by_cases he : st2.lst = [] ∧ st3.lst = []
    · rw [if_pos he]
      rw [he.1, cellRows_nil, add_zero] at b2
      rw [he.2, cellRows_nil, add_zero] at b3
      refine ⟨_, c1.objs.map fun o => (o, N2, N3), rfl, ⟨?_, ?_, ?_, ?_, ?_⟩, ?_⟩
      · rw [List.map_map]; exact List.map_id _
      · intro v hv
        obtain ⟨o, ho, rfl⟩ := List.mem_map.1 hv
        exact ⟨g2.near o ho, D2, b2, g2.far o ho⟩
      · intro v hv
        obtain ⟨o, ho, rfl⟩ := List.mem_map.1 hv
        exact ⟨g3.near o ho, D3, b3, g3.far o ho⟩
      · intro v hv
        obtain ⟨o, ho, rfl⟩ := List.mem_map.1 hv
        exact g2.src
      · intro v hv
        obtain ⟨o, ho, rfl⟩ := List.mem_map.1 hv
        exact g3.src
      · intro V _ tot j vo ha
        rw [ha.eq c1 _ _ _ _ hc r2 r3 0 mink le_rfl hmk, List.map_map]
        rfl
    · rw [if_neg he]
      generalize hM : max st2.maxr st3.maxr = M
      have hM2 : st2.maxr ≤ M := hM ▸ le_max_left _ _
      have hM3 : st3.maxr ≤ M := hM ▸ le_max_right _ _
      have hmk' := (early_le (Z := zeta c1 st2.mp st3.mp) hp mink M).trans hmk
      have ql2 : ∀ c ∈ st2.lst, Q c := fun c h => (a2 c h).1
      have ql3 : ∀ c ∈ st3.lst, Q c := fun c h => (a3 c h).1
      -- what to do with the result of the recursive calls
      have wrap : ∀ (rest : List A) (L : List (Obj P × List (Seen P) × List (Seen P))), L.map Prod.fst = c1.objs →
          (∀ v ∈ L, Sees near far v.1 (cellRows st2.lst) v.2.1) → (∀ v ∈ L, Sees near far v.1 (cellRows st3.lst) v.2.2) →
          (∀ v ∈ L, ∀ m ∈ v.2.1, m.eye ∈ c1.centres ∧ ∃ c ∈ st2.lst, m.spot ∈ c.centres) →
          (∀ v ∈ L, ∀ m ∈ v.2.2, m.eye ∈ c1.centres ∧ ∃ c ∈ st3.lst, m.spot ∈ c.centres) →
          (∀ (V : Type) [AddCommMonoid V] (tot : List A → V) (j : ℤ)
            (vo : Obj P → List (Seen P) → List (Seen P) → V), Adds p Q1 Rep zeta tot j vo →
            tot rest = if 0 ≤ j ∧ j < (earlyZeta p (zeta c1 st2.mp st3.mp) mink M).2 then
              (L.map fun v => vo v.1 (M2 ++ N2 ++ v.2.1) (M3 ++ N3 ++ v.2.2)).sum else 0) →
          ∃ out L', some ((earlyZeta p (zeta c1 st2.mp st3.mp) mink M).1 ++ rest) = some out ∧ FinOut p near far c1 lst2 lst3 L' ∧
            ∀ (V : Type) [AddCommMonoid V] (tot : List A → V) (j : ℤ)
              (vo : Obj P → List (Seen P) → List (Seen P) → V), Adds p Q1 Rep zeta tot j vo →
              tot out = if 0 ≤ j ∧ j < mink then (L'.map fun v => vo v.1 (M2 ++ v.2.1) (M3 ++ v.2.2)).sum else 0 := by
        intro rest L hL s2 s3 k2 k3 hrest
        have hmem : ∀ v ∈ L, v.1 ∈ c1.objs := fun v hv => by rw [← hL]; exact List.mem_map_of_mem hv
        refine ⟨_, preL N2 N3 L, rfl, ⟨by rw [preL_fst, hL], ?_, ?_, ?_, ?_⟩, ?_⟩
        · intro v hv
          obtain ⟨u, hu, rfl⟩ := List.mem_map.1 hv
          exact Sees.append (D := D2) (s2 u hu) (g2.near _ (hmem u hu)) (g2.far _ (hmem u hu)) b2
        · intro v hv
          obtain ⟨u, hu, rfl⟩ := List.mem_map.1 hv
          exact Sees.append (D := D3) (s3 u hu) (g3.near _ (hmem u hu)) (g3.far _ (hmem u hu)) b3
        · intro v hv m hm
          obtain ⟨u, hu, rfl⟩ := List.mem_map.1 hv
          rcases List.mem_append.1 hm with h | h
          · exact g2.src m h
          · obtain ⟨x1, c, hc', x2⟩ := k2 u hu m h
            obtain ⟨-, c2, hc2, x3, -⟩ := a2 c hc'
            exact ⟨x1, c2, hc2, x3 x2⟩
        · intro v hv m hm
          obtain ⟨u, hu, rfl⟩ := List.mem_map.1 hv
          rcases List.mem_append.1 hm with h | h
          · exact g3.src m h
          · obtain ⟨x1, c, hc', x2⟩ := k3 u hu m h
            obtain ⟨-, c2, hc2, x3, -⟩ := a3 c hc'
            exact ⟨x1, c2, hc2, x3 x2⟩
        · intro V _ tot j vo ha
          rw [early_combine hp ha hc r2 r3 hmk hL ?_ (hrest V tot j vo ha)]
          · unfold preL
            rw [List.map_map]
            simp only [Function.comp_def, List.append_assoc]
          · intro v hv m hm
            rcases List.mem_append.1 hm with h | h
            · obtain ⟨x1, c, hc', x2⟩ := k2 v hv m h
              obtain ⟨-, c2, hc2, x3, x4⟩ := a2 c hc'
              exact (x4 _ x1 _ (x3 x2)).trans hM2
            · obtain ⟨x1, c, hc', x2⟩ := k3 v hv m h
              obtain ⟨-, c2, hc2, x3, x4⟩ := a3 c hc'
              exact (x4 _ x1 _ (x3 x2)).trans hM3
      cases hany : st3.any with
      | true =>
        simp only [if_true]
        have hsz : 0 < c1.size := by
          rcases g3.anySize hany with h | h
          · rcases g2.anySize h with h | h
            · cases h
            · exact h
          · exact h
        obtain ⟨l, r, hlr⟩ := children_of_size hsz
        obtain ⟨ql, qr⟩ := children_hered hQ1 hlr hc
        obtain ⟨cl, cr⟩ := children_centres hlr
        rw [hlr]
        simp only
        have hnn := children_nodes hlr
        have pl := nodes_pos l
        have pr := nodes_pos r
        obtain ⟨oa, La, ea, fa, ta⟩ := ih l st2.lst st3.lst st2.mp st3.mp (M2 ++ N2) (M3 ++ N3) _ st2.maxr st3.maxr ql hmk' ql2 ql3 r2 r3
          (.inl (by omega))
        obtain ⟨ob, Lb, eb, fb, tb⟩ := ih r st2.lst st3.lst st2.mp st3.mp (M2 ++ N2) (M3 ++ N3) _ st2.maxr st3.maxr qr hmk' ql2 ql3 r2 r3
          (.inl (by omega))
        rw [ea, eb]
        simp only
        apply wrap (oa ++ ob) (La ++ Lb)
        · rw [List.map_append, fa.fst, fb.fst, children_objs hlr]
        · intro v hv
          rcases List.mem_append.1 hv with h | h
          · exact fa.sees2 v h
          · exact fb.sees2 v h
        · intro v hv
          rcases List.mem_append.1 hv with h | h
          · exact fa.sees3 v h
          · exact fb.sees3 v h
        · intro v hv m hm
          rcases List.mem_append.1 hv with h | h
          · exact ⟨cl (fa.reach2 v h m hm).1, (fa.reach2 v h m hm).2⟩
          · exact ⟨cr (fb.reach2 v h m hm).1, (fb.reach2 v h m hm).2⟩
        · intro v hv m hm
          rcases List.mem_append.1 hv with h | h
          · exact ⟨cl (fa.reach3 v h m hm).1, (fa.reach3 v h m hm).2⟩
          · exact ⟨cr (fb.reach3 v h m hm).1, (fb.reach3 v h m hm).2⟩
        · intro V _ tot j vo ha
          rw [ha.append, ta V tot j vo ha, tb V tot j vo ha, List.map_append, List.sum_append]
          split <;> simp
      | false =>
        simp only [Bool.false_eq_true, if_false]
        have hnext : 2 * (c1.nodes + listNodes st2.lst + listNodes st3.lst) + 1 < n ∨
            2 * (c1.nodes + listNodes st2.lst + listNodes st3.lst) < n ∧ Prog p gn Rep c1 st2.lst st3.lst st2.maxr st3.maxr := by
          by_cases hlt : listNodes st2.lst + listNodes st3.lst < listNodes lst2 + listNodes lst3
          · left; rcases hn with h | h <;> omega
          · right
            have n2 : listNodes st2.lst = listNodes lst2 := by omega
            have n3 : listNodes st3.lst = listNodes lst3 := by omega
            have l2 : st2.lst = lst2 := (g2.stuck (by simpa [listNodes_nil] using n2)).1
            have l3 : st3.lst = lst3 := (g3.stuck (by simpa [listNodes_nil] using n3)).1
            refine ⟨?_, ?_⟩
            · rcases hn with h | ⟨-, h⟩
              · omega
              · rcases h mp2 mp3 M2 M3 st2 st3 hR2 hR3 e2 e3 with h | h
                · rw [hany] at h; cases h
                · omega
            · intro mp2' mp3' M2' M3' st2' st3' hR2' hR3' e2' e3'
              left
              rw [l2] at e2'
              rw [l3] at e3'
              obtain ⟨u3, M3'', D3', k3, -, g3'⟩ := foldAny hQ hok hgn hc hl3 (any := st2'.any) hR3' st3.maxr
              rw [e3'] at k3; cases k3
              by_cases hz2 : lst2 = []
              · have hz3 : lst3 ≠ [] := by
                  rintro rfl
                  exact he ⟨by rw [l2, hz2], l3⟩
                exact stuck_next hp hQ hok hgn hc hl3 hz3 g3 n3 hR3' e3'
              · have hx := stuck_next hp hQ hok hgn hc hl2 hz2 g2 n2 hR2' e2'
                exact g3'.anyMono hx
        obtain ⟨oa, La, ea, fa, ta⟩ := ih c1 st2.lst st3.lst st2.mp st3.mp (M2 ++ N2) (M3 ++ N3) _ st2.maxr st3.maxr hc hmk' ql2 ql3 r2 r3
          hnext
        rw [ea]
        simp only
        exact wrap oa La fa.fst fa.sees2 fa.sees3 fa.reach2 fa.reach3 ta


/-- `splitC2Cells` with any slop: the rows it drops are far. -/
theorem splitC2Cells_slop (hQ : Hered Q) (hok : PairOk p Q1 Q near far) {c1 : Cell P} (hc : Q1 c1) (lst : List (Cell P))
    (hl : ∀ c ∈ lst, Q c) :
    ∃ new D, splitC2Cells p c1 lst = some new ∧ (∀ c ∈ new, Q c) ∧ D + cellRows new = cellRows lst ∧
      ∀ o1 ∈ c1.objs, ∀ o ∈ D, far o1 o := by
  unfold splitC2Cells
  induction lst with
  | nil => exact ⟨[], 0, rfl, by simp, by simp [cellRows_nil], by simp⟩
  | cons c2 cs ih =>
    obtain ⟨new, D, h1, h2, h3, h4⟩ := ih (fun c h => hl c (by simp [h]))
    have q2 := hl c2 (by simp)
    have key : ∃ a D', splitC2One p c1 c2 = some a ∧ (∀ c ∈ a, Q c) ∧ D' + cellRows a = (c2.objs : Multiset (Obj P)) ∧
        ∀ o1 ∈ c1.objs, ∀ o ∈ D', far o1 o := by
      unfold splitC2One
      split
      · rename_i ho
        refine ⟨[], c2.objs, rfl, by simp, by simp [cellRows_nil], ?_⟩
        intro o1 ho1 o ho2
        exact hok.skip c1 c2 hc q2 (by unfold mpPair; simp only; rw [if_pos ho]) o1 ho1 o (Multiset.mem_coe.1 ho2)
      · split
        · rename_i hs
          obtain ⟨l, r, hlr⟩ := children_of_size (lt_of_le_of_lt (hok.size1 _ hc) hs.2)
          rw [hlr]
          obtain ⟨ql, qr⟩ := children_hered hQ hlr q2
          refine ⟨[l, r], 0, rfl, by simp [ql, qr], ?_, by simp⟩
          rw [cellRows_cons, cellRows_cons, cellRows_nil, children_objs hlr, add_zero, ← Multiset.coe_add, zero_add]
        · exact ⟨[c2], 0, rfl, by simpa using q2, by rw [cellRows_cons, cellRows_nil, add_zero, zero_add], by simp⟩
    obtain ⟨a, D', e1, e2, e3, e4⟩ := key
    refine ⟨a ++ new, D' + D, by simp [concatM, e1, h1], ?_, ?_, ?_⟩
    · intro c hc
      rcases List.mem_append.1 hc with h | h
      · exact e2 c h
      · exact h2 c h
    · rw [cellRows_append, cellRows_cons, ← e3, ← h3]; abel
    · intro o1 ho1 o ho
      rcases Multiset.mem_add.1 ho with h | h
      · exact e4 o1 ho1 o h
      · exact h4 o1 ho1 o h

theorem Sees.drop {o : Obj P} {r2 rows D : Multiset (Obj P)} {M : List (Seen P)} (h : Sees near far o r2 M) (hf : ∀ x ∈ D, far o x)
    (hr : D + r2 = rows) : Sees near far o rows M := by
  have := Sees.append (M1 := []) (D := D) (rows := rows) h (by simp) hf (by simpa using hr)
  simpa using this

/-- One view per row: what the row sees of the two other catalogues. -/
structure Views (near : Obj P → Seen P → Prop) (far : Obj P → Obj P → Prop) (rows1 : List (Obj P)) (rows2 rows3 : Multiset (Obj P))
    (L : List (Obj P × List (Seen P) × List (Seen P))) : Prop where
  fst : L.map Prod.fst = rows1
  sees2 : ∀ v ∈ L, Sees near far v.1 rows2 v.2.1
  sees3 : ∀ v ∈ L, Sees near far v.1 rows3 v.2.2

theorem Views.append {r1 r1' : List (Obj P)} {r2 r3 : Multiset (Obj P)} {L L' : List (Obj P × List (Seen P) × List (Seen P))}
    (h : Views near far r1 r2 r3 L) (h' : Views near far r1' r2 r3 L') : Views near far (r1 ++ r1') r2 r3 (L ++ L') := by
  refine ⟨by rw [List.map_append, h.fst, h'.fst], ?_, ?_⟩
  · intro v hv
    rcases List.mem_append.1 hv with k | k
    · exact h.sees2 v k
    · exact h'.sees2 v k
  · intro v hv
    rcases List.mem_append.1 hv with k | k
    · exact h.sees3 v k
    · exact h'.sees3 v k

theorem Views.drop {r1 : List (Obj P)} {r2 r3 D2 D3 r2' r3' : Multiset (Obj P)} {L : List (Obj P × List (Seen P) × List (Seen P))}
    (h : Views near far r1 r2 r3 L) (h2 : ∀ o ∈ r1, ∀ x ∈ D2, far o x) (h3 : ∀ o ∈ r1, ∀ x ∈ D3, far o x)
    (e2 : D2 + r2 = r2') (e3 : D3 + r3 = r3') : Views near far r1 r2' r3' L := by
  have hm : ∀ v ∈ L, v.1 ∈ r1 := fun v hv => by rw [← h.fst]; exact List.mem_map_of_mem hv
  exact ⟨h.fst, fun v hv => (h.sees2 v hv).drop (h2 _ (hm v hv)) e2, fun v hv => (h.sees3 v hv).drop (h3 _ (hm v hv)) e3⟩

/-- What a run gives for every quantity added up. -/
def RunSums (p : Params) (Q1 : Cell P → Prop) (Rep : S → List (Seen P) → Prop) (zeta : Cell P → S → S → ℤ → ℤ → List A)
    (L : List (Obj P × List (Seen P) × List (Seen P))) (out : List A) : Prop :=
  ∀ (V : Type) [AddCommMonoid V] (tot : List A → V) (j : ℤ) (vo : Obj P → List (Seen P) → List (Seen P) → V),
    Adds p Q1 Rep zeta tot j vo → tot out = if 0 ≤ j ∧ j < p.nbins then (L.map fun v => vo v.1 v.2.1 v.2.2).sum else 0

theorem RunSums.append {zeta : Cell P → S → S → ℤ → ℤ → List A} {L L' : List (Obj P × List (Seen P) × List (Seen P))} {a b : List A}
    (h : RunSums p Q1 Rep zeta L a) (h' : RunSums p Q1 Rep zeta L' b) : RunSums p Q1 Rep zeta (L ++ L') (a ++ b) := by
  intro V _ tot j vo ha
  rw [ha.append, h V tot j vo ha, h' V tot j vo ha, List.map_append, List.sum_append]
  split <;> simp

theorem finish_slop (hp : LogParams p) (hQ1 : Hered Q1) (hQ : Hered Q) (hok : PairOk p Q1 Q near far)
    (hgn : SeenRep p gn Q1 Q Rep) {zeta : Cell P → S → S → ℤ → ℤ → List A} {clear : S} (h0 : Rep clear []) {c1 : Cell P}
    (hc : Q1 c1) {lst2 lst3 : List (Cell P)} (h2 : ∀ c ∈ lst2, Q c) (h3 : ∀ c ∈ lst3, Q c) :
    ∃ out L, multipoleFinish2 p gn zeta c1 lst2 lst3 clear clear p.nbins 0 0 = some out ∧
      Views near far c1.objs (cellRows lst2) (cellRows lst3) L ∧ RunSums p Q1 Rep zeta L out := by
  obtain ⟨out, L, e, f, t⟩ := finish2_slop hp hQ1 hQ hok hgn (zeta := zeta)
    (2 * (c1.nodes + listNodes lst2 + listNodes lst3) + 2) c1 lst2 lst3 clear clear [] [] p.nbins 0 0 hc le_rfl h2 h3 h0 h0
    (.inl (by omega))
  exact ⟨out, L, e, ⟨f.fst, f.sees2, f.sees3⟩, t⟩

theorem effBSq_nonneg : ¬ ((0 : ℝ) ^ 2 > (logBin P).effBSq (p.maxsep ^ 2) p) := by
  simp only [logBin]
  have : 0 ≤ min (p.b ^ 2) (p.a ^ 2) := le_min (sq_nonneg _) (sq_nonneg _)
  have := mul_nonneg (sq_nonneg p.maxsep) this
  simp only [not_lt, gt_iff_lt]
  nlinarith

/-- `multipoleSplit1` with any slop. -/
theorem split12_slop (hp : LogParams p) (hQ1 : Hered Q1) (hQ : Hered Q) (hok : PairOk p Q1 Q near far)
    (hgn : SeenRep p gn Q1 Q Rep) {zeta : Cell P → S → S → ℤ → ℤ → List A} {clear : S} (h0 : Rep clear []) (c1 : Cell P) :
    ∀ (lst2 lst3 : List (Cell P)), Q1 c1 → (∀ c ∈ lst2, Q c) → (∀ c ∈ lst3, Q c) →
    ∃ out L, multipoleSplit12 p gn zeta clear c1 lst2 lst3 = some out ∧
      Views near far c1.objs (cellRows lst2) (cellRows lst3) L ∧ RunSums p Q1 Rep zeta L out := by
  induction c1 with
  | leaf d os =>
    intro lst2 lst3 hc h2 h3
    obtain ⟨new2, D2, a1, a2, a3, a4⟩ := splitC2Cells_slop hQ hok hc lst2 h2
    obtain ⟨new3, D3, b1, b2, b3, b4⟩ := splitC2Cells_slop hQ hok hc lst3 h3
    unfold multipoleSplit12
    rw [a1, b1]
    simp only
    rw [if_neg effBSq_nonneg]
    obtain ⟨out, L, e, v, t⟩ := finish_slop hp hQ1 hQ hok hgn (zeta := zeta) h0 hc a2 b2
    exact ⟨out, L, e, v.drop a4 b4 a3 b3, t⟩
  | node d s l r ihl ihr =>
    intro lst2 lst3 hc h2 h3
    obtain ⟨new2, D2, a1, a2, a3, a4⟩ := splitC2Cells_slop hQ hok hc lst2 h2
    obtain ⟨new3, D3, b1, b2, b3, b4⟩ := splitC2Cells_slop hQ hok hc lst3 h3
    unfold multipoleSplit12
    rw [a1, b1]
    simp only
    split
    · obtain ⟨ql, qr⟩ := hQ1 _ _ _ _ hc
      obtain ⟨oa, La, ea, va, ta⟩ := ihl new2 new3 ql a2 b2
      obtain ⟨ob, Lb, eb, vb, tb⟩ := ihr new2 new3 qr a2 b2
      rw [ea, eb]
      refine ⟨oa ++ ob, La ++ Lb, rfl, ?_, ta.append tb⟩
      exact (va.append vb).drop a4 b4 a3 b3
    · obtain ⟨out, L, e, v, t⟩ := finish_slop hp hQ1 hQ hok hgn (zeta := zeta) h0 hc a2 b2
      exact ⟨out, L, e, v.drop a4 b4 a3 b3, t⟩

/-- The whole run over two lists, with any slop. -/
theorem run2_slop (hp : LogParams p) (hQ1 : Hered Q1) (hQ : Hered Q) (hok : PairOk p Q1 Q near far)
    (hgn : SeenRep p gn Q1 Q Rep) {zeta : Cell P → S → S → ℤ → ℤ → List A} {clear : S} (h0 : Rep clear []) (cells2 cells3 : List (Cell P))
    (h2 : ∀ c ∈ cells2, Q c) (h3 : ∀ c ∈ cells3, Q c) (cells1 : List (Cell P)) (h1 : ∀ c ∈ cells1, Q1 c) :
    ∃ out L, multipoleRun2 p gn zeta clear cells1 cells2 cells3 = some out ∧
      Views near far (objsOf cells1) (cellRows cells2) (cellRows cells3) L ∧ RunSums p Q1 Rep zeta L out := by
  unfold multipoleRun2
  induction cells1 with
  | nil =>
    refine ⟨[], [], rfl, ⟨rfl, by simp, by simp⟩, ?_⟩
    intro V _ tot j vo ha
    rw [ha.nil]; simp
  | cons c cs ih =>
    obtain ⟨b, Lb, b1, b2, b3⟩ := ih (fun c h => h1 c (by simp [h]))
    obtain ⟨a, La, a1, a2, a3⟩ := split12_slop hp hQ1 hQ hok hgn (zeta := zeta) h0 c cells2 cells3 (h1 c (by simp)) h2 h3
    exact ⟨a ++ b, La ++ Lb, by simp [concatM, a1, b1], a2.append b2, a3.append b3⟩

/-! ### One list: as two lists of which the second is empty -/

theorem gnFold_maxr (p : Params) (gn : Cell P → Cell P → ℝ → ℝ → ℤ → S → S) (c1 : Cell P) (t : ℝ) (lst : List (Cell P)) :
    ∀ (st st' : MpStep P S), lst.foldlM (gnOne p gn c1 t) st = some st' → st.maxr ≤ st'.maxr := by
  induction lst with
  | nil => intro st st' h; cases h; exact le_rfl
  | cons c cs ih =>
    intro st st' h
    rw [List.foldlM_cons] at h
    cases hm : gnOne p gn c1 t st c with
    | none => rw [hm] at h; cases h
    | some u =>
      rw [hm] at h
      refine le_trans ?_ (ih u st' h)
      unfold gnOne at hm
      split at hm
      · cases hm; exact le_rfl
      · cases hm; exact le_rfl
      · simp only at hm
        split at hm
        · split at hm
          · cases hm
          · cases hm; exact le_max_right _ _
        · cases hm; exact le_max_right _ _

theorem finish_one (p : Params) (gn : Cell P → Cell P → ℝ → ℝ → ℤ → S → S) (zeta : Cell P → S → ℤ → ℤ → List A) (mp3 : S) :
    ∀ (n : ℕ) (c1 : Cell P) (lst : List (Cell P)) (mp : S) (mink : ℤ) (maxr maxr3 : ℝ),
      multipoleFinish2N p gn (fun c a _ => zeta c a) n c1 lst [] mp mp3 mink maxr maxr3 = multipoleFinishN p gn zeta n c1 lst mp mink maxr := by
  intro n
  induction n with
  | zero => intros; rfl
  | succ n ih =>
    intro c1 lst mp mink maxr maxr3
    unfold multipoleFinish2N multipoleFinishN
    cases h : splitOrGn p gn c1 lst false mp maxr with
    | none => rfl
    | some st =>
      have h0 : max st.maxr 0 = st.maxr := by
        have := gnFold_maxr p gn c1 _ lst _ _ h
        exact max_eq_left this
      have e : splitOrGn p gn c1 [] st.any mp3 maxr3 = some { lst := [], any := st.any, mp := mp3, maxr := 0 } := rfl
      simp only [e, h0, and_true]
      simp only [ih]

theorem run_one (p : Params) (gn : Cell P → Cell P → ℝ → ℝ → ℤ → S → S) (zeta : Cell P → S → ℤ → ℤ → List A) (clear : S)
    (cells1 cells2 : List (Cell P)) :
    multipoleRun2 p gn (fun c a _ => zeta c a) clear cells1 cells2 [] = multipoleRun p gn zeta clear cells1 cells2 := by
  unfold multipoleRun2 multipoleRun
  congr 1
  funext c1
  have key : ∀ (c1 : Cell P) (lst : List (Cell P)),
      multipoleSplit12 p gn (fun c a _ => zeta c a) clear c1 lst [] = multipoleSplit1 p gn zeta clear c1 lst := by
    intro c1
    have ee : ∀ c : Cell P, splitC2Cells p c [] = some [] := fun _ => rfl
    induction c1 with
    | leaf d os =>
      intro lst
      unfold multipoleSplit12 multipoleSplit1
      rw [ee]
      cases splitC2Cells p (.leaf d os) lst with
      | none => rfl
      | some new =>
        simp only [multipoleFinish2, multipoleFinish, finish_one, listNodes_nil, add_zero]
    | node d s l r ihl ihr =>
      intro lst
      unfold multipoleSplit12 multipoleSplit1
      rw [ee]
      cases splitC2Cells p (.node d s l r) lst with
      | none => rfl
      | some new =>
        simp only [multipoleFinish2, multipoleFinish, finish_one, listNodes_nil, add_zero, ihl, ihr]
  exact key c1 cells2


end

end TreeCorr
