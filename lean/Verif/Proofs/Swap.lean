import Verif.Proofs.Parallel
import Verif.Proofs.Loops
import Verif.Proofs.LogDecide
import Verif.Proofs.LogBin
import Verif.Proofs.LinearExact
import Verif.Proofs.Cov

/-! Exchanging the two catalogues of a cross-correlation. -/

namespace TreeCorr
open Classical
variable {P : Type}

/-- The call with the two cells exchanged. -/
def Emit.swap (e : Emit P) : Emit P := { e with c1 := e.c2, c2 := e.c1 }

/-- The action with the two cells exchanged. -/
def Action.swap : Action P → Action P
  | .drop => .drop
  | .direct e => .direct e.swap
  | .split a b => .split b a

/-- The outcome `b` is the outcome `a` up to the order of the calls, with the cells exchanged. -/
def SwapOf (a b : Option (List (Emit P))) : Prop :=
  match a, b with
  | none, none => True
  | some es, some fs => fs.Perm (es.map Emit.swap)
  | _, _ => False

theorem SwapOf.nil : SwapOf (P := P) (some []) (some []) := by simp [SwapOf]

theorem SwapOf.append {a b c d : Option (List (Emit P))} (h1 : SwapOf a b) (h2 : SwapOf c d) :
    SwapOf (a.bind fun x => c.bind fun y => some (x ++ y)) (b.bind fun x => d.bind fun y => some (x ++ y)) := by
  cases a <;> cases b <;> simp only [SwapOf] at h1 <;> try trivial
  cases c <;> cases d <;> simp only [SwapOf] at h2 <;> try trivial
  simp only [SwapOf, Option.bind_some, List.map_append]
  exact h1.append h2

theorem SwapOf.append4 {a b c d a' b' c' d' : Option (List (Emit P))} (h1 : SwapOf a a') (h2 : SwapOf b b')
    (h3 : SwapOf c c') (h4 : SwapOf d d') :
    SwapOf (a.bind fun a => b.bind fun b => c.bind fun c => d.bind fun d => some (a ++ b ++ c ++ d))
      (a'.bind fun a => c'.bind fun c => b'.bind fun b => d'.bind fun d => some (a ++ c ++ b ++ d)) := by
  cases a <;> cases a' <;> simp only [SwapOf] at h1 <;> try trivial
  cases b <;> cases b' <;> simp only [SwapOf] at h2 <;> try trivial
  · cases c' <;> trivial
  cases c <;> cases c' <;> simp only [SwapOf] at h3 <;> try trivial
  cases d <;> cases d' <;> simp only [SwapOf] at h4 <;> try trivial
  simp only [SwapOf, Option.bind_some, List.map_append, List.append_assoc]
  apply h1.append
  refine List.Perm.trans ?_ (List.perm_append_comm_assoc _ _ _)
  exact h3.append (h2.append h4)

theorem process11_swap (act : Cell P → Cell P → Action P) {Q : Cell P → Prop} (hQ : Hered Q)
    (hs : ∀ a b, Q a → Q b → act b a = (act a b).swap)
    (hff : ∀ a b, act a b ≠ .split false false) (c1 c2 : Cell P) : Q c1 → Q c2 → SwapOf (process11 act c1 c2) (process11 act c2 c1) := by
  induction c1, c2 using process11.induct (act := act) with
  | case1 c1 c2 h =>
    intro h1 h2
    have h' : act c2 c1 = .drop := by rw [hs _ _ h1 h2, h]; rfl
    rw [process11.eq_def act c1, process11.eq_def act c2, h, h']
    exact SwapOf.nil
  | case2 c1 c2 e h =>
    intro h1 h2
    have h' : act c2 c1 = .direct e.swap := by rw [hs _ _ h1 h2, h]; rfl
    rw [process11.eq_def act c1, process11.eq_def act c2, h, h']
    simp [SwapOf]
  | case3 d1 s1 l1 r1 d2 s2 l2 r2 h i1 i2 i3 i4 =>
    intro h1 h2
    have h' : act (.node d2 s2 l2 r2) (.node d1 s1 l1 r1) = .split true true := by rw [hs _ _ h1 h2, h]; rfl
    rw [process11.eq_def act (.node d1 s1 l1 r1), process11.eq_def act (.node d2 s2 l2 r2), h, h']
    have q1 := hQ _ _ _ _ h1
    have q2 := hQ _ _ _ _ h2
    exact SwapOf.append4 (i1 q1.1 q2.1) (i2 q1.1 q2.2) (i3 q1.2 q2.1) (i4 q1.2 q2.2)
  | case4 c1 c2 h hx =>
    intro h1 h2
    have h' : act c2 c1 = .split true true := by rw [hs _ _ h1 h2, h]; rfl
    rw [process11.eq_def act c1, process11.eq_def act c2, h, h']
    clear h h' hs
    cases c1 <;> cases c2 <;> first | trivial | exact (hx _ _ _ _ _ _ _ _ rfl rfl).elim
  | case5 c2 d s l1 r1 h i1 i2 =>
    intro h1 h2
    have h' : act c2 (.node d s l1 r1) = .split false true := by rw [hs _ _ h1 h2, h]; rfl
    rw [process11.eq_def act (.node d s l1 r1), process11.eq_def act c2, h, h']
    have q1 := hQ _ _ _ _ h1
    exact SwapOf.append (i1 q1.1 h2) (i2 q1.2 h2)
  | case6 c1 c2 h hx =>
    intro h1 h2
    have h' : act c2 c1 = .split false true := by rw [hs _ _ h1 h2, h]; rfl
    rw [process11.eq_def act c1, process11.eq_def act c2, h, h']
    clear h h' hs
    cases c1 <;> first | trivial | exact (hx _ _ _ _ rfl).elim
  | case7 c1 b d s l2 r2 h i1 i2 =>
    intro h1 h2
    cases b with
    | false => exact (hff _ _ h).elim
    | true =>
      have h' : act (.node d s l2 r2) c1 = .split true false := by rw [hs _ _ h1 h2, h]; rfl
      rw [process11.eq_def act c1, process11.eq_def act (.node d s l2 r2), h, h']
      have q2 := hQ _ _ _ _ h2
      exact SwapOf.append (i1 h1 q2.1) (i2 h1 q2.2)
  | case8 c1 c2 b h hx =>
    intro h1 h2
    cases b with
    | false => exact (hff _ _ h).elim
    | true =>
      have h' : act c2 c1 = .split true false := by rw [hs _ _ h1 h2, h]; rfl
      rw [process11.eq_def act c1, process11.eq_def act c2, h, h']
      clear h h' hs
      cases c2 <;> first | trivial | exact (hx _ _ _ _ rfl).elim

theorem flatMap_comm_perm {α β γ : Type} (F : α → β → List γ) (xs : List α) (ys : List β) :
    (ys.flatMap fun b => xs.flatMap fun a => F a b).Perm (xs.flatMap fun a => ys.flatMap fun b => F a b) := by
  have := Multiset.bind_bind (xs : Multiset α) (ys : Multiset β) (f := fun a b => (F a b : Multiset γ))
  rw [← Multiset.coe_eq_coe]
  simpa [Multiset.coe_bind] using this.symm

/-- The double loop with the cells exchanged. -/
theorem crossLoop_swap (act : Cell P → Cell P → Action P) {Q : Cell P → Prop} (hQ : Hered Q)
    (hs : ∀ a b, Q a → Q b → act b a = (act a b).swap)
    (hff : ∀ a b, act a b ≠ .split false false) (cs1 cs2 : List (Cell P)) (hq1 : ∀ c ∈ cs1, Q c)
    (hq2 : ∀ c ∈ cs2, Q c) {es : List (Emit P)} (h : processCrossLoop act cs1 cs2 = some es) :
    ∃ fs, processCrossLoop act cs2 cs1 = some fs ∧ fs.Perm (es.map Emit.swap) := by
  have hall : ∀ a ∈ cs1, ∀ b ∈ cs2, ∃ l, process11 act a b = some l := by
    intro a ha b hb
    by_contra hcon
    have hn : process11 act a b = none := by
      cases hp : process11 act a b with
      | none => rfl
      | some l => exact (hcon ⟨l, hp⟩).elim
    have h1 : processCrossRow act a cs2 = none := by
      rw [processCrossRow, mapM_none _ _ ⟨b, hb, hn⟩]; rfl
    have h2 : processCrossLoop act cs1 cs2 = none := by
      rw [processCrossLoop, mapM_none _ _ ⟨a, ha, h1⟩]; rfl
    rw [h2] at h
    cases h
  let F : Cell P → Cell P → List (Emit P) := fun a b => (process11 act a b).getD []
  have hF : ∀ a ∈ cs1, ∀ b ∈ cs2, process11 act a b = some (F a b) := by
    intro a ha b hb
    obtain ⟨l, hl⟩ := hall a ha b hb
    simp [F, hl]
  have hG : ∀ a ∈ cs1, ∀ b ∈ cs2, ∃ l, process11 act b a = some l ∧ l.Perm ((F a b).map Emit.swap) := by
    intro a ha b hb
    have := process11_swap act hQ hs hff a b (hq1 a ha) (hq2 b hb)
    rw [hF a ha b hb] at this
    cases hp : process11 act b a with
    | none => rw [hp] at this; exact this.elim
    | some l => rw [hp] at this; exact ⟨l, rfl, this⟩
  let G : Cell P → Cell P → List (Emit P) := fun a b => (process11 act b a).getD []
  have hG1 : ∀ a ∈ cs1, ∀ b ∈ cs2, process11 act b a = some (G a b) := by
    intro a ha b hb
    obtain ⟨l, hl, _⟩ := hG a ha b hb
    simp [G, hl]
  have hG2 : ∀ a ∈ cs1, ∀ b ∈ cs2, (G a b).Perm ((F a b).map Emit.swap) := by
    intro a ha b hb
    obtain ⟨l, hl, hp⟩ := hG a ha b hb
    simpa [G, hl] using hp
  have e1 : es = cs1.flatMap fun a => cs2.flatMap fun b => F a b := by
    have r : ∀ a ∈ cs1, processCrossRow act a cs2 = some (cs2.flatMap fun b => F a b) := by
      intro a ha
      rw [processCrossRow, mapM_some _ (F a) _ (hF a ha)]
      rfl
    rw [processCrossLoop, mapM_some _ _ _ r] at h
    simp only [Option.bind_eq_bind, Option.bind_some, Option.pure_def, Option.some.injEq] at h
    rw [← h]
    rfl
  have e2 : processCrossLoop act cs2 cs1 = some (cs2.flatMap fun b => cs1.flatMap fun a => G a b) := by
    have r : ∀ b ∈ cs2, processCrossRow act b cs1 = some (cs1.flatMap fun a => G a b) := by
      intro b hb
      rw [processCrossRow, mapM_some _ (fun a => G a b) _ (fun a ha => hG1 a ha b hb)]
      rfl
    rw [processCrossLoop, mapM_some _ _ _ r]
    rfl
  refine ⟨_, e2, ?_⟩
  rw [e1, List.map_flatMap]
  refine (flatMap_comm_perm G cs1 cs2).trans ?_
  apply List.Perm.flatMap_left
  intro a ha
  rw [List.map_flatMap]
  apply List.Perm.flatMap_left
  intro b hb
  exact hG2 a ha b hb

theorem calcSplitSq_zero_swap (s1 s2 : ℝ) (h1 : 0 ≤ s1) (h2 : 0 ≤ s2) (h : s1 + s2 ≠ 0) :
    calcSplitSq s2 s1 0 = ((calcSplitSq s1 s2 0).2, (calcSplitSq s1 s2 0).1) := by
  unfold calcSplitSq
  rcases lt_trichotomy s1 s2 with hl | he | hg
  · have n : ¬ s1 > s2 := not_lt.2 hl.le
    simp only [gt_iff_lt] at n
    simp only [gt_iff_lt, n, hl, if_true, if_false]
    split <;> rfl
  · subst he
    have hp : 0 < s1 := lt_of_le_of_ne h1 (by intro h0; apply h; rw [← h0]; norm_num)
    have hpp : 0 < s1 * s1 := mul_pos hp hp
    have n : ¬ 2 * s1 < s1 := by linarith
    simp [hpp, n]
  · have n : ¬ s2 > s1 := not_lt.2 hg.le
    simp only [gt_iff_lt] at n
    simp only [gt_iff_lt, n, hg, if_true, if_false]
    split <;> rfl

theorem calcSplitSq_ne (s1 s2 bsq : ℝ) : ((calcSplitSq s1 s2 bsq).1, (calcSplitSq s1 s2 bsq).2) ≠ (false, false) := by
  unfold calcSplitSq
  split <;> split <;> simp

theorem decide11_not_ff (B : BinHelper P) (M : MetricHelper P) (prm : Params) (R : Bool) (a b : Cell P) :
    decide11 B M prm R a b ≠ .split false false := by
  unfold decide11
  split
  · simp
  simp only
  split
  · simp
  split
  · simp
  split
  · simp
  split
  · split <;> simp
  · intro h
    injection h with h1 h2
    exact calcSplitSq_ne _ _ _ (Prod.ext h1 h2)

/-- Bins that depend on the separation only. -/
structure Radial (B : BinHelper P) : Prop where
  inRange : ∀ rsq p q prm, B.inRange rsq p q prm ↔ B.inRange rsq q p prm
  binK : ∀ p q r logr prm, B.binK p q r logr prm = B.binK q p r logr prm
  singleBin : ∀ rsq s p q prm, B.singleBin rsq s p q prm = B.singleBin rsq s q p prm

theorem radial_log : Radial (logBin P) := ⟨fun _ _ _ _ => Iff.rfl, fun _ _ _ _ _ => rfl, fun _ _ _ _ _ => rfl⟩
theorem radial_linear : Radial (linearBin P) :=
  ⟨fun _ _ _ _ => Iff.rfl, fun _ _ _ _ _ => rfl, fun _ _ _ _ _ => rfl⟩

/-- With radial bins and a symmetric distance the decision is symmetric, as long as no two cells of equal size
get different treatment (`hsplit`). -/
theorem decide11_swap [PseudoMetricSpace P] {B : BinHelper P} (hB : Radial B) (prm : Params)
    (a b : Cell P)
    (hsplit : B.singleBin (dist a.pos b.pos ^ 2) (a.size + b.size) a.pos b.pos prm = none →
      calcSplitSq b.size a.size (B.effBSq (dist a.pos b.pos ^ 2) prm)
        = ((calcSplitSq a.size b.size (B.effBSq (dist a.pos b.pos ^ 2) prm)).2,
           (calcSplitSq a.size b.size (B.effBSq (dist a.pos b.pos ^ 2) prm)).1)) :
    decide11 B (plainMetric P) prm false b a = (decide11 B (plainMetric P) prm false a b).swap := by
  have hd : dist b.pos a.pos = dist a.pos b.pos := dist_comm _ _
  have hsz : b.size + a.size = a.size + b.size := add_comm _ _
  rw [decide11_plain, decide11_plain, hd, hsz, hB.singleBin _ _ b.pos a.pos]
  by_cases hw : a.w = 0 ∨ b.w = 0
  · rw [if_pos hw, if_pos hw.symm]; rfl
  rw [if_neg hw, if_neg (fun h => hw h.symm)]
  split
  · rfl
  split
  · rfl
  cases hsb : B.singleBin (dist a.pos b.pos ^ 2) (a.size + b.size) a.pos b.pos prm with
  | none =>
    simp only [Action.swap]
    rw [hsplit hsb]
  | some o =>
    simp only
    by_cases hin : B.inRange (dist a.pos b.pos ^ 2) a.pos b.pos prm
    · rw [if_pos hin, if_pos ((hB.inRange _ _ _ _).1 hin)]
      simp only [Action.swap, Emit.swap, directProcess11]
      simp [hB.binK a.pos b.pos]
    · rw [if_neg hin, if_neg (fun h => hin ((hB.inRange _ _ _ _).2 h))]
      rfl

end TreeCorr
