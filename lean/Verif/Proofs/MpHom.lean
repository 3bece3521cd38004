import Verif.Model.Multipole

/-! The traversal of the multipole algorithm does not look at the scratch arrays: a part of them can be followed by itself. -/

namespace TreeCorr
open Classical
variable {P : Type} [PseudoMetricSpace P] {S S' A A' : Type} {p : Params}
  {gn : Cell P → Cell P → ℝ → ℝ → ℤ → S → S} {gn' : Cell P → Cell P → ℝ → ℝ → ℤ → S' → S'} {π : S → S'} {ρ : A → A'}

/-- The variables of the loop with the part of the scratch arrays. -/
def MpStep.part (π : S → S') (st : MpStep P S) : MpStep P S' := ⟨st.lst, st.any, π st.mp, st.maxr⟩

theorem gnOne_part (hgn : ∀ c1 c2 r logr k mp, gn' c1 c2 r logr k (π mp) = π (gn c1 c2 r logr k mp)) (c1 : Cell P) (t : ℝ)
    (st : MpStep P S) (c2 : Cell P) : gnOne p gn' c1 t (st.part π) c2 = (gnOne p gn c1 t st c2).map (MpStep.part π) := by
  unfold gnOne
  cases mpPair p c1 c2 with
  | skip => rfl
  | use k r logr => simp [MpStep.part, hgn]
  | keep rtot s1 s2 =>
    cases s2 with
    | false => rfl
    | true =>
      simp only [if_true]
      cases c2.children with
      | none => rfl
      | some lr => rfl

theorem gnFold_part (hgn : ∀ c1 c2 r logr k mp, gn' c1 c2 r logr k (π mp) = π (gn c1 c2 r logr k mp)) (c1 : Cell P) (t : ℝ)
    (l : List (Cell P)) : ∀ st : MpStep P S,
    l.foldlM (gnOne p gn' c1 t) (st.part π) = (l.foldlM (gnOne p gn c1 t) st).map (MpStep.part π) := by
  induction l with
  | nil => intro st; rfl
  | cons c2 l ih =>
    intro st
    rw [List.foldlM_cons, List.foldlM_cons, gnOne_part hgn]
    cases h : gnOne p gn c1 t st c2 with
    | none => rfl
    | some st' => exact ih st'

theorem splitOrGn_part (hgn : ∀ c1 c2 r logr k mp, gn' c1 c2 r logr k (π mp) = π (gn c1 c2 r logr k mp)) (c1 : Cell P)
    (l : List (Cell P)) (any : Bool) (mp : S) (m : ℝ) :
    splitOrGn p gn' c1 l any (π mp) m = (splitOrGn p gn c1 l any mp m).map (MpStep.part π) :=
  gnFold_part hgn c1 _ l ⟨[], any, mp, 0⟩

theorem earlyZeta_part (zeta : ℤ → ℤ → List A) (mink : ℤ) (m : ℝ) :
    earlyZeta p (fun a b => (zeta a b).map ρ) mink m = ((earlyZeta p zeta mink m).1.map ρ, (earlyZeta p zeta mink m).2) := by
  unfold earlyZeta
  split
  · split <;> rfl
  · rfl

section
variable {zeta : Cell P → S → ℤ → ℤ → List A} {zeta' : Cell P → S' → ℤ → ℤ → List A'}
  (hgn : ∀ c1 c2 r logr k mp, gn' c1 c2 r logr k (π mp) = π (gn c1 c2 r logr k mp))
  (hz : ∀ c mp a b, zeta' c (π mp) a b = (zeta c mp a b).map ρ)
include hgn hz

theorem finish_part (n : ℕ) : ∀ (c1 : Cell P) (l : List (Cell P)) (mp : S) (mink : ℤ) (m : ℝ),
    multipoleFinishN p gn' zeta' n c1 l (π mp) mink m = (multipoleFinishN p gn zeta n c1 l mp mink m).map (List.map ρ) := by
  induction n with
  | zero => intros; rfl
  | succ n ih =>
    intro c1 l mp mink m
    unfold multipoleFinishN
    rw [splitOrGn_part hgn]
    cases h : splitOrGn p gn c1 l false mp m with
    | none => rfl
    | some st =>
      simp only [Option.map_some, MpStep.part]
      by_cases hl : st.lst = []
      · simp only [if_pos hl, hz, Option.map_some]
      · simp only [if_neg hl]
        have e : zeta' c1 (π st.mp) = fun a b => (zeta c1 st.mp a b).map ρ := by funext a b; exact hz _ _ _ _
        rw [e, earlyZeta_part]
        simp only []
        cases st.any with
        | false =>
          simp only [Bool.false_eq_true, if_false]
          rw [ih]
          cases multipoleFinishN p gn zeta n c1 st.lst st.mp (earlyZeta p (zeta c1 st.mp) mink st.maxr).2 st.maxr with
          | none => rfl
          | some a => simp
        | true =>
          simp only [if_true]
          cases c1.children with
          | none => rfl
          | some lr =>
            simp only [ih]
            cases multipoleFinishN p gn zeta n lr.1 st.lst st.mp (earlyZeta p (zeta c1 st.mp) mink st.maxr).2 st.maxr with
            | none => rfl
            | some a =>
              cases multipoleFinishN p gn zeta n lr.2 st.lst st.mp (earlyZeta p (zeta c1 st.mp) mink st.maxr).2 st.maxr with
              | none => rfl
              | some b => simp

theorem split1_part (mp : S) (c1 : Cell P) : ∀ l : List (Cell P),
    multipoleSplit1 p gn' zeta' (π mp) c1 l = (multipoleSplit1 p gn zeta mp c1 l).map (List.map ρ) := by
  induction c1 with
  | leaf d os =>
    intro l
    unfold multipoleSplit1
    cases splitC2Cells p (.leaf d os) l with
    | none => rfl
    | some new =>
      simp only []
      split
      · rfl
      · exact finish_part hgn hz _ _ _ _ _ _
  | node d s a b iha ihb =>
    intro l
    unfold multipoleSplit1
    cases splitC2Cells p (.node d s a b) l with
    | none => rfl
    | some new =>
      simp only []
      split
      · rw [iha, ihb]
        cases multipoleSplit1 p gn zeta mp a new with
        | none => rfl
        | some x =>
          cases multipoleSplit1 p gn zeta mp b new with
          | none => rfl
          | some y => simp
      · exact finish_part hgn hz _ _ _ _ _ _

omit hgn hz in
theorem concatM_part {α B B' : Type} (ρ : B → B') (f : α → Option (List B)) (l : List α) :
    concatM (fun x => (f x).map (List.map ρ)) l = (concatM f l).map (List.map ρ) := by
  induction l with
  | nil => rfl
  | cons a l ih =>
    unfold concatM
    rw [ih]
    cases f a with
    | none => rfl
    | some x =>
      cases concatM f l with
      | none => rfl
      | some y => simp

/-- A part of the output of a run. -/
theorem run_part (mp : S) (cs1 cs2 : List (Cell P)) :
    multipoleRun p gn' zeta' (π mp) cs1 cs2 = (multipoleRun p gn zeta mp cs1 cs2).map (List.map ρ) := by
  unfold multipoleRun
  rw [← concatM_part]
  congr 1
  funext c
  exact split1_part hgn hz mp c cs2

end

section
variable {zeta : Cell P → S → S → ℤ → ℤ → List A} {zeta' : Cell P → S' → S' → ℤ → ℤ → List A'}
  (hgn : ∀ c1 c2 r logr k mp, gn' c1 c2 r logr k (π mp) = π (gn c1 c2 r logr k mp))
  (hz : ∀ c mp2 mp3 a b, zeta' c (π mp2) (π mp3) a b = (zeta c mp2 mp3 a b).map ρ)
include hgn hz

theorem finish2_part (n : ℕ) : ∀ (c1 : Cell P) (l2 l3 : List (Cell P)) (mp2 mp3 : S) (mink : ℤ) (m2 m3 : ℝ),
    multipoleFinish2N p gn' zeta' n c1 l2 l3 (π mp2) (π mp3) mink m2 m3 =
      (multipoleFinish2N p gn zeta n c1 l2 l3 mp2 mp3 mink m2 m3).map (List.map ρ) := by
  induction n with
  | zero => intros; rfl
  | succ n ih =>
    intro c1 l2 l3 mp2 mp3 mink m2 m3
    unfold multipoleFinish2N
    rw [splitOrGn_part hgn]
    cases h : splitOrGn p gn c1 l2 false mp2 m2 with
    | none => rfl
    | some st2 =>
      simp only [Option.map_some, MpStep.part]
      rw [splitOrGn_part hgn]
      cases h' : splitOrGn p gn c1 l3 st2.any mp3 m3 with
      | none => rfl
      | some st3 =>
        simp only [Option.map_some, MpStep.part]
        by_cases hl : st2.lst = [] ∧ st3.lst = []
        · simp only [if_pos hl, hz, Option.map_some]
        · simp only [if_neg hl]
          have e : zeta' c1 (π st2.mp) (π st3.mp) = fun a b => (zeta c1 st2.mp st3.mp a b).map ρ := by
            funext a b; exact hz _ _ _ _ _
          rw [e, earlyZeta_part]
          simp only []
          cases st3.any with
          | false =>
            simp only [Bool.false_eq_true, if_false]
            rw [ih]
            generalize multipoleFinish2N p gn zeta n c1 st2.lst st3.lst st2.mp st3.mp _ st2.maxr st3.maxr = x
            cases x with
            | none => rfl
            | some a => simp
          | true =>
            simp only [if_true]
            cases c1.children with
            | none => rfl
            | some lr =>
              simp only [ih]
              generalize multipoleFinish2N p gn zeta n lr.1 st2.lst st3.lst st2.mp st3.mp _ st2.maxr st3.maxr = x
              generalize multipoleFinish2N p gn zeta n lr.2 st2.lst st3.lst st2.mp st3.mp _ st2.maxr st3.maxr = y
              cases x with
              | none => rfl
              | some a =>
                cases y with
                | none => rfl
                | some b => simp

theorem split12_part (mp : S) (c1 : Cell P) : ∀ l2 l3 : List (Cell P),
    multipoleSplit12 p gn' zeta' (π mp) c1 l2 l3 = (multipoleSplit12 p gn zeta mp c1 l2 l3).map (List.map ρ) := by
  induction c1 with
  | leaf d os =>
    intro l2 l3
    unfold multipoleSplit12
    cases splitC2Cells p (.leaf d os) l2 with
    | none => rfl
    | some new2 =>
      cases splitC2Cells p (.leaf d os) l3 with
      | none => rfl
      | some new3 =>
        simp only []
        split
        · rfl
        · exact finish2_part hgn hz _ _ _ _ _ _ _ _ _
  | node d s a b iha ihb =>
    intro l2 l3
    unfold multipoleSplit12
    cases splitC2Cells p (.node d s a b) l2 with
    | none => rfl
    | some new2 =>
      cases splitC2Cells p (.node d s a b) l3 with
      | none => rfl
      | some new3 =>
        simp only []
        split
        · rw [iha, ihb]
          cases multipoleSplit12 p gn zeta mp a new2 new3 with
          | none => rfl
          | some x =>
            cases multipoleSplit12 p gn zeta mp b new2 new3 with
            | none => rfl
            | some y => simp
        · exact finish2_part hgn hz _ _ _ _ _ _ _ _ _

/-- A part of the output of a run over two lists. -/
theorem run2_part (mp : S) (cs1 cs2 cs3 : List (Cell P)) :
    multipoleRun2 p gn' zeta' (π mp) cs1 cs2 cs3 = (multipoleRun2 p gn zeta mp cs1 cs2 cs3).map (List.map ρ) := by
  unfold multipoleRun2
  rw [← concatM_part]
  congr 1
  funext c
  exact split12_part hgn hz mp c cs2 cs3

end

end TreeCorr
