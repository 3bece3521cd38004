import Verif.Proofs.Swap
import Verif.Props.LinearCounts

/-!
C44: exchanging the two catalogues of a count-count or scalar-scalar cross-correlation.
-/

namespace TreeCorr
open Classical
variable {P : Type}

/-- All the arrays of a count-count or scalar-scalar correlation agree. -/
def SameOutputs (A B : Acc) : Prop :=
  A.npairs = B.npairs ∧ A.weight = B.weight ∧ A.meanr = B.meanr ∧ A.meanlogr = B.meanlogr ∧ A.kk = B.kk

theorem accumulate_swap (A : Acc) (es : List (Emit P)) (h : ∀ e ∈ es, e.k2 = none) :
    SameOutputs (accumulate A (es.map Emit.swap)) (accumulate A es) := by
  suffices ∀ B, SameOutputs B A → SameOutputs (accumulate B (es.map Emit.swap)) (accumulate A es) from
    this A ⟨rfl, rfl, rfl, rfl, rfl⟩
  induction es generalizing A with
  | nil => intro B hB; exact hB
  | cons e es ih =>
    intro B hB
    apply ih (finishProcess A e) (fun e he => h e (by simp [he])) (finishProcess B e.swap)
    obtain ⟨h1, h2, h3, h4, h5⟩ := hB
    refine ⟨?_, ?_, ?_, ?_, ?_⟩
    all_goals
      funext k
      simp only [finishProcess, Emit.swap, addAt2_apply, h1, h2, h3, h4, h5, mul_comm e.c2.w, mul_comm e.c2.wk,
        mul_comm (e.c2.n : ℝ)]

theorem cross_swap_of [PseudoMetricSpace P] {B : BinHelper P} (hB : Radial B) (A1 A2 : StdAlg P) (g : Geom P)
    (hg : g.Dominates) (fp1 fp2 : FieldParams) (h1 : 0 ≤ fp1.minsize) (h2 : 0 ≤ fp2.minsize) {p : Params}
    (heff : ∀ rsq, 0 ≤ rsq → B.effBSq rsq p = 0)
    (hs0 : ∀ rsq x y, 0 ≤ rsq → B.singleBin rsq 0 x y p ≠ none)
    (l1 l2 : List (Obj P)) {es : List (Emit P)}
    (h : processCross B (plainMetric P) p (buildField A1 g fp1 l1) (buildField A2 g fp2 l2) = some es) :
    ∃ fs, processCross B (plainMetric P) p (buildField A2 g fp2 l2) (buildField A1 g fp1 l1) = some fs ∧
      SameOutputs (accumulate Acc.zero fs) (accumulate Acc.zero es) := by
  set f1 := buildField A1 g fp1 l1 with hf1
  set f2 := buildField A2 g fp2 l2 with hf2
  have hfar : fieldsTooFar B (plainMetric P) p f2 f1 ↔ fieldsTooFar B (plainMetric P) p f1 f2 := by
    simp only [fieldsTooFar, plainMetric, dist_comm f2.center f1.center, add_comm f2.size f1.size]
  by_cases hf : fieldsTooFar B (plainMetric P) p f1 f2
  · rw [processCross, if_pos hf] at h
    rw [processCross, if_pos (hfar.2 hf)]
    injection h with h
    exact ⟨[], rfl, by rw [← h]; exact ⟨rfl, rfl, rfl, rfl, rfl⟩⟩
  rw [processCross, if_neg hf] at h
  rw [processCross, if_neg (fun hh => hf (hfar.1 hh))]
  let Q : Cell P → Prop := fun c => ∃ δ, c.Bounded δ
  have hQ : Hered Q := by
    intro d s l r ⟨δ, hb⟩
    exact ⟨⟨δ, (hered_bounded δ _ _ _ _ hb).1⟩, ⟨δ, (hered_bounded δ _ _ _ _ hb).2⟩⟩
  have q1 : ∀ c ∈ f1.cells, Q c := fun c hc => ⟨_, (buildField_bounded A1 g hg fp1 h1 l1 c hc).1⟩
  have q2 : ∀ c ∈ f2.cells, Q c := fun c hc => ⟨_, (buildField_bounded A2 g hg fp2 h2 l2 c hc).1⟩
  have hsym : ∀ a b, Q a → Q b → decide11 B (plainMetric P) p false b a
      = (decide11 B (plainMetric P) p false a b).swap := by
    intro a b ⟨δa, ha⟩ ⟨δb, hb⟩
    apply decide11_swap hB
    intro hn
    rw [heff _ (sq_nonneg _)]
    apply calcSplitSq_zero_swap _ _ ha.size_nonneg hb.size_nonneg
    intro h0
    rw [h0] at hn
    exact hs0 _ _ _ (sq_nonneg _) hn
  obtain ⟨fs, e1, e2⟩ := crossLoop_swap _ hQ hsym (decide11_not_ff _ _ _ _) _ _ q1 q2 h
  refine ⟨fs, e1, ?_⟩
  have hk2 : ∀ e ∈ es, e.k2 = none :=
    (crossLoop_covers _ (decide11_honest _ _ _ _) Q Q hQ hQ _ _ q1 q2 _ h).k2_none
  rw [accumulate_perm _ e2]
  exact accumulate_swap _ _ hk2

/-- **C44, logarithmic bins.** With `bin_slop = 0`, whatever the trees: the correlation of the second catalogue with the
first gives the same pair numbers, weights, separation sums and scalar products as the first with the second. -/
theorem cross_swap_log [PseudoMetricSpace P] (A1 A2 : StdAlg P) (g : Geom P) (hg : g.Dominates)
    (fp1 fp2 : FieldParams) (h1 : 0 ≤ fp1.minsize) (h2 : 0 ≤ fp2.minsize) {p : Params} (hb : p.b = 0)
    (l1 l2 : List (Obj P)) {es : List (Emit P)}
    (h : processCross (logBin P) (plainMetric P) p (buildField A1 g fp1 l1) (buildField A2 g fp2 l2) = some es) :
    ∃ fs, processCross (logBin P) (plainMetric P) p (buildField A2 g fp2 l2) (buildField A1 g fp1 l1) = some fs ∧
      SameOutputs (accumulate Acc.zero fs) (accumulate Acc.zero es) := by
  apply cross_swap_of radial_log A1 A2 g hg fp1 fp2 h1 h2 _ _ l1 l2 h
  · intro rsq _
    simp [logBin, hb, sq_nonneg]
  · intro rsq x y _
    simp [logBin, logSingleBin]

/-- **C44, linear bins.** -/
theorem cross_swap_linear [PseudoMetricSpace P] (A1 A2 : StdAlg P) (g : Geom P) (hg : g.Dominates)
    (fp1 fp2 : FieldParams) (h1 : 0 ≤ fp1.minsize) (h2 : 0 ≤ fp2.minsize) {p : Params} (hb : p.b = 0)
    (l1 l2 : List (Obj P)) {es : List (Emit P)}
    (h : processCross (linearBin P) (plainMetric P) p (buildField A1 g fp1 l1) (buildField A2 g fp2 l2) = some es) :
    ∃ fs, processCross (linearBin P) (plainMetric P) p (buildField A2 g fp2 l2) (buildField A1 g fp1 l1) = some fs ∧
      SameOutputs (accumulate Acc.zero fs) (accumulate Acc.zero es) := by
  apply cross_swap_of radial_linear A1 A2 g hg fp1 fp2 h1 h2 _ _ l1 l2 h
  · intro rsq hr
    have : 0 ≤ p.a ^ 2 * rsq := mul_nonneg (sq_nonneg _) hr
    simp [linearBin, hb, this]
  · intro rsq x y hr
    have : ¬ p.a ^ 2 * rsq < 0 := not_lt.2 (mul_nonneg (sq_nonneg _) hr)
    simp [linearBin, linearSingleBin, hb, this]

/-- C44 on the rows (0,0) against (2,0) and (5,0): both runs succeed and agree. -/
example : ∃ es fs, processCross (logBin _) (plainMetric _) exLog
      (buildField (sortAlg _ 0) (euclidGeom 2) exFp [ob 0 0 0])
      (buildField (sortAlg _ 0) (euclidGeom 2) exFp [ob 2 0 0, ob 5 0 1]) = some es ∧
    processCross (logBin _) (plainMetric _) exLog
      (buildField (sortAlg _ 0) (euclidGeom 2) exFp [ob 2 0 0, ob 5 0 1])
      (buildField (sortAlg _ 0) (euclidGeom 2) exFp [ob 0 0 0]) = some fs ∧
    SameOutputs (accumulate Acc.zero fs) (accumulate Acc.zero es) := by
  obtain ⟨es, h, _⟩ := cross_log_exact (sortAlg _ 0) (sortAlg _ 0) (euclidGeom 2)
    (euclidGeom_dominates 2) exFp exFp rfl rfl exLog_ok rfl [ob 0 0 0] [ob 2 0 0, ob 5 0 1]
    (by simp [ob_valid]) (by simp [ob_valid])
  obtain ⟨fs, h1, h2⟩ := cross_swap_log _ _ _ (euclidGeom_dominates 2) exFp exFp le_rfl le_rfl rfl _ _ h
  exact ⟨es, fs, h, h1, h2⟩

end TreeCorr
