import Verif.Proofs.KMeansRun
import Mathlib.Data.Set.Finite.Lattice
import Mathlib.Data.Finset.Lattice.Fold

namespace TreeCorr.KMeans
open Classical List
noncomputable section
variable {E : Type} [NormedAddCommGroup E] [InnerProductSpace ℝ E]

theorem perm_lift {α β : Type} (f : α → β) {l m : List β} (h : l.Perm m) : ∀ L : List α, L.map f = l → ∃ L', L.Perm L' ∧ L'.map f = m := by
  induction h with
  | nil => intro L hL; exact ⟨L, Perm.refl _, hL⟩
  | cons x _ ih =>
    intro L hL
    cases L with
    | nil => simp at hL
    | cons y L =>
      simp only [List.map_cons, List.cons.injEq] at hL
      obtain ⟨L', h1, h2⟩ := ih L hL.2
      exact ⟨y :: L', h1.cons y, by simp [hL.1, h2]⟩
  | swap x y l =>
    intro L hL
    match L, hL with
    | a :: b :: L, hL =>
      simp only [List.map_cons, List.cons.injEq] at hL
      exact ⟨b :: a :: L, Perm.swap _ _ _, by simp [hL.1, hL.2.1, hL.2.2]⟩
  | trans _ _ ih1 ih2 =>
    intro L hL
    obtain ⟨L1, h1, h2⟩ := ih1 L hL
    obtain ⟨L2, h3, h4⟩ := ih2 L1 h2
    exact ⟨L2, h1.trans h3, h4⟩

theorem finite_divisions (n : ℕ) (rows : List (Obj E)) : {L : List (ℕ × Obj E) | L.map Prod.snd = rows ∧ ∀ x ∈ L, x.1 < n}.Finite := by
  induction rows with
  | nil => exact (Set.finite_singleton ([] : List (ℕ × Obj E))).subset fun L hL => by simpa using hL.1
  | cons o rows ih =>
    refine ((Set.finite_Iio n).image2 (fun q L => (q, o) :: L) ih).subset fun L hL => ?_
    obtain ⟨h1, h2⟩ := hL
    cases L with
    | nil => simp at h1
    | cons x L =>
      simp only [List.map_cons, List.cons.injEq] at h1
      refine ⟨x.1, h2 x (by simp), L, ⟨h1.2, fun y hy => h2 y (by simp [hy])⟩, ?_⟩
      rw [← h1.1]

/-- The mean of a patch, or the origin. -/
def meanOr (L : List (ℕ × Obj E)) (q : ℕ) : E := if 0 < patchWeight L q then patchMean L q else 0

theorem patchRowsOf_perm {L L' : List (ℕ × Obj E)} (h : L.Perm L') (q : ℕ) : (patchRowsOf L q).Perm (patchRowsOf L' q) := (h.filter _).map _

theorem meanOr_perm {L L' : List (ℕ × Obj E)} (h : L.Perm L') : meanOr L = meanOr L' := by
  funext q
  have h1 : patchWeight L q = patchWeight L' q := ((patchRowsOf_perm h q).map _).sum_eq
  have h2 : patchMean L q = patchMean L' q := by
    rw [patchMean, patchMean, h1, ((patchRowsOf_perm h q).map _).sum_eq]
  rw [meanOr, meanOr, h1, h2]

/-- Passes that move every centre to the mean of its patch (or to the origin) come to rest. -/
theorem lloyd_rests {rows : List (Obj E)} (hw : ∀ o ∈ rows, 0 ≤ o.w) {n : ℕ} (c : ℕ → ℕ → E) (L : ℕ → List (ℕ × Obj E))
    (hL : ∀ t, NearestDivision rows n (c t) (L t)) (hc : ∀ t q, c (t + 1) q = meanOr (L t) q) :
    ∃ K, ∀ s ≥ K, ∀ q < n, c s q = c K q := by
  have hwL : ∀ t, ∀ x ∈ L t, 0 ≤ x.2.w := fun t x hx => hw _ ((hL t).rows.mem_iff.1 (List.mem_map.2 ⟨x, hx, rfl⟩))
  have hc' : ∀ t, c (t + 1) = meanOr (L t) := fun t => funext (hc t)
  have hWn : ∀ t q, 0 ≤ patchWeight (L t) q := by
    intro t q
    refine List.sum_nonneg fun x hx => ?_
    obtain ⟨o, ho, rfl⟩ := List.mem_map.1 hx
    exact hwL t _ (patchRows_mem ho)
  let V : ℕ → ℝ := fun t => cost (L t) (c (t + 1))
  have step : ∀ t, V (t + 1) + ∑ q ∈ Finset.range n, patchWeight (L (t + 1)) q * dist (c (t + 1 + 1) q) (c (t + 1) q) ^ 2 ≤ V t := by
    intro t
    have h1 := cost_update (hL (t + 1)).lt (hwL (t + 1)) (c (t + 1)) (c (t + 1 + 1)) (fun q _ h => by rw [hc, meanOr, if_pos h])
    have h2 := wcss_eq (hL (t + 1))
    have h3 := wcss_le (c (t + 1)) (hL t).rows (hL t).lt hw
    show cost (L (t + 1)) (c (t + 1 + 1)) + _ ≤ cost (L t) (c (t + 1))
    linarith
  have hanti : Antitone V := by
    refine antitone_nat_of_succ_le fun t => ?_
    have : 0 ≤ ∑ q ∈ Finset.range n, patchWeight (L (t + 1)) q * dist (c (t + 1 + 1) q) (c (t + 1) q) ^ 2 :=
      Finset.sum_nonneg fun q _ => mul_nonneg (hWn _ _) (sq_nonneg _)
    linarith [step t]
  have hfin : (Set.range V).Finite := by
    refine ((finite_divisions n rows).image fun L => cost L (meanOr L)).subset ?_
    rintro _ ⟨t, rfl⟩
    obtain ⟨L', h1, h2⟩ := perm_lift Prod.snd (hL t).rows (L t) rfl
    refine ⟨L', ⟨h2, fun x hx => (hL t).lt x (h1.mem_iff.2 hx)⟩, ?_⟩
    show cost L' (meanOr L') = cost (L t) (c (t + 1))
    rw [hc', ← meanOr_perm h1, cost, cost]
    exact (h1.map _).sum_eq.symm
  obtain ⟨_, ⟨T, rfl⟩, hT⟩ := Set.exists_min_image _ id hfin ⟨V 0, 0, rfl⟩
  have hmove : ∀ s ≥ T + 1, ∀ q < n, c (s + 1) q = c s q ∨ c (s + 1) q = 0 := by
    intro s hs q hq
    obtain ⟨t, rfl⟩ : ∃ t, s = t + 1 := ⟨s - 1, by omega⟩
    have e1 : V t ≤ V T := hanti (by omega)
    have e2 : V T ≤ V (t + 1) := hT _ ⟨t + 1, rfl⟩
    have h0 : ∑ q ∈ Finset.range n, patchWeight (L (t + 1)) q * dist (c (t + 1 + 1) q) (c (t + 1) q) ^ 2 ≤ 0 := by linarith [step t]
    have nn : ∀ q ∈ Finset.range n, 0 ≤ patchWeight (L (t + 1)) q * dist (c (t + 1 + 1) q) (c (t + 1) q) ^ 2 :=
      fun q _ => mul_nonneg (hWn _ _) (sq_nonneg _)
    have := (Finset.sum_eq_zero_iff_of_nonneg nn).1 (le_antisymm h0 (Finset.sum_nonneg nn)) q (Finset.mem_range.2 hq)
    by_cases h : 0 < patchWeight (L (t + 1)) q
    · left
      rcases mul_eq_zero.1 this with h' | h'
      · exact absurd h' h.ne'
      · exact dist_eq_zero.1 (pow_eq_zero_iff (two_ne_zero) |>.1 h')
    · right
      rw [hc, meanOr, if_neg h]
  have hS : ∀ q, ∃ S ≥ T + 1, q < n → ∀ s ≥ S, c (s + 1) q = c s q := by
    intro q
    by_cases h : ∃ S ≥ T + 1, c S q = 0
    · obtain ⟨S, h1, h2⟩ := h
      refine ⟨S, h1, fun hq => ?_⟩
      have hz : ∀ s ≥ S, c s q = 0 := by
        intro s hs
        induction s, hs using Nat.le_induction with
        | base => exact h2
        | succ s hs ih =>
          rcases hmove s (by omega) q hq with h | h
          · rw [h, ih]
          · exact h
      intro s hs
      rw [hz s hs, hz (s + 1) (by omega)]
    · push Not at h
      refine ⟨T + 1, le_rfl, fun hq s hs => ?_⟩
      rcases hmove s hs q hq with h' | h'
      · exact h'
      · exact absurd h' (h (s + 1) (by omega))
  choose S hS1 hS2 using hS
  refine ⟨(Finset.range n).sup S, fun s hs q hq => ?_⟩
  induction s, hs using Nat.le_induction with
  | base => rfl
  | succ s hs ih =>
    have : S q ≤ (Finset.range n).sup S := Finset.le_sup (Finset.mem_range.2 hq)
    rw [hS2 q hq s (by omega), ih]

end
end TreeCorr.KMeans
