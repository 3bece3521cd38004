import Mathlib.Data.List.Nodup
import Mathlib.Data.List.Perm.Basic
import Mathlib.Data.Finset.Card
import Mathlib.Tactic.Linarith
import Verif.Model.Select

/-!
Lemmas about `SelectRandomFrom`.
-/

namespace TreeCorr
open Classical List
noncomputable section

theorem swapIdx_perm {α : Type} {v v' : List α} {i j : ℕ} (h : swapIdx v i j = some v') : v' ~ v := by
  unfold swapIdx at h
  simp only [Option.bind_eq_some_iff, Option.map_eq_some_iff] at h
  obtain ⟨a, ha, b, hb, rfl⟩ := h
  obtain ⟨hi, rfl⟩ := List.getElem?_eq_some_iff.1 ha
  obtain ⟨hj, rfl⟩ := List.getElem?_eq_some_iff.1 hb
  exact List.set_set_perm hi hj

theorem swapIdx_some {α : Type} {v : List α} {i j : ℕ} (hi : i < v.length) (hj : j < v.length) :
    ∃ v', swapIdx v i j = some v' := by
  unfold swapIdx
  rw [List.getElem?_eq_getElem hi, List.getElem?_eq_getElem hj]
  exact ⟨_, rfl⟩

theorem floor_le_of_le_one {u : ℝ} (h1 : u ≤ 1) (m : ℕ) : ⌊u * m⌋₊ ≤ m := by
  have : u * m ≤ m := by
    have : (0 : ℝ) ≤ m := Nat.cast_nonneg m
    nlinarith
  exact (Nat.floor_le_floor this).trans (by simp)

/-- The index tried in a turn of Floyd's algorithm. -/
def floydIdx (u : ℕ → ℝ) (m k : ℕ) : ℕ := if ⌊u k * m⌋₊ = m then m - 1 else ⌊u k * m⌋₊

theorem floydIdx_lt {u : ℕ → ℝ} {m k : ℕ} (h1 : u k ≤ 1) (hm : 0 < m) : floydIdx u m k < m := by
  have hj := floor_le_of_le_one h1 m
  unfold floydIdx
  split <;> omega

/-- The selection after the index `j` came up. -/
def push (sel : List ℕ) (j : ℕ) : List ℕ := if j ∈ sel then sel else sel ++ [j]

theorem push_nodup {sel : List ℕ} (hd : sel.Nodup) (j : ℕ) : (push sel j).Nodup := by
  unfold push
  split
  · exact hd
  · rename_i hn
    rw [List.nodup_append]
    refine ⟨hd, by simp, ?_⟩
    intro a ha b hb e
    simp only [List.mem_singleton] at hb
    subst hb
    exact hn (e ▸ ha)

theorem mem_push {sel : List ℕ} {j x : ℕ} : x ∈ push sel j ↔ x ∈ sel ∨ x = j := by
  unfold push
  split
  · constructor
    · exact Or.inl
    · rintro (h | rfl)
      · exact h
      · assumption
  · simp

theorem push_length {sel : List ℕ} {j n : ℕ} (h : sel.length < n) : (push sel j).length ≤ n := by
  unfold push
  split
  · exact h.le
  · simp; omega

theorem floydLoop_succ (u : ℕ → ℝ) (m n fuel k : ℕ) (sel : List ℕ) (h : sel.length < n) :
    floydLoop u m n (fuel + 1) k sel = floydLoop u m n fuel (k + 1) (push sel (floydIdx u m k)) := by
  rw [floydLoop, if_pos h]
  rfl

theorem floydLoop_end (u : ℕ → ℝ) (m n fuel k : ℕ) (sel : List ℕ) (h : ¬ sel.length < n) :
    floydLoop u m n fuel k sel = some (sel, k) := by
  rw [floydLoop.eq_def]
  simp only [if_neg h]

theorem floydLoop_spec (u : ℕ → ℝ) (hu : ∀ k, 0 ≤ u k ∧ u k ≤ 1) (m n : ℕ) (hm : 0 < m) (fuel k : ℕ) (sel : List ℕ)
    (hl : sel.length ≤ n) (hd : sel.Nodup) (hb : ∀ j ∈ sel, j < m) (r : List ℕ × ℕ)
    (h : floydLoop u m n fuel k sel = some r) : r.1.length = n ∧ r.1.Nodup ∧ ∀ j ∈ r.1, j < m := by
  induction fuel generalizing k sel with
  | zero =>
    by_cases hlt : sel.length < n
    · rw [floydLoop, if_pos hlt] at h
      simp at h
    · rw [floydLoop_end _ _ _ _ _ _ hlt] at h
      cases h
      exact ⟨by simp only; omega, hd, hb⟩
  | succ fuel ih =>
    by_cases hlt : sel.length < n
    · rw [floydLoop_succ _ _ _ _ _ _ hlt] at h
      refine ih _ _ (push_length hlt) (push_nodup hd _) ?_ h
      intro j hj
      rcases mem_push.1 hj with hj | rfl
      · exact hb j hj
      · exact floydIdx_lt (hu k).2 hm
    · rw [floydLoop_end _ _ _ _ _ _ hlt] at h
      cases h
      exact ⟨by simp only; omega, hd, hb⟩

theorem fisherYates_spec (u : ℕ → ℝ) (hu : ∀ k, 0 ≤ u k ∧ u k ≤ 1) (m k : ℕ) (is : List ℕ) (hi : ∀ i ∈ is, i < m)
    (full : List ℕ) (hl : full.length = m) :
    ∃ full', is.foldlM (fisherYatesStep u m k) full = some full' ∧ full' ~ full := by
  induction is generalizing full with
  | nil => exact ⟨full, rfl, List.Perm.refl _⟩
  | cons i is ih =>
    have him : i < m := hi i (by simp)
    have hj : ⌊u (k + i) * ((m : ℝ) - i)⌋₊ ≤ m - i := by
      have := floor_le_of_le_one (hu (k + i)).2 (m - i)
      rwa [Nat.cast_sub him.le] at this
    obtain ⟨f1, h1⟩ : ∃ f1, fisherYatesStep u m k full i = some f1 := by
      unfold fisherYatesStep
      simp only
      refine swapIdx_some (by omega) ?_
      split <;> omega
    have hp : f1 ~ full := by
      unfold fisherYatesStep at h1
      exact swapIdx_perm h1
    obtain ⟨f2, h2, hp2⟩ := ih (fun i hi' => hi i (by simp [hi'])) f1 (by rw [hp.length_eq, hl])
    exact ⟨f2, by rw [List.foldlM_cons, h1]; exact h2, hp2.trans hp⟩

theorem selectRandomFrom_spec (u : ℕ → ℝ) (hu : ∀ k, 0 ≤ u k ∧ u k ≤ 1) (fuel m n k : ℕ) (hn : n ≤ m) (r : List ℕ × ℕ)
    (h : selectRandomFrom u fuel m n k = some r) : r.1.length = n ∧ r.1.Nodup ∧ ∀ j ∈ r.1, j < m := by
  unfold selectRandomFrom at h
  split at h
  · exact floydLoop_spec u hu m n (by omega) fuel k [] (by simp) (by simp) (by simp) r h
  · obtain ⟨f, h1, hp⟩ := fisherYates_spec u hu m k (List.range n) (fun i hi => by simp at hi; omega) (List.range m) (by simp)
    rw [h1, Option.bind_some] at h
    have hlen : f.length = m := by rw [hp.length_eq]; simp
    rw [if_pos (by omega)] at h
    cases h
    refine ⟨by simp [hlen, hn], ?_, ?_⟩
    · exact (List.take_sublist _ _).nodup (hp.nodup_iff.2 List.nodup_range)
    · intro j hj
      have := hp.subset ((List.take_sublist _ _).subset hj)
      simpa using this

/-- Floyd's algorithm comes to an end as soon as enough different indices have come up. -/
theorem floydLoop_ends (u : ℕ → ℝ) (m n : ℕ) (fuel k : ℕ) (sel : List ℕ)
    (h : n ≤ (sel.toFinset ∪ (Finset.range fuel).image (fun i => floydIdx u m (k + i))).card) (hd : sel.Nodup) :
    ∃ r, floydLoop u m n fuel k sel = some r := by
  induction fuel generalizing k sel with
  | zero =>
    rw [floydLoop]
    have : ¬ sel.length < n := by
      rw [Finset.range_zero, Finset.image_empty, Finset.union_empty, List.toFinset_card_of_nodup hd] at h
      omega
    rw [if_neg this]
    exact ⟨_, rfl⟩
  | succ fuel ih =>
    by_cases hlt : sel.length < n
    · rw [floydLoop_succ _ _ _ _ _ _ hlt]
      refine ih (k + 1) _ ?_ (push_nodup hd _)
      refine h.trans (Finset.card_le_card ?_)
      intro x hx
      rw [Finset.mem_union, Finset.mem_image, List.mem_toFinset] at hx
      rw [Finset.mem_union, Finset.mem_image, List.mem_toFinset, mem_push]
      rcases hx with hx | ⟨i, hi, hx⟩
      · exact Or.inl (Or.inl hx)
      · rcases i with _ | i
        · exact Or.inl (Or.inr hx.symm)
        · right
          refine ⟨i, by simp at hi ⊢; omega, ?_⟩
          rw [← hx]; congr 1; omega
    · exact ⟨_, floydLoop_end _ _ _ _ _ _ hlt⟩

end
end TreeCorr
