import Verif.Proofs.CatalogOps
import Verif.Proofs.Config
import Verif.Props.CatalogCases

/-!
C31: patches partition the catalogue.
-/

namespace TreeCorr
namespace Catalog

variable {R : Type} [Field R] [DecidableEq R] {m : ℕ}

/-- C31: the numbers for which there are patches are those that occur, each once, in increasing order. -/
theorem patch_numbers (P : List ℤ) : (patchIds P).Pairwise (· < ·) ∧ ∀ p, p ∈ patchIds P ↔ p ∈ P :=
  ⟨patchIds_sorted P, patchIds_mem P⟩

/-- C31, rows: for a catalogue made by the constructor, with more than one patch, `get_patches` gives one catalogue for each number
that occurs, with exactly the rows of this number, in order, in all columns, and their sum of weights.  Missing: it fails if the
weights of some patch sum to zero (`patch_zero_weight_wrong`), and numbers that do not occur give no catalogue
(`missing_patch_wrong`). -/
theorem get_patches_rows_partial [CharZero R] (C : Cat R) (hC : IsCat m C) (npatch : ℤ) (hnp : npatch ≠ 1) (P : List ℤ)
    (hP : C.tab.patch = some P) (w : List (Option R)) (hw : C.tab.w = some w) (h0 : ∀ p ∈ P, npSum (rowsIn P p w) ≠ some 0) :
    ∃ Ds, getPatches npatch C = .ok Ds ∧
      List.Forall₂ (fun p D => (∀ c, D.tab.col c = (C.tab.col c).map (rowsIn P p)) ∧ D.tab.w = some (rowsIn P p w) ∧
        D.tab.wpos = C.tab.wpos.map (rowsIn P p) ∧ D.sumw = npSum (rowsIn P p w)) (patchIds P) Ds := by
  have hlen : P.length = m := hC.clean.patch P hP
  have hws : C.tab.ws m = w := by simp [Tab.ws, hw]
  have hone : ∀ p ∈ patchIds P, ∃ D, onePatch C P p = .ok D := by
    intro p hp
    have hp := (patchIds_mem P p).1 hp
    obtain ⟨D, hD, -⟩ := (onePatch_spec C hC P hlen p hp).2 (by rw [hws]; exact h0 p hp)
    exact ⟨D, hD⟩
  obtain ⟨Ds, hDs⟩ := (Config.mapM_isOk_iff (onePatch C P) (patchIds P)).2 hone
  refine ⟨Ds, ?_, ?_⟩
  · unfold getPatches
    rw [if_neg hnp, hP]
    exact hDs
  · have hF := (Config.mapM_ok_iff _ _ _).1 hDs
    have : ∀ p D, p ∈ patchIds P → onePatch C P p = .ok D →
        (∀ c, D.tab.col c = (C.tab.col c).map (rowsIn P p)) ∧ D.tab.w = some (rowsIn P p w) ∧
        D.tab.wpos = C.tab.wpos.map (rowsIn P p) ∧ D.sumw = npSum (rowsIn P p w) := by
      intro p D hp hD
      have hp := (patchIds_mem P p).1 hp
      obtain ⟨D', hD', -, h1, h2, h3, -, h4⟩ := (onePatch_spec C hC P hlen p hp).2 (by rw [hws]; exact h0 p hp)
      rw [hD] at hD'
      cases hD'
      rw [hws] at h4
      exact ⟨h1, by rw [h2, hw]; rfl, h3, h4⟩
    clear hDs hone
    generalize patchIds P = L at hF this
    induction hF with
    | nil => exact .nil
    | cons hab _ ih => exact .cons (this _ _ (by simp) hab) (ih fun p D hp => this p D (by simp [hp]))

/-- C31, partition: together the patches hold each row once. -/
theorem patches_partition (P : List ℤ) : ((patchIds P).flatMap fun p => rowsIn P p (List.range P.length)).Perm (List.range P.length) :=
  partition_perm _ (patchIds_nodup P) P _ (by simp) fun p hp => (patchIds_mem P p).2 hp

/-- The rows of a patch are those with its number. -/
theorem rowsIn_range (P : List ℤ) (p : ℤ) : rowsIn P p (List.range P.length) = (List.range P.length).filter fun i => P[i]? = some p := by
  rw [← rowsIn_eq P p _ (by simp)]
  unfold Rows.whereEq
  rw [List.filterMap_congr (g := some)]
  · simp
  · intro i hi
    have := List.mem_range.1 (List.mem_filter.1 hi).1
    simp [this]

/-- C31, sums: the sums of weights of the patches add up to that of the catalogue. -/
theorem patches_sumw [CharZero R] (C : Cat R) (hC : IsCat m C) (npatch : ℤ) (hnp : npatch ≠ 1) (P : List ℤ)
    (hP : C.tab.patch = some P) (w : List (Option R)) (hw : C.tab.w = some w) (h0 : ∀ p ∈ P, npSum (rowsIn P p w) ≠ some 0)
    (Ds : List (Cat R)) (hDs : getPatches npatch C = .ok Ds) : npSum (Ds.map Cat.sumw) = C.sumw := by
  obtain ⟨Ds', h1, h2⟩ := get_patches_rows_partial C hC npatch hnp P hP w hw h0
  rw [hDs] at h1
  cases h1
  have hws : C.tab.ws m = w := by simp [Tab.ws, hw]
  have hlen : P.length = w.length := by rw [hC.clean.patch P hP, (hC.clean.w w hw).1]
  have hmap : Ds.map Cat.sumw = (patchIds P).map fun p => npSum (rowsIn P p w) := by
    clear hDs
    generalize patchIds P = L at h2
    induction h2 with
    | nil => rfl
    | cons h _ ih => rw [List.map_cons, List.map_cons, h.2.2.2, ih]
  rw [hmap, ← npSum_flatMap, hC.sumw, hws]
  exact npSum_perm (partition_perm _ (patchIds_nodup P) P w hlen fun p hp => (patchIds_mem P p).2 hp)

/-! ### Examples and failures -/

/-- Four rows in patches 0 and 2. -/
def patchTab : Tab ℚ where
  col := exCol [some 1, some 2, some 3, some 4] [some 1, some 1, some 1, some 1] [some 5, some 6, some 7, some 8]
  w := some [some 1, some 2, some 3, some 4]
  wpos := none
  flag := none
  patch := some [2, 0, 0, 2]

/-- The catalogue of these rows. -/
def patchCat : Cat ℚ := ⟨patchTab, true, some 10⟩

/-- The constructor makes it. -/
theorem patchCat_made : view (finishInput exSet patchTab) = view (.ok patchCat) := by decide +kernel

theorem patchCat_isCat : IsCat 4 patchCat := by
  refine ⟨by norm_num, ⟨?_, ?_, ?_, ?_, rfl, rfl, ?_⟩, rfl, ?_, ?_⟩
  · intro c l h
    cases c <;> simp [patchCat, patchTab, exCol] at h <;> subst h <;> simp
  · intro l h
    simp only [patchCat, patchTab, Option.some.injEq] at h
    subst h
    simp
  · intro l h
    simp [patchCat, patchTab] at h
  · intro l h
    simp only [patchCat, patchTab, Option.some.injEq] at h
    subst h
    rfl
  · intro l h
    simp [patchCat, patchTab] at h
  · intro h
    simp [patchCat] at h
  · decide +kernel

/-- The hypotheses of the theorems hold. -/
example : ∃ Ds, getPatches 3 patchCat = .ok Ds ∧ npSum (Ds.map Cat.sumw) = some 10 := by
  have h0 : ∀ p ∈ [(2 : ℤ), 0, 0, 2], npSum (rowsIn [2, 0, 0, 2] p [some (1 : ℚ), some 2, some 3, some 4]) ≠ some 0 := by decide +kernel
  obtain ⟨Ds, h, -⟩ := get_patches_rows_partial patchCat patchCat_isCat 3 (by norm_num) [2, 0, 0, 2] rfl _ rfl h0
  exact ⟨Ds, h, patches_sumw patchCat patchCat_isCat 3 (by norm_num) [2, 0, 0, 2] rfl _ rfl h0 Ds h⟩

/-- The patches, or the error. -/
def views (r : Except PyErr (List (Cat ℚ))) : PyErr ⊕ List View :=
  match r with
  | .error e => .inl e
  | .ok Ds => .inr (Ds.map fun C => ⟨C.tab.col .x, C.tab.col .k, C.tab.w, C.sumw⟩)

/-- C31 fails for numbers that do not occur: `npatch` is 3, but there are two patches, and the second of them is number 2. -/
theorem missing_patch_wrong : setNpatch none [2, 0, 0, 2] = .ok 3 ∧ views (getPatches 3 patchCat) =
    .inr [⟨some [some 2, some 3], some [some 6, some 7], some [some 2, some 3], some 5⟩,
      ⟨some [some 1, some 4], some [some 5, some 8], some [some 1, some 4], some 5⟩] := by
  constructor
  · rfl
  · decide +kernel

/-- C31 fails if the weights of a patch sum to zero: rows 1 and 2 have weights 2 and -2, and the whole catalogue is fine. -/
theorem patch_zero_weight_wrong :
    view (finishInput exSet { patchTab with w := some [some 1, some 2, some (-2), some 4] }) =
      .inr ⟨patchTab.col .x, patchTab.col .k, some [some 1, some 2, some (-2), some 4], some 5⟩ ∧
    views (getPatches 3 ⟨{ patchTab with w := some [some 1, some 2, some (-2), some 4] }, true, some 5⟩) = .inl .valueError := by
  decide +kernel

/-- The same with `keep_zero_weight` for a patch of rows without weight. -/
theorem patch_kept_zero_weight_wrong :
    view (finishInput { exSet with keepZero := true } { patchTab with w := some [some 1, some 0, some 0, some 4] }) =
      .inr ⟨patchTab.col .x, patchTab.col .k, some [some 1, some 0, some 0, some 4], some 5⟩ ∧
    views (getPatches 3 ⟨{ patchTab with w := some [some 1, some 0, some 0, some 4] }, true, some 5⟩) = .inl .valueError := by
  decide +kernel

/-- **C31.** Patch numbers given with the rows are accepted just if there are any and a given `npatch` (other than 1) is larger than
all of them; then `npatch` is the largest number plus one, so that every number is below it. -/
theorem npatch_accepted (cur : Option ℤ) (P : List ℤ) (n : ℤ) :
    setNpatch cur P = .ok n ↔ n - 1 ∈ P ∧ (∀ p ∈ P, p < n) ∧ ∀ c, cur = some c → c = 1 ∨ ∀ p ∈ P, p < c := by
  unfold setNpatch
  cases hm : P.max? with
  | none =>
    rw [List.max?_eq_none_iff] at hm
    simp [hm]
  | some m =>
    obtain ⟨h1, h2⟩ := List.max?_eq_some_iff.1 hm
    have key : ∀ n : ℤ, m + 1 = n ↔ n - 1 ∈ P ∧ ∀ p ∈ P, p < n := by
      intro n
      constructor
      · rintro rfl
        exact ⟨by simpa using h1, fun p hp => by have := h2 p hp; omega⟩
      · rintro ⟨ha, hb⟩
        have := h2 _ ha
        have := hb _ h1
        omega
    cases cur with
    | none => simp only [Except.ok.injEq, key]; simp
    | some c =>
      have hc : (c = 1 ∨ ∀ p ∈ P, p < c) ↔ ¬ (c ≠ 1 ∧ c < m + 1) := by
        constructor
        · rintro (rfl | h) ⟨a, b⟩
          · exact a rfl
          · have := h _ h1; omega
        · intro h
          by_cases hc1 : c = 1
          · exact Or.inl hc1
          · refine Or.inr fun p hp => ?_
            have := h2 p hp
            have : ¬ c < m + 1 := fun hh => h ⟨hc1, hh⟩
            omega
      by_cases hlt : c ≠ 1 ∧ c < m + 1
      · simp only [hlt, and_self, if_true, ne_eq, not_false_eq_true]
        constructor
        · intro h; exact absurd h (by simp)
        · rintro ⟨_, _, h⟩
          exact absurd hlt (hc.1 (h c rfl))
      · simp only []
        rw [if_neg hlt, Except.ok.injEq, key, ← and_assoc]
        constructor
        · intro h; exact ⟨h, fun c' e => by cases e; exact hc.2 hlt⟩
        · intro h; exact h.1

example : setNpatch (some 3) [2, 0, 0, 2] = .ok 3 ∧ setNpatch (some 2) [2, 0, 0, 2] = .error .valueError := ⟨rfl, rfl⟩

/-- A larger `npatch` in the settings is replaced by the largest number plus one, although the comment in `_set_npatch` allows it. -/
theorem npatch_overwritten : setNpatch (some 7) [2, 0, 0, 2] = .ok 3 := rfl

end Catalog
end TreeCorr
