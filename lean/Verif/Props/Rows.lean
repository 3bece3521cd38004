import Verif.Proofs.Rows

/-! C30: which rows of a file are read. -/

namespace TreeCorr
namespace Rows

variable {α : Type}

/-- C30.  `first_row`, `last_row`, `every_nth` are accepted exactly if `first_row ≥ 1`, `every_nth ≥ 1` and `last_row` is not
positive or not before `first_row`. -/
theorem slice_ok_iff (firstRow lastRow nth : ℤ) :
    (∃ s, mkSlice firstRow lastRow nth = .ok s) ↔ 1 ≤ firstRow ∧ 1 ≤ nth ∧ (lastRow ≤ 0 ∨ firstRow ≤ lastRow) := by
  unfold mkSlice
  split_ifs with h1 h2 h3
  all_goals simp
  all_goals omega

theorem mkSlice_spec {firstRow lastRow nth : ℤ} {s : Slice} (h : mkSlice firstRow lastRow nth = .ok s) :
    (s.start : ℤ) = firstRow - 1 ∧ (s.step : ℤ) = nth ∧ 1 ≤ s.step ∧
      (∀ e, s.stop = some e → (e : ℤ) = lastRow ∧ s.start < e) ∧ (s.stop = none ↔ lastRow ≤ 0) := by
  unfold mkSlice at h
  split_ifs at h with h1 h2 h3 h4 h5 h5
  all_goals cases h
  all_goals refine ⟨by simp; try omega, by simp; omega, by simp; omega, ?_, by simp; try omega⟩
  all_goals intro e he
  all_goals simp only [Option.some.injEq, reduceCtorEq] at he
  all_goals simp only
  all_goals omega

/-- C30.  The rows read: with rows numbered from 1, row `k` of the result (counted from 0) is row `first_row + k * every_nth`
of the file as long as this is at most `last_row` (if positive), and there are no others. -/
theorem rows_read (firstRow lastRow nth : ℤ) (s : Slice) (h : mkSlice firstRow lastRow nth = .ok s) (l : List α) (k : ℕ) :
    (s.apply l)[k]? =
      if lastRow ≤ 0 ∨ firstRow + k * nth ≤ lastRow then l[(firstRow + k * nth - 1).toNat]? else none := by
  obtain ⟨h1, h2, h3, h4, h5⟩ := mkSlice_spec h
  rw [apply_getElem? s h3]
  have e1 : ((s.start + k * s.step : ℕ) : ℤ) = firstRow + k * nth - 1 := by
    push_cast; rw [h1, h2]; ring
  have e2 : (firstRow + k * nth - 1).toNat = s.start + k * s.step := by omega
  rw [e2]
  congr 1
  apply propext
  cases hs : s.stop with
  | none => simp [h5.1 hs]
  | some e =>
    have := (h4 e hs).1
    have hlast : ¬ lastRow ≤ 0 := fun hc => by rw [← h5, hs] at hc; cases hc
    simp only [Option.some.injEq, forall_eq', hlast, false_or]
    omega

example : ∃ s, mkSlice 2 7 3 = .ok s ∧ s.apply [10, 20, 30, 40, 50, 60, 70, 80] = [20, 50] := ⟨_, rfl, rfl⟩

/-- C30.  All the readers read the same rows: the ASCII reader, the Pandas reader and slicing of arrays. -/
theorem readers_agree (firstRow lastRow nth : ℤ) (s : Slice) (h : mkSlice firstRow lastRow nth = .ok s) (l : List α) :
    asciiRead s l = s.apply l ∧ pandasRead s l = s.apply l := by
  obtain ⟨h1, h2, h3, h4, h5⟩ := mkSlice_spec h
  exact ⟨asciiRead_eq s h3 l, pandasRead_eq s h3 (fun e he => (h4 e he).2) l⟩

/-- C30.  Also on the rows of one patch, the Pandas reader and array indexing agree. -/
theorem readers_agree_patch (s : Slice) (hs : 1 ≤ s.step) (patchCol : List ℤ) (p : ℤ) (rows : List ℕ)
    (h : patchRows s (whereEq (s.apply patchCol) p) = .ok rows) (l : List α) (hl : l.length = patchCol.length) :
    takeIdx rows l = some (pandasIdx rows l) := by
  by_cases hne : whereEq (s.apply patchCol) p = []
  · rw [hne] at h
    unfold patchRows at h
    split_ifs at h
    · cases h; simp [takeIdx, pandasIdx]
    · simp at h
  · rw [patchRows_eq s hs _ hne] at h
    cases h
    rw [pandasIdx_eq]
    · rw [List.pairwise_map]
      unfold whereEq
      refine List.Pairwise.filter _ (List.pairwise_lt_range.imp fun {a b} hab => ?_)
      have := Nat.mul_lt_mul_of_pos_right hab (show 0 < s.step by omega)
      omega
    · intro i hi
      obtain ⟨j, hj, rfl⟩ := List.mem_map.1 hi
      have := whereEq_lt hj
      rw [apply_length s hs] at this
      rw [hl]
      exact ((count_lt s _ j hs).1 this).1

/-- C30.  Reading one patch gives the same rows as reading all rows and selecting the patch, if the patch has a row
among the rows read.  (The missing case is `read_empty_patch_wrong`.) -/
theorem read_patch_partial (firstRow lastRow nth : ℤ) (s : Slice) (h : mkSlice firstRow lastRow nth = .ok s)
    (patchCol : List ℤ) (p : ℤ) (col : List α) (hl : col.length = patchCol.length) (hp : p ∈ s.apply patchCol) :
    readPatch s patchCol p col = selectPatch s patchCol p col ∧ ∃ c, selectPatch s patchCol p col = .ok c := by
  obtain ⟨h1, h2, h3, h4, h5⟩ := mkSlice_spec h
  have hne : whereEq (s.apply patchCol) p ≠ [] := by
    obtain ⟨i, hi, he⟩ := List.mem_iff_getElem.1 hp
    intro hc
    have : i ∈ whereEq (s.apply patchCol) p := by
      unfold whereEq
      rw [List.mem_filter]
      exact ⟨by simpa using hi, by simp [List.getElem?_eq_getElem hi, he]⟩
    rw [hc] at this; simp at this
  have hlt : ∀ j ∈ whereEq (s.apply patchCol) p, j < s.count col.length := by
    intro j hj
    have := whereEq_lt hj
    rwa [apply_length s h3, ← hl] at this
  obtain ⟨r, hr, -, -⟩ := takeIdx_some (idx := whereEq (s.apply patchCol) p) (l := s.apply col)
    (by intro j hj; rw [apply_length s h3]; exact hlt j hj)
  have hsel : selectPatch s patchCol p col = .ok r := by unfold selectPatch; rw [hr]
  refine ⟨?_, r, hsel⟩
  rw [hsel]
  unfold readPatch
  rw [patchRows_eq s h3 _ hne]
  simp only
  rw [if_neg (by simpa using hne), takeIdx_map_start s h3 _ _ hlt, hr]

/-- C30.  What the selection of a patch gives: the items of the column in rows of the patch, in order. -/
theorem select_patch_rows (s : Slice) (patchCol : List ℤ) (p : ℤ) (col c : List α) (h : selectPatch s patchCol p col = .ok c) :
    c = (List.range (s.apply patchCol).length).filterMap fun i =>
      if (s.apply patchCol)[i]? = some p then (s.apply col)[i]? else none := by
  unfold selectPatch at h
  cases hr : takeIdx (whereEq (s.apply patchCol) p) (s.apply col) with
  | none => rw [hr] at h; cases h
  | some r =>
    rw [hr] at h
    cases h
    rw [← takeIdx_eq hr]
    unfold whereEq
    rw [List.filterMap_filter]
    apply List.filterMap_congr
    intro i _
    simp

example : ∃ s, mkSlice 2 (-1) 2 = .ok s ∧
    readPatch s [1, 0, 1, 1, 0, 0, 1] 0 [10, 20, 30, 40, 50, 60, 70] = .ok [20, 60] := ⟨_, rfl, rfl⟩

/-- C30 fails for a patch with no row among those read: selecting it from all rows gives no rows, reading it is an error. -/
theorem read_empty_patch_wrong :
    (∃ s, mkSlice 1 2 1 = .ok s ∧ selectPatch s [0, 0, 1] 1 [10, 20, 30] = .ok ([] : List ℕ) ∧
      readPatch s [0, 0, 1] 1 [10, 20, 30] = .error .valueError) ∧
    (∃ s, mkSlice 1 (-1) 1 = .ok s ∧ selectPatch s [0, 0, 2] 1 [10, 20, 30] = .ok ([] : List ℕ) ∧
      readPatch s [0, 0, 2] 1 [10, 20, 30] = .error .assertion) :=
  ⟨⟨_, rfl, rfl, rfl⟩, ⟨_, rfl, rfl, rfl⟩⟩

/-- C30 fails for a file which is one patch (no patch column): with a row selection that is not the whole file every read is
a TypeError. -/
theorem read_patch_file_slice_wrong (s : Slice) (hs : s.isAll = false) (col : List α) :
    readPatchFile s col = .error .typeError := by
  unfold readPatchFile; rw [hs]; rfl

example : ∃ s, mkSlice 2 (-1) 1 = .ok s ∧ s.isAll = false := ⟨_, rfl, rfl⟩

end Rows
end TreeCorr
