import Verif.Props.Catalog

/-!
C32: concrete catalogues, and where the code does not remove bad rows.
-/

namespace TreeCorr
namespace Catalog

/-- Default settings. -/
def exSet : Settings ℚ := ⟨fun _ => false, none, 0, false, fun a b _ => (a, b, some 0)⟩

/-- Columns `x`, `y`, `k`. -/
def exCol (x y k : List (Option ℚ)) : Col → Option (List (Option ℚ))
  | .x => some x
  | .y => some y
  | .k => some k
  | _ => none

/-- What one sees of a catalogue. -/
structure View where
  x : Option (List (Option ℚ))
  k : Option (List (Option ℚ))
  w : Option (List (Option ℚ))
  sumw : Option ℚ
deriving DecidableEq

/-- The catalogue, or the error. -/
def view (r : Except PyErr (Cat ℚ)) : PyErr ⊕ View :=
  match r with
  | .error e => .inl e
  | .ok C => .inr ⟨C.tab.col .x, C.tab.col .k, C.tab.w, C.sumw⟩

/-- Four rows: NaN in `k` of row 1, a flag in row 2. -/
def exTab : Tab ℚ where
  col := exCol [some 1, some 2, some 3, some 4] [some 1, some 1, some 1, some 1] [some 5, none, some 7, some 8]
  w := none
  wpos := none
  flag := some [0, 0, 4, 0]
  patch := none

/-- The model runs: rows 0 and 3 remain. -/
example : view (finishInput exSet exTab) =
    .inr ⟨some [some 1, some 4], some [some 5, some 8], some [some 1, some 1], some 2⟩ := by decide +kernel

/-- With `keep_zero_weight` all rows remain. -/
example : view (finishInput { exSet with keepZero := true } exTab) =
    .inr ⟨some [some 1, some 2, some 3, some 4], some [some 5, some 0, some 7, some 8], some [some 1, some 0, some 0, some 1],
      some 2⟩ := by decide +kernel

/-- The same rows, as functions of the row number. -/
def exSrc : Src ℚ where
  col := fun c => match c with
    | .x => some fun i => some (i + 1)
    | .y => some fun _ => some 1
    | .k => some fun i => if i = 1 then none else some (i + 5)
    | _ => none
  w := none
  wpos := none
  flag := some fun i => if i = 2 then 4 else 0
  patch := none

example : (exSrc.tab 4).col .x = exTab.col .x ∧ (exSrc.tab 4).col .k = exTab.col .k ∧ (exSrc.tab 4).flag = exTab.flag := by decide +kernel

theorem exSrc_ok : exSrc.Ok exSet := ⟨Or.inl rfl, fun _ _ h => by simp [exSet] at h⟩

/-- The hypotheses of `bad_rows_removed_partial` hold, with a sum of weights that is not zero. -/
example : ∃ C, finishInput exSet (exSrc.tab 4) = .ok C ∧ C.sumw = some 2 := by
  obtain ⟨h1, h2⟩ := bad_rows_removed_partial (n := 4) exSet exSrc exSrc_ok (by norm_num) rfl rfl
  have hv : view (finishInput exSet (exSrc.tab 4)) =
    .inr ⟨some [some 1, some 4], some [some 5, some 8], some [some 1, some 1], some 2⟩ := by decide +kernel
  cases hf : finishInput exSet (exSrc.tab 4) with
  | error e => rw [hf] at hv; simp [view] at hv
  | ok C =>
    rw [hf] at hv
    simp only [view, Sum.inr.injEq, View.mk.injEq] at hv
    exact ⟨C, rfl, hv.2.2.2⟩

/-- Two rows with `wpos`, the second with NaN in `k`. -/
def wposTab : Tab ℚ where
  col := exCol [some 1, some 2] [some 1, some 1] [some 5, none]
  w := none
  wpos := some [some 1, some 1]
  flag := none
  patch := none

/-- C32 fails with `wpos`: a row with NaN keeps its `wpos` and is not removed (the manual, catalog.py:427-431, has it removed as one
of the rows that "indirectly get wpos=0 due to NaN"); it stays with zero in place of the value, and zero weight. -/
theorem nan_rows_with_wpos_wrong : view (finishInput exSet wposTab) =
    .inr ⟨some [some 1, some 2], some [some 5, some 0], some [some 1, some 0], some 1⟩ := by decide +kernel

/-- Even a row without position stays, at position zero. -/
theorem nan_position_with_wpos_wrong :
    view (finishInput exSet { wposTab with col := exCol [some 1, none] [some 1, some 1] [some 5, some 6] }) =
      .inr ⟨some [some 1, some 0], some [some 5, some 6], some [some 1, some 0], some 1⟩ := by decide +kernel

/-- Four rows; the last two are flagged. -/
def flagTab : Tab ℚ where
  col := exCol [some 1, some 2, some 3, some 4] [some 1, some 1, some 1, some 1] [some 5, some 6, some 7, some 8]
  w := none
  wpos := none
  flag := some [0, 0, 1, 1]
  patch := none

/-- C32 fails for one patch taken from arrays: the flags are not selected with the other columns (catalog.py:1592-1619), so both
flagged rows of the patch {2, 3} stay, with weight 1. -/
theorem single_patch_flag_wrong : view (fromArrays exSet (some [2, 3]) flagTab) =
    .inr ⟨some [some 3, some 4], some [some 7, some 8], some [some 1, some 1], some 2⟩ := by decide +kernel

/-- With given weights the same call is an IndexError. -/
theorem single_patch_flag_weights_wrong :
    view (fromArrays exSet (some [0, 1]) { flagTab with w := some [some 1, some 1, some 1, some 1] }) = .inl .indexError := by
  decide +kernel

/-- Without the choice of a patch the flagged rows are removed. -/
example : view (fromArrays exSet none flagTab) =
    .inr ⟨some [some 1, some 2], some [some 5, some 6], some [some 1, some 1], some 2⟩ := by decide +kernel

/-- A flip asked for a column that is not there (as for randoms read with the settings of the data) is a TypeError. -/
theorem flip_missing_wrong : view (finishInput { exSet with flip := fun c => c = .g1 } exTab) = .inl .typeError := by decide +kernel

end Catalog
end TreeCorr
