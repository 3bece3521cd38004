import Verif.Model.Rows
import Mathlib.Tactic.Linarith
import Mathlib.Data.List.Basic
import Mathlib.Data.List.MinMax
import Mathlib.Data.List.Range

/-! Helper lemmas on row selections. -/

namespace TreeCorr
namespace Rows

variable {α : Type}

theorem count_lt (s : Slice) (n k : ℕ) (hs : 1 ≤ s.step) :
    k < s.count n ↔ s.start + k * s.step < n ∧ ∀ e, s.stop = some e → s.start + k * s.step < e := by
  have key : ∀ stop, k < (if s.start < stop then (stop - s.start - 1) / s.step + 1 else 0) ↔ s.start + k * s.step < stop := by
    intro stop
    split_ifs with h
    · rw [Nat.lt_add_one_iff, Nat.le_div_iff_mul_le (by omega)]
      omega
    · constructor
      · intro h; omega
      · intro h'; nlinarith [Nat.zero_le (k * s.step)]
  unfold Slice.count
  cases h : s.stop with
  | none => simp [key]
  | some e =>
    refine (key (min e n)).trans ?_
    rw [lt_min_iff]
    simp [and_comm]

theorem filterMap_range_getElem? (f : ℕ → Option α) (n : ℕ) (h : ∀ k < n, (f k).isSome) (k : ℕ) :
    ((List.range n).filterMap f)[k]? = if k < n then f k else none := by
  have h1 : (List.range n).filterMap f = (List.range n).pmap (fun k hk => (f k).get (h k hk)) (by simp) := by
    clear k
    have : ∀ l : List ℕ, (hl : ∀ k ∈ l, k < n) → l.filterMap f = l.pmap (fun k hk => (f k).get (h k hk)) hl := by
      intro l hl
      induction l with
      | nil => rfl
      | cons a l ih =>
        rw [List.filterMap_cons, List.pmap_cons, ← ih]
        obtain ⟨b, hb⟩ := Option.isSome_iff_exists.1 (h a (hl a (by simp)))
        simp [hb]
    exact this _ _
  rw [h1]
  split_ifs with hk
  · rw [List.getElem?_eq_getElem (by simpa using hk)]
    simp
  · rw [List.getElem?_eq_none (by simpa using hk)]

theorem apply_getElem? (s : Slice) (hs : 1 ≤ s.step) (l : List α) (k : ℕ) :
    (s.apply l)[k]? = if (∀ e, s.stop = some e → s.start + k * s.step < e) then l[s.start + k * s.step]? else none := by
  unfold Slice.apply
  rw [filterMap_range_getElem?]
  · by_cases h1 : k < s.count l.length
    · rw [if_pos h1, if_pos ((count_lt s _ k hs).1 h1).2]
    · rw [if_neg h1]
      split_ifs with h2
      · rw [List.getElem?_eq_none]
        by_contra hc
        exact h1 ((count_lt s _ k hs).2 ⟨by omega, h2⟩)
      · rfl
  · intro k hk
    have := ((count_lt s _ k hs).1 hk).1
    simp [this]

theorem apply_length (s : Slice) (hs : 1 ≤ s.step) (l : List α) : (s.apply l).length = s.count l.length := by
  unfold Slice.apply
  have h : ∀ k < s.count l.length, (l[s.start + k * s.step]?).isSome := by
    intro k hk
    have := ((count_lt s _ k hs).1 hk).1
    simp [this]
  apply le_antisymm
  · exact (List.length_filterMap_le _ _).trans (by simp)
  · by_contra hc
    push Not at hc
    have h2 := filterMap_range_getElem? _ _ h (((List.range (s.count l.length)).filterMap fun k => l[s.start + k * s.step]?).length)
    rw [if_pos hc, List.getElem?_eq_none (le_refl _)] at h2
    have := h _ hc
    rw [← h2] at this
    cases this

theorem everyNth_getElem? (step : ℕ) (hs : 1 ≤ step) (l : List α) (k : ℕ) : (everyNth step l)[k]? = l[k * step]? := by
  induction k generalizing l with
  | zero => cases l <;> simp [everyNth]
  | succ k ih =>
    cases l with
    | nil => simp [everyNth]
    | cons a l =>
      rw [everyNth, List.getElem?_cons_succ, ih, List.getElem?_drop]
      have : (k + 1) * step = (step - 1 + k * step) + 1 := by
        rw [Nat.succ_mul]; omega
      rw [this, List.getElem?_cons_succ]

theorem asciiRead_eq (s : Slice) (hs : 1 ≤ s.step) (l : List α) : asciiRead s l = s.apply l := by
  apply List.ext_getElem?
  intro k
  rw [apply_getElem? s hs]
  unfold asciiRead
  simp only
  rw [everyNth_getElem? _ hs]
  cases h : s.stop with
  | none => simp [List.getElem?_drop]
  | some e =>
    simp only [Option.some.injEq, forall_eq']
    rw [List.getElem?_take, List.getElem?_drop]
    split_ifs with h1 h2 h2
    · rfl
    · omega
    · omega
    · rfl

theorem filter_mod (step : ℕ) (hs : 1 ≤ step) (l : List α) (o : ℕ) :
    ((l.zipIdx o).filter fun x => x.2 % step = 0).map Prod.fst = everyNth step (l.drop ((step - o % step) % step)) := by
  induction l generalizing o with
  | nil => simp [everyNth]
  | cons a l ih =>
    rw [List.zipIdx_cons, List.filter_cons]
    have hlt := Nat.mod_lt o (by omega : step > 0)
    by_cases h : o % step = 0
    · have h1 : (step - o % step) % step = 0 := by rw [h]; simp
      rw [h1, List.drop_zero, everyNth]
      simp only [h, decide_true, if_true, List.map_cons]
      rw [ih]
      congr 3
      rcases Nat.lt_or_ge 1 step with hs1 | hs1
      · have : (o + 1) % step = 1 := by
          rw [Nat.add_mod, h, Nat.zero_add, Nat.mod_mod, Nat.mod_eq_of_lt hs1]
        rw [this, Nat.mod_eq_of_lt (by omega)]
      · have : step = 1 := by omega
        subst this
        simp [Nat.mod_one]
    · simp only [h, decide_false, Bool.false_eq_true, if_false]
      rw [ih]
      have h1 : (step - o % step) % step = (step - o % step - 1) + 1 := by
        rw [Nat.mod_eq_of_lt (by omega)]; omega
      rw [h1, List.drop_succ_cons]
      congr 2
      rcases Nat.lt_or_ge (o % step + 1) step with h2 | h2
      · have : (o + 1) % step = o % step + 1 := by
          rw [Nat.add_mod]
          rcases Nat.lt_or_ge 1 step with hs1 | hs1
          · rw [Nat.mod_eq_of_lt hs1, Nat.mod_eq_of_lt h2]
          · omega
        rw [this, Nat.mod_eq_of_lt (by omega)]
        omega
      · have h3 : o % step + 1 = step := by omega
        have : (o + 1) % step = 0 := by
          have := Nat.div_add_mod o step
          have h4 : o + 1 = step * (o / step + 1) := by rw [Nat.mul_add, Nat.mul_one]; omega
          rw [h4]; simp
        rw [this]
        simp
        omega

theorem zipIdx_filter_start (start step : ℕ) (l : List α) (o : ℕ) (ho : o ≤ start) :
    ((l.zipIdx o).filter fun x => ¬ (x.2 < start ∨ (x.2 - start) % step ≠ 0)).map Prod.fst =
      (((l.drop (start - o)).zipIdx 0).filter fun x => x.2 % step = 0).map Prod.fst := by
  induction l generalizing o with
  | nil => simp
  | cons a l ih =>
    rcases Nat.lt_or_ge o start with h | h
    · rw [List.zipIdx_cons, List.filter_cons]
      rw [if_neg (by simp [h]), ih (o + 1) h]
      have : start - o = (start - (o + 1)) + 1 := by omega
      rw [this, List.drop_succ_cons]
    · have : o = start := by omega
      subst this
      rw [Nat.sub_self, List.drop_zero]
      have : ∀ (m : List α) (i : ℕ), ((m.zipIdx (o + i)).filter fun x => ¬ (x.2 < o ∨ (x.2 - o) % step ≠ 0)).map Prod.fst =
          ((m.zipIdx i).filter fun x => x.2 % step = 0).map Prod.fst := by
        intro m
        induction m with
        | nil => intro i; rfl
        | cons b m ihm =>
          intro i
          rw [List.zipIdx_cons, List.zipIdx_cons, List.filter_cons, List.filter_cons]
          have h1 : ¬ (o + i < o) := by omega
          have h2 : o + i - o = i := by omega
          have ih' := ihm (i + 1)
          rw [← Nat.add_assoc] at ih'
          by_cases h3 : i % step = 0
          · rw [if_pos (by simp [h2, h3]), if_pos (by simp [h3]), List.map_cons, List.map_cons, ih']
          · rw [if_neg (by simp [h2, h3]), if_neg (by simp [h3])]
            exact ih'
      have := this (a :: l) 0
      simpa using this

theorem pandasRead_eq (s : Slice) (hs : 1 ≤ s.step) (hstop : ∀ e, s.stop = some e → s.start < e) (l : List α) :
    pandasRead s l = s.apply l := by
  have h0 : ((l.zipIdx).filter fun x => ¬ (x.2 < s.start ∨ (x.2 - s.start) % s.step ≠ 0)).map Prod.fst =
      everyNth s.step (l.drop s.start) := by
    rw [zipIdx_filter_start s.start s.step l 0 (Nat.zero_le _), filter_mod s.step hs]
    simp
  apply List.ext_getElem?
  intro k
  rw [apply_getElem? s hs]
  unfold pandasRead
  simp only [h0]
  cases h : s.stop with
  | none => simp [everyNth_getElem? _ hs, List.getElem?_drop]
  | some e =>
    have he := hstop e h
    simp only [Option.some.injEq, forall_eq']
    rw [List.getElem?_take, everyNth_getElem? _ hs, List.getElem?_drop]
    have : k < (e - s.start - 1) / s.step + 1 ↔ s.start + k * s.step < e := by
      rw [Nat.lt_add_one_iff, Nat.le_div_iff_mul_le (by omega)]; omega
    simp only [this]

theorem takeIdx_some {idx : List ℕ} {l : List α} (h : ∀ i ∈ idx, i < l.length) :
    ∃ r, takeIdx idx l = some r ∧ r.length = idx.length ∧ ∀ k (hk : k < idx.length), r[k]? = l[idx[k]]? := by
  unfold takeIdx
  induction idx with
  | nil => exact ⟨[], rfl, rfl, by simp⟩
  | cons i idx ih =>
    obtain ⟨r, h1, h2, h3⟩ := ih fun j hj => h j (List.mem_cons_of_mem _ hj)
    have hi := h i (by simp)
    refine ⟨l[i] :: r, ?_, by simp [h2], ?_⟩
    · rw [List.mapM_cons, h1, List.getElem?_eq_getElem hi]; rfl
    · intro k hk
      cases k with
      | zero => simp [List.getElem?_eq_getElem hi]
      | succ k => simpa using h3 k (by simpa using hk)

theorem takeIdx_eq {idx : List ℕ} {l r : List α} (h : takeIdx idx l = some r) : idx.filterMap (fun i => l[i]?) = r := by
  unfold takeIdx at h
  induction idx generalizing r with
  | nil => simpa using h
  | cons i idx ih =>
    rw [List.mapM_cons] at h
    cases h1 : l[i]? with
    | none => rw [h1] at h; cases h
    | some a =>
      rw [h1] at h
      cases h2 : idx.mapM (fun i => l[i]?) with
      | none => rw [h2] at h; cases h
      | some r' =>
        rw [h2] at h
        cases h
        rw [List.filterMap_cons, h1, ih h2]

theorem pandasIdx_eq (idx : List ℕ) (hidx : idx.Pairwise (· < ·)) (l : List α) (h : ∀ i ∈ idx, i < l.length) :
    some (pandasIdx idx l) = takeIdx idx l := by
  obtain ⟨r, h1, -, -⟩ := takeIdx_some h
  rw [h1, ← takeIdx_eq h1]
  congr 1
  unfold pandasIdx
  have e1 : l.zipIdx = (List.range l.length).filterMap fun i => (l[i]?).map fun a => (a, i) := by
    apply List.ext_getElem?
    intro k
    rw [filterMap_range_getElem? _ _ (by intro k hk; simp [hk])]
    rw [List.getElem?_zipIdx]
    split_ifs with hk
    · simp
    · simp [List.getElem?_eq_none (not_lt.1 hk)]
  rw [e1, List.filter_filterMap, List.map_filterMap]
  have e2 : idx = (List.range l.length).filter (· ∈ idx) := by
    have hs : (List.range l.length).Pairwise (· < ·) := List.pairwise_lt_range
    apply List.Perm.eq_of_pairwise (le := (· < ·)) _ hidx (hs.filter _)
    · rw [List.perm_ext_iff_of_nodup (hidx.imp fun h => ne_of_lt h) ((hs.imp fun h => ne_of_lt h).filter _)]
      intro i
      simp only [List.mem_filter, List.mem_range, decide_eq_true_eq]
      exact ⟨fun hi => ⟨h i hi, hi⟩, fun hi => hi.2⟩
    · intro a b _ _ h1 h2; omega
  conv_rhs => rw [e2, List.filterMap_filter]
  apply List.filterMap_congr
  intro i hi
  cases h2 : l[i]? with
  | none => simp
  | some a => by_cases h3 : i ∈ idx <;> simp [Option.filter, h3]

theorem whereEq_lt {patch : List ℤ} {p : ℤ} {i : ℕ} (h : i ∈ whereEq patch p) : i < patch.length := by
  unfold whereEq at h
  simpa using (List.mem_filter.1 h).1

/-- The file rows for the patch are the rows of the slice at the positions in the patch. -/
theorem patchRows_eq (s : Slice) (hs : 1 ≤ s.step) (use : List ℕ) (hne : use ≠ []) :
    patchRows s use = .ok (use.map fun j => s.start + j * s.step) := by
  unfold patchRows
  split_ifs with h
  · unfold Slice.isAll at h
    simp only [decide_eq_true_eq] at h
    obtain ⟨h1, -, h3⟩ := h
    simp [h1, h3]
  · cases hm : use.max? with
    | none => rw [List.max?_eq_none_iff] at hm; exact absurd hm hne
    | some m =>
      simp only
      have hmax : ∀ j ∈ use, j ≤ m := fun j hj => (List.max?_eq_some_iff.1 hm).2 j hj
      have hlen : (m * s.step + s.start + 1 - s.start - 1) / s.step + 1 = m + 1 := by
        have : m * s.step + s.start + 1 - s.start - 1 = m * s.step := by omega
        rw [this, Nat.mul_div_cancel _ (by omega)]
      rw [hlen]
      obtain ⟨r, h1, h2, h3⟩ := takeIdx_some (idx := use) (l := (List.range (m + 1)).map fun k => s.start + k * s.step)
        (by intro i hi; simp; have := hmax i hi; omega)
      rw [h1]
      simp only
      congr 1
      apply List.ext_getElem?
      intro k
      by_cases hk : k < use.length
      · rw [h3 k hk, List.getElem?_map, List.getElem?_map, List.getElem?_eq_getElem hk,
          List.getElem?_range (by have := hmax _ (List.getElem_mem hk); omega)]
      · rw [List.getElem?_eq_none (by omega), List.getElem?_eq_none (by simp; omega)]

theorem takeIdx_map_start (s : Slice) (hs : 1 ≤ s.step) (use : List ℕ) (l : List α)
    (h : ∀ j ∈ use, j < s.count l.length) :
    takeIdx (use.map fun j => s.start + j * s.step) l = takeIdx use (s.apply l) := by
  unfold takeIdx
  rw [List.mapM_map]
  induction use with
  | nil => rfl
  | cons j use ih =>
    rw [List.mapM_cons, List.mapM_cons, ih fun i hi => h i (List.mem_cons_of_mem _ hi)]
    have : (s.apply l)[j]? = l[s.start + j * s.step]? := by
      rw [apply_getElem? s hs, if_pos ((count_lt s _ j hs).1 (h j (by simp))).2]
    simp only [this]
    rfl

end Rows
end TreeCorr
