import Verif.Spec.Catalog
import Verif.Proofs.Rows

namespace TreeCorr
namespace Catalog

open Rows (takeIdx)
open Classical

variable {R : Type} [Field R] [DecidableEq R] {n : ℕ}

@[simp] theorem arr_length {α : Type} (f : ℕ → α) : (arr n f).length = n := by simp [arr]

theorem arr_get {α : Type} (f : ℕ → α) (i : ℕ) : (arr n f)[i]? = if i < n then some (f i) else none := by
  unfold arr
  rw [List.getElem?_map]
  split_ifs with h
  · simp [h]
  · simp [List.getElem?_range, h]

theorem arr_congr {α : Type} {f g : ℕ → α} (h : ∀ i < n, f i = g i) : arr n f = arr n g := by
  unfold arr
  exact List.map_congr_left fun i hi => h i (List.mem_range.1 hi)

theorem arr_map {α β : Type} (f : ℕ → α) (g : α → β) : (arr n f).map g = arr n fun i => g (f i) := by
  simp [arr, Function.comp_def]

theorem arr_replicate {α : Type} (a : α) : List.replicate n a = arr n fun _ => a := by
  apply List.ext_getElem?
  intro i
  rw [arr_get, List.getElem?_replicate]

theorem zip_arr {α β γ : Type} (g : α → β → γ) (f : ℕ → α) (h : ℕ → β) :
    List.zipWith g (arr n f) (arr n h) = arr n fun i => g (f i) (h i) := by
  apply List.ext_getElem?
  intro i
  rw [List.getElem?_zipWith, arr_get, arr_get, arr_get]
  split_ifs <;> rfl

theorem mapIdx_arr {α β : Type} (g : ℕ → α → β) (f : ℕ → α) : (arr n f).mapIdx g = arr n fun i => g i (f i) := by
  apply List.ext_getElem?
  intro i
  rw [List.getElem?_mapIdx, arr_get, arr_get]
  split_ifs <;> rfl

theorem takeIdx_arr {α : Type} (f : ℕ → α) {idx : List ℕ} (h : ∀ i ∈ idx, i < n) : takeIdx idx (arr n f) = some (idx.map f) := by
  obtain ⟨r, h1, -, -⟩ := Rows.takeIdx_some (idx := idx) (l := arr n f) (by simpa using h)
  have h2 := Rows.takeIdx_eq h1
  rw [h1, ← h2]
  congr 1
  clear h1 h2
  induction idx with
  | nil => rfl
  | cons a l ih =>
    have ha := h a (by simp)
    rw [List.filterMap_cons, arr_get, if_pos ha]
    simp only [List.map_cons]
    rw [ih fun i hi => h i (by simp [hi])]

theorem nanIdx_arr (f : ℕ → Option R) : nanIdx (arr n f) = (List.range n).filter fun i => f i = none := by
  unfold nanIdx
  rw [arr_length]
  apply List.filter_congr
  intro i hi
  rw [arr_get, if_pos (List.mem_range.1 hi)]
  simp

theorem zeroMask_arr (m : ℕ → Bool) (f : ℕ → Option R) :
    zeroMask (arr n m) (arr n f) = .ok (arr n fun i => if m i = true then some 0 else f i) := by
  unfold zeroMask
  rw [if_pos (by simp), zip_arr]

theorem getD_weight (S : Src R) : (S.tab n).w.getD (List.replicate n (some 1)) = arr n S.weight := by
  unfold Src.tab Src.weight
  cases S.w with
  | none => simp [arr_replicate]
  | some f => simp

/-- The flips by rows. -/
def Src.flipS (s : Settings R) (S : Src R) : Src R := { S with col := fun c => (S.col c).map fun f i => flipped s c (f i) }

theorem flipCols_tab (s : Settings R) (S : Src R) (h : S.Ok s) : flipCols s (S.tab n) = .ok ((S.flipS s).tab n) := by
  unfold flipCols
  rw [if_pos]
  · congr 1
    unfold Src.tab Src.flipS flipped
    simp only [Tab.mk.injEq, and_true]
    funext c
    split_ifs with hc <;> cases S.col c <;> simp [arr_map]
  · intro c hc hf
    simpa [Src.tab] using h.flips c hc hf

/-- The flags by rows. -/
noncomputable def Src.flagS (s : Settings R) (S : Src R) : Src R :=
  match S.flag with
  | none => S
  | some f => { S with w := some fun i => if s.flagged (f i) = true then some 0 else S.weight i,
                       wpos := S.wpos.map fun p i => if s.flagged (f i) = true then some 0 else p i }

theorem applyFlag_tab (s : Settings R) (S : Src R) : applyFlag s (S.tab n) = .ok ((S.flagS s).tab n) := by
  have hw := getD_weight (n := n) S
  unfold applyFlag Src.flagS
  cases hf : S.flag with
  | none => simp [Src.tab, hf]
  | some f =>
    have h1 : (S.tab n).flag = some (arr n f) := by simp [Src.tab, hf]
    rw [h1]
    simp only [arr_length, hw, arr_map]
    rw [zeroMask_arr]
    cases hp : S.wpos with
    | none =>
      have h2 : (S.tab n).wpos = none := by simp [Src.tab, hp]
      rw [h2]
      simp [Src.tab, hp, hf]
    | some p =>
      have h2 : (S.tab n).wpos = some (arr n p) := by simp [Src.tab, hp]
      rw [h2]
      simp only [zeroMask_arr]
      simp [Src.tab, hf]

/-- Zero in place of NaN. -/
def nz (a : Option R) : Option R := some (a.getD 0)

/-- Weights after a check of a column. -/
noncomputable def nanW (n : ℕ) (f : ℕ → Option R) (S : Src R) : Option (ℕ → Option R) :=
  if ∃ i < n, f i = none then some fun i => if f i = none then some 0 else S.weight i else S.w

theorem nanWeights_tab (f : ℕ → Option R) (S : Src R) :
    nanWeights (arr n f) (S.tab n).w = .ok ((nanW n f S).map (arr n)) := by
  unfold nanWeights nanW
  rw [nanIdx_arr]
  by_cases h : ∃ i < n, f i = none
  · rw [if_neg, if_pos h, arr_length, getD_weight]
    · unfold zeroAt
      rw [if_pos, mapIdx_arr]
      · simp only [Option.map_some, Except.ok.injEq, Option.some.injEq]
        apply arr_congr
        intro i hi
        simp [hi]
      · intro i hi
        simpa using (List.mem_filter.1 hi).1
    · obtain ⟨i, hi, hf⟩ := h
      intro h0
      have : i ∈ (List.range n).filter fun i => f i = none := List.mem_filter.2 ⟨List.mem_range.2 hi, by simpa using hf⟩
      rw [h0] at this
      simp at this
  · rw [if_pos, if_neg h]
    · rfl
    · rw [List.filter_eq_nil_iff]
      intro i hi
      simp only [decide_eq_true_eq]
      exact fun hf => h ⟨i, List.mem_range.1 hi, hf⟩

theorem nanZero_arr (f : ℕ → Option R) : nanZero (arr n f) = arr n fun i => nz (f i) := arr_map _ _

/-- One check by rows. -/
noncomputable def Src.chk1 (n : ℕ) (S : Src R) (c : Col) : Src R :=
  match S.col c with
  | none => S
  | some f => { S with w := nanW n f S, col := fun c' => if c' = c then some fun i => nz (f i) else S.col c' }

theorem checkNaN_tab (S : Src R) (c : Col) : checkNaN (S.tab n) c = .ok ((S.chk1 n c).tab n) := by
  unfold checkNaN Src.chk1
  cases hc : S.col c with
  | none => simp [Src.tab, hc]
  | some f =>
    have h1 : (S.tab n).col c = some (arr n f) := by simp [Src.tab, hc]
    rw [h1]
    simp only [nanWeights_tab, nanZero_arr]
    congr 1
    unfold Src.tab
    simp only [Tab.mk.injEq, and_true, true_and]
    funext c'
    by_cases h : c' = c <;> simp [h]

theorem foldChk_tab (L : List Col) (S : Src R) : L.foldlM checkNaN (S.tab n) = .ok ((L.foldl (Src.chk1 n) S).tab n) := by
  induction L generalizing S with
  | nil => rfl
  | cons c L ih =>
    rw [List.foldlM_cons, checkNaN_tab]
    exact ih _

/-- Some column of the list has NaN in the row. -/
def Src.NaNin (L : List Col) (S : Src R) (i : ℕ) : Prop := ∃ c ∈ L, ∃ f, S.col c = some f ∧ f i = none

theorem weight_nanW (f : ℕ → Option R) (S T : Src R) (hT : T.w = nanW n f S) {i : ℕ} (hi : i < n) :
    T.weight i = if f i = none then some 0 else S.weight i := by
  unfold Src.weight
  rw [hT]
  unfold nanW
  by_cases h : ∃ i < n, f i = none
  · rw [if_pos h]
    rfl
  · rw [if_neg h, if_neg fun hf => h ⟨i, hi, hf⟩]

theorem nanW_none (f : ℕ → Option R) (S : Src R) : nanW n f S = none ↔ S.w = none ∧ ∀ i < n, f i ≠ none := by
  unfold nanW
  by_cases h : ∃ i < n, f i = none
  · rw [if_pos h]
    obtain ⟨i, hi, hf⟩ := h
    simp only [reduceCtorEq, false_iff, not_and, not_forall]
    exact fun _ => ⟨i, hi, fun h => h hf⟩
  · rw [if_neg h]
    push Not at h
    exact ⟨fun hw => ⟨hw, h⟩, fun hw => hw.1⟩

theorem foldChk_spec (L : List Col) (hL : L.Nodup) (S : Src R) :
    (∀ c, (L.foldl (Src.chk1 n) S).col c = if c ∈ L then (S.col c).map (fun f i => nz (f i)) else S.col c) ∧
    (L.foldl (Src.chk1 n) S).wpos = S.wpos ∧ (L.foldl (Src.chk1 n) S).patch = S.patch ∧
    (∀ i < n, (L.foldl (Src.chk1 n) S).weight i = if S.NaNin L i then some 0 else S.weight i) ∧
    ((L.foldl (Src.chk1 n) S).w = none ↔ S.w = none ∧ ∀ i < n, ¬ S.NaNin L i) := by
  induction L generalizing S with
  | nil => simp [Src.NaNin]
  | cons c L ih =>
    obtain ⟨hc, hL⟩ := List.nodup_cons.1 hL
    obtain ⟨h1, h2, h3, h4, h5⟩ := ih hL (S.chk1 n c)
    rw [List.foldl_cons]
    have hcol : ∀ c' ∈ L, (S.chk1 n c).col c' = S.col c' := by
      intro c' hc'
      have : c' ≠ c := fun h => hc (h ▸ hc')
      unfold Src.chk1
      cases S.col c <;> simp [this]
    have hnan : ∀ i, (S.chk1 n c).NaNin L i ↔ S.NaNin L i := by
      intro i
      constructor
      · rintro ⟨c', hc', f, hf, hi⟩
        exact ⟨c', hc', f, by rw [← hcol c' hc', hf], hi⟩
      · rintro ⟨c', hc', f, hf, hi⟩
        exact ⟨c', hc', f, by rw [hcol c' hc', hf], hi⟩
    have hcons : ∀ i, S.NaNin (c :: L) i ↔ (∃ f, S.col c = some f ∧ f i = none) ∨ S.NaNin L i := by
      intro i
      simp [Src.NaNin]
    refine ⟨?_, ?_, ?_, ?_, ?_⟩
    · intro c'
      rw [h1]
      by_cases hc' : c' ∈ L
      · rw [if_pos hc', if_pos (by simp [hc']), hcol c' hc']
      · rw [if_neg hc']
        unfold Src.chk1
        by_cases he : c' = c
        · subst he
          cases hS : S.col c' <;> simp [hS]
        · cases hS : S.col c <;> simp [he, hc']
    · rw [h2]
      unfold Src.chk1
      cases S.col c <;> rfl
    · rw [h3]
      unfold Src.chk1
      cases S.col c <;> rfl
    · intro i hi
      rw [h4 i hi]
      cases hS : S.col c with
      | none =>
        have : S.chk1 n c = S := by unfold Src.chk1; rw [hS]
        rw [this]
        congr 1
        rw [hcons, hS]
        simp
      | some f =>
        have hw : (S.chk1 n c).w = nanW n f S := by unfold Src.chk1; rw [hS]
        rw [weight_nanW f S _ hw hi]
        by_cases ha : S.NaNin L i
        · rw [if_pos ((hnan i).2 ha), if_pos ((hcons i).2 (Or.inr ha))]
        · rw [if_neg fun h => ha ((hnan i).1 h)]
          congr 1
          rw [hcons, hS]
          simp [ha]
    · rw [h5]
      cases hS : S.col c with
      | none =>
        have : S.chk1 n c = S := by unfold Src.chk1; rw [hS]
        rw [this]
        simp [hcons, hS]
      | some f =>
        have hw : (S.chk1 n c).w = nanW n f S := by unfold Src.chk1; rw [hS]
        rw [hw, nanW_none]
        simp only [hnan, hcons, hS, Option.some.injEq]
        constructor
        · rintro ⟨⟨a, b⟩, d⟩
          refine ⟨a, fun i hi => ?_⟩
          rintro (⟨g, rfl, hg⟩ | h)
          · exact b i hi hg
          · exact d i hi h
        · rintro ⟨a, b⟩
          exact ⟨⟨a, fun i hi hf => b i hi (Or.inl ⟨f, rfl, hf⟩)⟩, fun i hi h => b i hi (Or.inr h)⟩

theorem Col.all_nodup : Col.all.Nodup := by decide

theorem Col.mem_all (c : Col) : c ∈ Col.all := by cases c <;> decide

/-- The check of the weights by rows. -/
def Src.nzw (S : Src R) : Src R := { S with w := S.w.map fun f i => nz (f i) }

theorem checkNaNw_tab (S : Src R) : checkNaNw (S.tab n) = S.nzw.tab n := by
  unfold checkNaNw Src.nzw Src.tab
  cases S.w <;> simp [nanZero_arr]

/-- The check of `wpos` by rows. -/
noncomputable def Src.wposS (n : ℕ) (S : Src R) : Src R :=
  match S.wpos with
  | none => S
  | some p => { S with w := nanW n p S, wpos := some fun i => nz (p i) }

theorem checkNaNwpos_tab (S : Src R) : checkNaNwpos (S.tab n) = .ok ((S.wposS n).tab n) := by
  unfold checkNaNwpos Src.wposS
  cases hp : S.wpos with
  | none => simp [Src.tab, hp]
  | some p =>
    have h1 : (S.tab n).wpos = some (arr n p) := by simp [Src.tab, hp]
    rw [h1]
    simp only [nanWeights_tab, nanZero_arr]
    rfl

/-- The positions by rows. -/
def Src.xyzS (s : Settings R) (S : Src R) : Src R :=
  match S.col .x with
  | some _ => S
  | none => { S with col := fun c => match c with
      | .x => some fun i => (S.xyzRow s i).1
      | .y => some fun i => (S.xyzRow s i).2.1
      | .z => some fun i => (S.xyzRow s i).2.2
      | c => S.col c }

theorem generateXYZ_tab (s : Settings R) (S : Src R)
    (h : (S.col .x).isSome ∨ (S.col .y = none ∧ S.col .z = none ∧ (S.col .ra).isSome ∧ (S.col .dec).isSome)) :
    generateXYZ s (S.tab n) = .ok ((S.xyzS s).tab n) := by
  unfold generateXYZ Src.xyzS
  cases hx : S.col .x with
  | some f => simp [Src.tab, hx]
  | none =>
    simp only [hx, Option.isSome_none, Bool.false_eq_true, false_or] at h
    obtain ⟨hy, hz, hra, hdec⟩ := h
    obtain ⟨ra, hra⟩ := Option.isSome_iff_exists.1 hra
    obtain ⟨dec, hdec⟩ := Option.isSome_iff_exists.1 hdec
    have e1 : (S.tab n).col .x = none := by simp [Src.tab, hx]
    have e2 : (S.tab n).col .y = none := by simp [Src.tab, hy]
    have e3 : (S.tab n).col .z = none := by simp [Src.tab, hz]
    have e4 : (S.tab n).col .ra = some (arr n ra) := by simp [Src.tab, hra]
    have e5 : (S.tab n).col .dec = some (arr n dec) := by simp [Src.tab, hdec]
    have e6 : (S.tab n).col .r = (S.col .r).map (arr n) := rfl
    rw [e1, e2, e3, e4, e5, e6]
    simp only [arr_length]
    have hrows : ((List.range n).map fun i => s.xyz (((arr n ra)[i]?).getD none) (((arr n dec)[i]?).getD none)
        (((S.col .r).map (arr n)).map fun r => (r[i]?).getD none)) = arr n (S.xyzRow s) := by
      apply List.map_congr_left
      intro i hi
      have hi := List.mem_range.1 hi
      unfold Src.xyzRow
      rw [arr_get, arr_get, if_pos hi, if_pos hi, hra, hdec]
      cases S.col .r with
      | none => rfl
      | some r => simp only [Option.map_some, arr_get, if_pos hi, Option.elim, Option.getD_some]
    rw [hrows]
    congr 1
    unfold Src.tab
    simp only [Tab.mk.injEq, and_true]
    funext c
    cases c <;> simp [arr_map]

/-- Rows with zero `wpos`, by rows. -/
noncomputable def Src.pzS (n : ℕ) (S : Src R) : Src R :=
  match S.wpos with
  | none => S
  | some p => if ∃ i < n, p i = some 0 then { S with w := some fun i => if p i = some 0 then some 0 else S.weight i } else S

theorem any_zero_arr (p : ℕ → Option R) : (arr n p).any (· = some 0) = true ↔ ∃ i < n, p i = some 0 := by
  simp [arr]

theorem wposZero_tab (S : Src R) (h : (S.col .x).isSome) : wposZero (S.tab n) = .ok ((S.pzS n).tab n) := by
  unfold wposZero Src.pzS
  cases hp : S.wpos with
  | none => simp [Src.tab, hp]
  | some p =>
    have h1 : (S.tab n).wpos = some (arr n p) := by simp [Src.tab, hp]
    obtain ⟨x, hx⟩ := Option.isSome_iff_exists.1 h
    have h2 : (S.tab n).ntot = n := by simp [Tab.ntot, Src.tab, hx]
    simp only [h1, h2]
    by_cases h0 : ∃ i < n, p i = some 0
    · rw [if_pos ((any_zero_arr p).2 h0), if_pos h0, getD_weight, arr_map, zeroMask_arr]
      simp only
      congr 1
      unfold Src.tab
      simp
    · rw [if_neg (fun h => h0 ((any_zero_arr p).1 h)), if_neg h0]

/-- All the checks by rows. -/
noncomputable def Src.fin (s : Settings R) (n : ℕ) (S : Src R) : Src R :=
  (((((Col.all.foldl (Src.chk1 n) ((S.flipS s).flagS s)).nzw).wposS n).xyzS s).pzS n)

theorem weight_of_w {S T : Src R} (h : T.w = S.w) (i : ℕ) : T.weight i = S.weight i := by unfold Src.weight; rw [h]

/-- `wpos` after the checks. -/
noncomputable def Src.P (s : Settings R) (S : Src R) : Option (ℕ → Option R) :=
  S.wpos.map fun p i => if S.Flagged s i then some 0 else nz (p i)

/-- Weights after the checks. -/
noncomputable def Src.W (s : Settings R) (S : Src R) (i : ℕ) : Option R :=
  if S.NaN i ∨ S.Flagged s i ∨ ∃ p, S.P s = some p ∧ p i = some 0 then some 0 else S.weight i

/-- The columns after the checks. -/
def Src.Z (s : Settings R) (S : Src R) : Src R := { S with col := fun c => (S.col c).map fun f i => nz (flipped s c (f i)) }

theorem fin_weight (s : Settings R) (S : Src R) {i : ℕ} (hi : i < n) : (S.fin s n).weight i = S.W s i := by
  -- flags
  have a1 : ∀ i, ((S.flipS s).flagS s).weight i = if S.Flagged s i then some 0 else S.weight i := by
    intro i
    unfold Src.flagS Src.flipS Src.Flagged
    cases hf : S.flag with
    | none => simp [Src.weight]
    | some f =>
      simp only [Option.some.injEq, exists_eq_left', Src.weight, Option.elim]
  have a2 : ((S.flipS s).flagS s).wpos = S.wpos.map fun p i => if S.Flagged s i then some 0 else p i := by
    unfold Src.flagS Src.flipS Src.Flagged
    cases hf : S.flag with
    | none => cases S.wpos <;> simp
    | some f => cases S.wpos <;> simp
  have a3 : ((S.flipS s).flagS s).col = (S.flipS s).col := by
    unfold Src.flagS Src.flipS
    cases hf : S.flag <;> rfl
  have a4 : ∀ i, ((S.flipS s).flagS s).NaNin Col.all i ↔ ∃ c f, S.col c = some f ∧ f i = none := by
    intro i
    unfold Src.NaNin
    rw [a3]
    unfold Src.flipS
    constructor
    · rintro ⟨c, -, f, hf, hn⟩
      obtain ⟨g, hg, rfl⟩ := Option.map_eq_some_iff.1 hf
      refine ⟨c, g, hg, ?_⟩
      unfold flipped at hn
      split_ifs at hn with hc
      · simpa using hn
      · exact hn
    · rintro ⟨c, g, hg, hn⟩
      refine ⟨c, Col.mem_all c, fun i => flipped s c (g i), by simp [hg], ?_⟩
      simp [flipped, hn]
  obtain ⟨-, b2, -, b4, -⟩ := foldChk_spec (n := n) Col.all Col.all_nodup ((S.flipS s).flagS s)
  set S3 := Col.all.foldl (Src.chk1 n) ((S.flipS s).flagS s) with hS3
  have c1 : ∀ i, S3.nzw.weight i = nz (S3.weight i) := by
    intro i
    unfold Src.nzw Src.weight
    cases S3.w <;> simp [nz]
  have c2 : S3.nzw.wpos = S.wpos.map fun p i => if S.Flagged s i then some 0 else p i := by
    rw [← a2, ← b2]
    rfl
  -- wpos
  have d1 : (S3.nzw.wposS n).weight i =
      if ∃ p, S.wpos = some p ∧ ¬ S.Flagged s i ∧ p i = none then some 0 else S3.nzw.weight i := by
    unfold Src.wposS
    rw [c2]
    cases hp : S.wpos with
    | none => simp
    | some p =>
      simp only [Option.map_some]
      rw [weight_nanW _ S3.nzw _ rfl hi]
      by_cases hf : S.Flagged s i <;> simp [hf]
  have d2 : (S3.nzw.wposS n).wpos = S.P s := by
    unfold Src.wposS Src.P
    rw [c2]
    cases hp : S.wpos with
    | none => simp [c2, hp]
    | some p =>
      simp only [Option.map_some, Option.some.injEq]
      funext j
      by_cases hf : S.Flagged s j <;> simp [hf, nz]
  have e1 : ((S3.nzw.wposS n).xyzS s).w = (S3.nzw.wposS n).w := by
    unfold Src.xyzS
    cases (S3.nzw.wposS n).col .x <;> rfl
  have e2 : ((S3.nzw.wposS n).xyzS s).wpos = S.P s := by
    rw [← d2]
    unfold Src.xyzS
    cases (S3.nzw.wposS n).col .x <;> rfl
  have f1 : (S.fin s n).weight i = if ∃ p, S.P s = some p ∧ p i = some 0 then some 0 else (S3.nzw.wposS n).weight i := by
    unfold Src.fin
    rw [← hS3]
    unfold Src.pzS
    rw [e2]
    cases hp : S.P s with
    | none => simp [weight_of_w e1]
    | some p =>
      simp only [Option.some.injEq, exists_eq_left']
      by_cases h0 : ∃ i < n, p i = some 0
      · rw [if_pos h0]
        simp only [Src.weight, Option.elim]
        rw [e1]
      · rw [if_neg h0, if_neg fun h => h0 ⟨i, hi, h⟩, weight_of_w e1]
  rw [f1, d1, c1, b4 i hi, a1]
  simp only [a4]
  unfold Src.W Src.NaN
  by_cases g1 : ∃ p, S.P s = some p ∧ p i = some 0
  · rw [if_pos g1, if_pos (Or.inr (Or.inr g1))]
  rw [if_neg g1]
  by_cases g2 : S.Flagged s i
  · rw [if_neg (by rintro ⟨_, _, h, _⟩; exact h g2), if_pos (Or.inr (Or.inl g2))]
    simp [g2, nz]
  by_cases g3 : ∃ c f, S.col c = some f ∧ f i = none
  · rw [if_pos (Or.inl (Or.inl g3)), if_pos g3]
    simp [nz]
  by_cases g4 : ∃ p, S.wpos = some p ∧ p i = none
  · obtain ⟨p, hp, h⟩ := g4
    rw [if_pos ⟨p, hp, g2, h⟩, if_pos (Or.inl (Or.inr (Or.inr ⟨p, hp, h⟩)))]
  rw [if_neg (by rintro ⟨p, hp, -, h⟩; exact g4 ⟨p, hp, h⟩), if_neg g3, if_neg g2]
  by_cases g5 : ∃ f, S.w = some f ∧ f i = none
  · rw [if_pos (Or.inl (Or.inr (Or.inl g5)))]
    obtain ⟨f, hf, h⟩ := g5
    simp [Src.weight, hf, h, nz]
  · rw [if_neg]
    swap
    · rintro ((h | h | h) | h | h)
      · exact g3 h
      · exact g5 h
      · exact g4 h
      · exact g2 h
      · exact g1 h
    unfold Src.weight
    cases hw : S.w with
    | none => simp [nz]
    | some f =>
      have : f i ≠ none := fun h => g5 ⟨f, hw, h⟩
      obtain ⟨v, hv⟩ := Option.ne_none_iff_exists'.1 this
      simp [hv, nz]

theorem fin_rest (s : Settings R) (S : Src R) :
    (S.fin s n).wpos = S.P s ∧ (S.fin s n).patch = S.patch ∧ (S.fin s n).col = ((S.Z s).xyzS s).col := by
  have a2 : ((S.flipS s).flagS s).wpos = S.wpos.map fun p i => if S.Flagged s i then some 0 else p i := by
    unfold Src.flagS Src.flipS Src.Flagged
    cases hf : S.flag with
    | none => cases S.wpos <;> simp
    | some f => cases S.wpos <;> simp
  have a3 : ((S.flipS s).flagS s).col = (S.flipS s).col ∧ ((S.flipS s).flagS s).patch = S.patch := by
    unfold Src.flagS Src.flipS
    cases hf : S.flag <;> exact ⟨rfl, rfl⟩
  obtain ⟨b1, b2, b3, -, -⟩ := foldChk_spec (n := n) Col.all Col.all_nodup ((S.flipS s).flagS s)
  set S3 := Col.all.foldl (Src.chk1 n) ((S.flipS s).flagS s) with hS3
  have d : (S3.nzw.wposS n).wpos = S.P s ∧ (S3.nzw.wposS n).patch = S.patch ∧ (S3.nzw.wposS n).col = (S.Z s).col := by
    have hcol : S3.nzw.col = (S.Z s).col := by
      funext c
      show S3.col c = _
      rw [b1 c, if_pos (Col.mem_all c), a3.1]
      unfold Src.Z Src.flipS
      simp [Option.map_map, Function.comp_def]
    have hp : S3.nzw.patch = S.patch := by rw [← a3.2, ← b3]; rfl
    have hq : S3.nzw.wpos = S.wpos.map fun p i => if S.Flagged s i then some 0 else p i := by rw [← a2, ← b2]; rfl
    unfold Src.wposS Src.P
    cases hw : S.wpos with
    | none =>
      rw [hw] at hq
      simp only [Option.map_none] at hq
      rw [hq]
      exact ⟨by simp [hq], hp, hcol⟩
    | some p =>
      rw [hw] at hq
      simp only [Option.map_some] at hq
      rw [hq]
      refine ⟨?_, hp, hcol⟩
      simp only [Option.map_some, Option.some.injEq]
      funext j
      by_cases hf : S.Flagged s j <;> simp [hf, nz]
  have e : ((S3.nzw.wposS n).xyzS s).wpos = S.P s ∧ ((S3.nzw.wposS n).xyzS s).patch = S.patch ∧
      ((S3.nzw.wposS n).xyzS s).col = ((S.Z s).xyzS s).col := by
    obtain ⟨d1, d2, d3⟩ := d
    have hrow : ∀ i, (S3.nzw.wposS n).xyzRow s i = (S.Z s).xyzRow s i := by
      intro i
      unfold Src.xyzRow
      rw [d3]
    unfold Src.xyzS
    rw [d3]
    cases (S.Z s).col .x with
    | some _ => exact ⟨d1, d2, d3⟩
    | none =>
      refine ⟨d1, d2, ?_⟩
      funext c
      cases c <;> simp [hrow, d3]
  unfold Src.fin
  rw [← hS3]
  unfold Src.pzS
  cases hp : ((S3.nzw.wposS n).xyzS s).wpos with
  | none => exact e
  | some p =>
    simp only
    split_ifs
    · exact ⟨by rw [← e.1, hp], e.2.1, e.2.2⟩
    · exact e

/-- What decides whether a row is kept: `wpos` if given, else the weight. -/
def Src.U (S : Src R) (i : ℕ) : Option R := S.wpos.elim (S.weight i) (· i)

/-- The rows kept. -/
noncomputable def Src.kept (s : Settings R) (n : ℕ) (S : Src R) : List ℕ :=
  if s.keepZero = true then List.range n else (List.range n).filter fun i => S.U i ≠ some 0

/-- The rows of a list. -/
def Src.pick (idx : List ℕ) (n : ℕ) (S : Src R) : Tab R where
  col c := (S.col c).map fun f => idx.map f
  w := some (idx.map S.weight)
  wpos := S.wpos.map fun f => idx.map f
  flag := S.flag.map (arr n)
  patch := S.patch.map fun f => idx.map f

theorem select_tab (S : Src R) (hw : S.w.isSome) {idx : List ℕ} (h : ∀ i ∈ idx, i < n) :
    select idx (S.tab n) = .ok (S.pick idx n) := by
  have hm : ∀ {α : Type} (o : Option (ℕ → α)), (o.map (arr n)).bind (takeIdx idx) = o.map fun f => idx.map f := by
    intro α o
    cases o with
    | none => rfl
    | some f => exact takeIdx_arr f h
  have hs : ∀ {α : Type} (o : Option (ℕ → α)) l, o.map (arr n) = some l → (takeIdx idx l).isSome := by
    intro α o l hl
    obtain ⟨f, -, rfl⟩ := Option.map_eq_some_iff.1 hl
    rw [takeIdx_arr f h]
    rfl
  unfold select
  rw [if_pos ⟨fun c _ l hl => hs _ l hl, fun l hl => hs _ l hl, fun l hl => hs _ l hl, fun l hl => hs _ l hl⟩]
  congr 1
  unfold Src.pick
  obtain ⟨f, hf⟩ := Option.isSome_iff_exists.1 hw
  have hwt : S.weight = f := by funext i; simp [Src.weight, hf]
  have hw2 : (some (arr n f)).bind (takeIdx idx) = some (idx.map f) := takeIdx_arr f h
  simp only [Src.tab, hm, hf, hwt, Option.map_some]
  rw [← hw2]

theorem npSum_ones : npSum (arr n fun _ => (some 1 : Option R)) = some (n : R) := by
  rw [← arr_replicate]
  induction n with
  | zero => simp [npSum]
  | succ n ih =>
    rw [List.replicate_succ]
    unfold npSum at ih ⊢
    rw [List.foldr_cons, ih]
    push_cast
    rw [add_comm]

theorem finishWeights_tab [CharZero R] (s : Settings R) (S : Src R) (hx : (S.col .x).isSome) (hn : 0 < n)
    (hU : S.w = none → ∀ i < n, S.U i ≠ some 0) :
    finishWeights s (S.tab n) =
      if npSum (arr n S.weight) = some 0 then .error .valueError
      else .ok ⟨S.pick (S.kept s n) n, S.w.isSome, npSum (arr n S.weight)⟩ := by
  obtain ⟨x, hx⟩ := Option.isSome_iff_exists.1 hx
  have hnt : (S.tab n).ntot = n := by simp [Tab.ntot, Src.tab, hx]
  have hall : S.pick (List.range n) n = { S.tab n with w := some (arr n S.weight) } := rfl
  have hkept : (∀ i < n, S.U i ≠ some 0) → S.kept s n = List.range n := by
    intro h
    unfold Src.kept
    split_ifs
    · rfl
    · rw [List.filter_eq_self]
      intro i hi
      simpa using h i (List.mem_range.1 hi)
  unfold finishWeights
  cases hw : S.w with
  | none =>
    have h1 : (S.tab n).w = none := by simp [Src.tab, hw]
    have h2 : S.weight = fun _ => some 1 := by funext i; simp [Src.weight, hw]
    rw [h1, hkept (hU hw), hall, h2, npSum_ones]
    simp only [hnt]
    rw [if_neg, ← arr_replicate]
    · rfl
    · simp only [Option.some.injEq, Nat.cast_eq_zero]
      omega
  | some w =>
    have h1 : (S.tab n).w = some (arr n w) := by simp [Src.tab, hw]
    have h2 : S.weight = w := by funext i; simp [Src.weight, hw]
    have h3 : (S.tab n).wpos.getD (arr n w) = arr n S.U := by
      unfold Src.U Src.tab
      rw [h2]
      cases S.wpos <;> simp
    rw [h1]
    simp only [h3, arr_length]
    rw [h2]
    by_cases h0 : npSum (arr n w) = some 0
    · rw [if_pos h0, if_pos h0]
    rw [if_neg h0, if_neg h0]
    by_cases hk : s.keepZero = false ∧ (arr n S.U).any (· = some 0) = true
    · have hfil : (List.range n).filter (fun i => (arr n S.U)[i]? ≠ some (some 0)) = S.kept s n := by
        unfold Src.kept
        rw [if_neg (by simp [hk.1])]
        apply List.filter_congr
        intro i hi
        rw [arr_get, if_pos (List.mem_range.1 hi)]
        simp
      rw [if_pos hk, hfil, select_tab S (by simp [hw])]
      · rfl
      · intro i hi
        unfold Src.kept at hi
        split_ifs at hi
        · exact List.mem_range.1 hi
        · exact List.mem_range.1 (List.mem_filter.1 hi).1
    · rw [if_neg hk]
      have hr : S.kept s n = List.range n := by
        by_cases hz : s.keepZero = true
        · unfold Src.kept
          rw [if_pos hz]
        · apply hkept
          intro i hi h
          exact hk ⟨by simpa using hz, (any_zero_arr _).2 ⟨i, hi, h⟩⟩
      rw [hr, hall, h2, ← h1]
      rfl

theorem fin_x (s : Settings R) (S : Src R) : ((S.fin s n).col .x).isSome := by
  rw [(fin_rest s S).2.2]
  unfold Src.xyzS
  cases h : (S.Z s).col .x with
  | some f => simp [h]
  | none => simp

theorem fin_U (s : Settings R) (S : Src R) : (S.fin s n).w = none → ∀ i < n, (S.fin s n).U i ≠ some 0 := by
  intro hw i hi h0
  have h1 := fin_weight s S hi
  have h2 : (S.fin s n).weight i = some 1 := by simp [Src.weight, hw]
  rw [h2] at h1
  unfold Src.U at h0
  rw [(fin_rest s S).1] at h0
  cases hp : S.P s with
  | none =>
    rw [hp, h2] at h0
    simp at h0
  | some p =>
    rw [hp] at h0
    unfold Src.W at h1
    rw [if_pos (Or.inr (Or.inr ⟨p, hp, h0⟩))] at h1
    simp at h1

/-- The rows kept, in terms of the input. -/
noncomputable def Src.keptRows (s : Settings R) (n : ℕ) (S : Src R) : List ℕ :=
  if s.keepZero = true then List.range n
  else (List.range n).filter fun i => (S.P s).elim (S.W s i) (· i) ≠ some 0

theorem kept_fin (s : Settings R) (S : Src R) : (S.fin s n).kept s n = S.keptRows s n := by
  unfold Src.kept Src.keptRows
  split_ifs
  · rfl
  · apply List.filter_congr
    intro i hi
    unfold Src.U
    rw [fin_weight s S (List.mem_range.1 hi), (fin_rest s S).1]

theorem keptRows_lt {s : Settings R} {S : Src R} {i : ℕ} (hi : i ∈ S.keptRows s n) : i < n := by
  unfold Src.keptRows at hi
  split_ifs at hi
  · exact List.mem_range.1 hi
  · exact List.mem_range.1 (List.mem_filter.1 hi).1

/-- The whole of `_finish_input` by rows. -/
theorem finish_tab [CharZero R] (s : Settings R) (S : Src R) (h : S.Ok s) (hn : 0 < n) :
    finishInput s (S.tab n) =
      if npSum (arr n (S.W s)) = some 0 then .error .valueError
      else .ok ⟨(S.fin s n).pick (S.keptRows s n) n, (S.fin s n).w.isSome, npSum (arr n (S.W s))⟩ := by
  have hW : arr n (S.fin s n).weight = arr n (S.W s) := arr_congr fun i hi => fin_weight s S hi
  have hpos : ∀ T : Src R, T.col = (S.Z s).col →
      (T.col .x).isSome ∨ (T.col .y = none ∧ T.col .z = none ∧ (T.col .ra).isSome ∧ (T.col .dec).isSome) := by
    intro T hT
    rw [hT]
    simpa [Src.Z] using h.pos
  have hcol : ((Col.all.foldl (Src.chk1 n) ((S.flipS s).flagS s)).nzw.wposS n).col = (S.Z s).col := by
    obtain ⟨b1, -⟩ := foldChk_spec (n := n) Col.all Col.all_nodup ((S.flipS s).flagS s)
    have a3 : ((S.flipS s).flagS s).col = (S.flipS s).col := by
      unfold Src.flagS Src.flipS
      cases hf : S.flag <;> rfl
    have : ∀ T : Src R, (T.wposS n).col = T.col := by
      intro T
      unfold Src.wposS
      cases T.wpos <;> rfl
    rw [this]
    funext c
    show (Col.all.foldl (Src.chk1 n) ((S.flipS s).flagS s)).col c = _
    rw [b1 c, if_pos (Col.mem_all c), a3]
    unfold Src.Z Src.flipS
    simp [Option.map_map, Function.comp_def]
  have hx : ((((Col.all.foldl (Src.chk1 n) ((S.flipS s).flagS s)).nzw.wposS n).xyzS s).col .x).isSome := by
    unfold Src.xyzS
    cases h : ((Col.all.foldl (Src.chk1 n) ((S.flipS s).flagS s)).nzw.wposS n).col .x with
    | some f => simp [h]
    | none => simp
  unfold finishInput
  simp only [flipCols_tab s S h, applyFlag_tab, foldChk_tab, checkNaNw_tab, checkNaNwpos_tab, bind, Except.bind]
  rw [generateXYZ_tab s _ (hpos _ hcol)]
  simp only
  rw [wposZero_tab _ hx]
  simp only
  show finishWeights s ((S.fin s n).tab n) = _
  rw [finishWeights_tab s _ (fin_x s S) hn (fin_U s S), hW, kept_fin]

/-- In a row without NaN the columns are what the user expects. -/
theorem fin_col (s : Settings R) (S : Src R) (c : Col) :
    ((S.fin s n).col c).isSome = (S.out s c).isSome ∧
    ∀ f g, (S.fin s n).col c = some f → S.out s c = some g → ∀ i, ¬ S.NaN i → f i = g i := by
  rw [(fin_rest s S).2.2]
  have hv : ∀ c f i, S.col c = some f → ¬ S.NaN i → nz (flipped s c (f i)) = flipped s c (f i) := by
    intro c f i hf hi
    have : f i ≠ none := fun h => hi (Or.inl ⟨c, f, hf, h⟩)
    obtain ⟨v, hv⟩ := Option.ne_none_iff_exists'.1 this
    rw [hv]
    unfold flipped nz
    split_ifs <;> simp
  have hfl : ∀ a, flipped s .ra a = a ∧ flipped s .dec a = a ∧ flipped s .r a = a := by
    intro a
    refine ⟨?_, ?_, ?_⟩ <;> exact if_neg fun h => absurd h.1 (by decide)
  have hxyz : ∀ i, ¬ S.NaN i → (S.Z s).xyzRow s i = S.xyzRow s i := by
    intro i hi
    unfold Src.xyzRow Src.Z
    have e : ∀ c, (∀ a, flipped s c a = a) → ((S.col c).map fun f i => nz (flipped s c (f i))).elim none (· i) = (S.col c).elim none (· i)
        ∧ (((S.col c).map fun f i => nz (flipped s c (f i))).map (· i)) = (S.col c).map (· i) := by
      intro c hc
      cases hS : S.col c with
      | none => exact ⟨rfl, rfl⟩
      | some f =>
        have := hv c f i hS hi
        rw [hc] at this
        simp [hc, this]
    simp only
    rw [(e .ra fun a => (hfl a).1).1, (e .dec fun a => (hfl a).2.1).1, (e .r fun a => (hfl a).2.2).2]
  have hz : ∀ c, (S.Z s).col c = (S.col c).map fun f i => nz (flipped s c (f i)) := fun _ => rfl
  have hgen : ∀ c, ((S.Z s).col c).isSome = ((S.col c).map fun f i => flipped s c (f i)).isSome ∧
      ∀ f g, (S.Z s).col c = some f → ((S.col c).map fun f i => flipped s c (f i)) = some g → ∀ i, ¬ S.NaN i → f i = g i := by
    intro c
    rw [hz]
    cases hS : S.col c with
    | none => simp
    | some f0 =>
      refine ⟨by simp, ?_⟩
      intro f g hf hg i hi
      simp only [Option.map_some, Option.some.injEq] at hf hg
      subst hf hg
      exact hv c f0 i hS hi
  unfold Src.xyzS Src.out
  cases hx : S.col .x with
  | some x =>
    have : (S.Z s).col .x = some fun i => nz (flipped s .x (x i)) := by rw [hz, hx]; rfl
    rw [this]
    simp only [reduceCtorEq, if_false]
    exact hgen c
  | none =>
    have : (S.Z s).col .x = none := by rw [hz, hx]; rfl
    rw [this]
    simp only [if_true]
    cases c <;> first
      | exact hgen _
      | refine ⟨rfl, ?_⟩
        intro f g hf hg i hi
        simp only [Option.some.injEq] at hf hg
        subst hf hg
        simp only [hxyz i hi]

theorem chk1_w {S : Src R} (c : Col) (h : S.w.isSome) : (S.chk1 n c).w.isSome := by
  unfold Src.chk1
  cases S.col c with
  | none => exact h
  | some f =>
    simp only [nanW]
    split_ifs
    · rfl
    · exact h

theorem fin_w_some (s : Settings R) (S : Src R) (h : S.w.isSome) : (S.fin s n).w ≠ none := by
  have h1 : ((S.flipS s).flagS s).w.isSome := by
    unfold Src.flagS Src.flipS
    cases S.flag with
    | none => exact h
    | some f => rfl
  have h2 : ∀ (L : List Col) (T : Src R), T.w.isSome → (L.foldl (Src.chk1 n) T).w.isSome := by
    intro L
    induction L with
    | nil => exact fun T h => h
    | cons c L ih => exact fun T h => ih _ (chk1_w c h)
  have h3 := h2 Col.all _ h1
  unfold Src.fin
  set S3 := Col.all.foldl (Src.chk1 n) ((S.flipS s).flagS s)
  have h4 : S3.nzw.w.isSome := by simpa [Src.nzw] using h3
  have h5 : (S3.nzw.wposS n).w.isSome := by
    unfold Src.wposS
    cases S3.nzw.wpos with
    | none => exact h4
    | some p =>
      simp only [nanW]
      split_ifs
      · rfl
      · exact h4
  have h6 : ((S3.nzw.wposS n).xyzS s).w.isSome := by
    unfold Src.xyzS
    cases (S3.nzw.wposS n).col .x <;> exact h5
  rw [← Option.isSome_iff_ne_none]
  unfold Src.pzS
  cases ((S3.nzw.wposS n).xyzS s).wpos with
  | none => exact h6
  | some p =>
    simp only
    split_ifs
    · rfl
    · exact h6

theorem fin_flag (s : Settings R) (S : Src R) : (S.fin s n).flag = S.flag := by
  have h1 : ((S.flipS s).flagS s).flag = S.flag := by
    unfold Src.flagS Src.flipS
    cases h : S.flag <;> simp [h]
  have h2 : ∀ (L : List Col) (T : Src R), (L.foldl (Src.chk1 n) T).flag = T.flag := by
    intro L
    induction L with
    | nil => exact fun T => rfl
    | cons c L ih =>
      intro T
      rw [List.foldl_cons, ih]
      unfold Src.chk1
      cases T.col c <;> rfl
  have h3 := (h2 Col.all _).trans h1
  unfold Src.fin
  set S3 := Col.all.foldl (Src.chk1 n) ((S.flipS s).flagS s)
  have h5 : (S3.nzw.wposS n).flag = S.flag := by
    rw [← h3]
    unfold Src.wposS
    cases S3.nzw.wpos <;> rfl
  have h6 : ((S3.nzw.wposS n).xyzS s).flag = S.flag := by
    rw [← h5]
    unfold Src.xyzS
    cases (S3.nzw.wposS n).col .x <;> rfl
  rw [← h6]
  unfold Src.pzS
  cases ((S3.nzw.wposS n).xyzS s).wpos with
  | none => rfl
  | some p =>
    simp only
    split_ifs <;> rfl

end Catalog
end TreeCorr
