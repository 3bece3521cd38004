import Verif.Props.CatalogPatches

/-!
C33: combining catalogues concatenates their rows.
-/

namespace TreeCorr
namespace Catalog

variable {R : Type} [Field R] [DecidableEq R]

/-- C33: `combine` gives the rows of the catalogues in order, less the rows that are masked out, with all columns of the first
catalogue, the weights and `wpos`.  Missing: rows of zero weight in later catalogues are dropped unless the first one has some
(`combine_zero_weight_wrong`), and patch numbers are dropped (`combine_patch_wrong`). -/
theorem combine_rows_partial [CharZero R] (C0 : Cat R) (rest : List (Cat R)) (masks : Option (List (List Bool)))
    (hcats : ∀ C ∈ C0 :: rest, ∃ m, IsCat m C)
    (hml : ∀ ms, masks = some ms → ms.length = (C0 :: rest).length)
    (hmask : ∀ x ∈ parts (C0 :: rest) masks, ∀ mask, x.2 = some mask → mask.length = x.1.tab.ntot)
    (hcols : ∀ C ∈ rest, (∀ c, (C0.tab.col c).isSome → (C.tab.col c).isSome) ∧ (C0.tab.wpos.isSome → C.tab.wpos.isSome))
    (hwp : ∀ C ∈ rest, C0.tab.wpos = none → C.tab.wpos = none)
    (hy : (C0.tab.col .y).isSome) (hra : (C0.tab.col .ra).isSome = (C0.tab.col .dec).isSome)
    (hz : C0.anyZero = true ∨ ∀ C ∈ C0 :: rest, C.anyZero = false) :
    let all := fun (f : Tab R → Option (List (Option R))) => (parts (C0 :: rest) masks).flatMap fun x => maskArr x.2 ((f x.1.tab).getD [])
    (npSum (all Tab.w) = some 0 → combine (C0 :: rest) masks = .error .valueError) ∧
    (npSum (all Tab.w) ≠ some 0 → ∃ D, combine (C0 :: rest) masks = .ok D ∧
      (∀ c, D.tab.col c = (C0.tab.col c).map fun _ => all fun t => t.col c) ∧ D.tab.w = some (all Tab.w) ∧
      D.tab.wpos = (C0.tab.wpos.map fun _ => all Tab.wpos) ∧ D.sumw = npSum (all Tab.w)) := by
  intro all
  have hpart : ∀ x ∈ parts (C0 :: rest) masks, x.1 ∈ C0 :: rest := by
    intro x hx
    unfold parts at hx
    cases masks with
    | none =>
      obtain ⟨C, hC, rfl⟩ := List.mem_map.1 hx
      exact hC
    | some ms =>
      simp only at hx
      rw [← List.map_uncurry_zip_eq_zipWith] at hx
      obtain ⟨y, hy, rfl⟩ := List.mem_map.1 hx
      exact (List.of_mem_zip hy).1
  obtain ⟨m0, hC0⟩ := hcats C0 (by simp)
  have hx0 : (C0.tab.col .x).isSome := hC0.clean.x
  set keys : Keys := ⟨fun c => (C0.tab.col c).isSome, C0.tab.wpos.isSome⟩ with hkeys
  have hhas : ∀ C ∈ C0 :: rest, (∀ c, (C0.tab.col c).isSome → (C.tab.col c).isSome) ∧ (C0.tab.wpos.isSome → C.tab.wpos.isSome) := by
    intro C hC
    rcases List.mem_cons.1 hC with rfl | hC
    · exact ⟨fun _ h => h, fun h => h⟩
    · exact hcols C hC
  have hfits : ∀ x ∈ parts (C0 :: rest) masks, Fits keys x :=
    fun x hx => ⟨hmask x hx, (hhas _ (hpart x hx)).1, (hhas _ (hpart x hx)).2⟩
  have hfold := fold_append keys _ hfits (fun _ => []) [] []
  simp only [List.nil_append] at hfold
  set t : Tab R := mkTab keys (fun c => all fun t => t.col c) (all Tab.w) (all Tab.wpos) with ht
  have hcomb : combine (C0 :: rest) masks = fromArrays (partSettings C0.anyZero) none t := by
    unfold combine
    simp only
    rw [if_neg]
    · have h2 : (parts (C0 :: rest) masks).foldlM (appendCat ⟨fun c => (C0.tab.col c).isSome, C0.tab.wpos.isSome⟩)
          (⟨fun c => if (C0.tab.col c).isSome then some [] else none, some [], if C0.tab.wpos.isSome then some [] else none, none, none⟩ :
            Tab R) = .ok t := hfold
      rw [h2]
    · cases hm : masks with
      | none => simp
      | some ms => simpa using hml ms hm
  have hlen : ∀ f : Tab R → Option (List (Option R)),
      (∀ x ∈ parts (C0 :: rest) masks, ∀ m, IsCat m x.1 → ∃ l, f x.1.tab = some l ∧ l.length = m ∧ none ∉ l) →
      (all f).length = (all Tab.w).length ∧ none ∉ all f := by
    intro f hf
    constructor
    · apply flatMap_length_eq
      intro x hx
      obtain ⟨m, hm⟩ := hcats _ (hpart x hx)
      obtain ⟨l, h1, h2, -⟩ := hf x hx m hm
      obtain ⟨w, hw⟩ := Option.isSome_iff_exists.1 hm.w
      apply maskArr_length
      rw [h1, hw]
      simp [h2, (hm.clean.w w hw).1]
    · intro hmem
      obtain ⟨x, hx, hmem⟩ := List.mem_flatMap.1 hmem
      obtain ⟨m, hm⟩ := hcats _ (hpart x hx)
      obtain ⟨l, h1, -, h3⟩ := hf x hx m hm
      rw [h1] at hmem
      exact h3 (maskArr_mem hmem)
  have hlw := hlen Tab.w fun x hx m hm => by
    obtain ⟨w, hw⟩ := Option.isSome_iff_exists.1 hm.w
    exact ⟨w, hw, hm.clean.w w hw⟩
  have hlc : ∀ c, (C0.tab.col c).isSome → (all fun t => t.col c).length = (all Tab.w).length ∧ none ∉ all fun t => t.col c := by
    intro c hc
    refine hlen (fun t => t.col c) fun x hx m hm => ?_
    obtain ⟨l, hl⟩ := Option.isSome_iff_exists.1 ((hhas _ (hpart x hx)).1 c hc)
    exact ⟨l, hl, hm.clean.col c l hl⟩
  have hlp : C0.tab.wpos.isSome → (all Tab.wpos).length = (all Tab.w).length ∧ none ∉ all Tab.wpos := by
    intro hc
    refine hlen Tab.wpos fun x hx m hm => ?_
    obtain ⟨l, hl⟩ := Option.isSome_iff_exists.1 ((hhas _ (hpart x hx)).2 hc)
    exact ⟨l, hl, hm.clean.wpos l hl⟩
  have hrel : C0.tab.wpos.isSome → List.Forall₂ (fun a b => a = some 0 → b = some 0) (all Tab.wpos) (all Tab.w) := by
    intro hc
    apply flatMap_rel
    intro x hx
    obtain ⟨m, hm⟩ := hcats _ (hpart x hx)
    obtain ⟨l, hl⟩ := Option.isSome_iff_exists.1 ((hhas _ (hpart x hx)).2 hc)
    obtain ⟨w, hw⟩ := Option.isSome_iff_exists.1 hm.w
    rw [hl, hw]
    exact maskArr_rel (zero_rel hm.clean hl hw)
  have hws : t.ws (all Tab.w).length = all Tab.w := by simp [Tab.ws, ht, mkTab]
  have hclean : Clean (all Tab.w).length t := by
    refine ⟨?_, ?_, ?_, ?_, rfl, ?_, ?_⟩
    · intro c l hl
      simp only [ht, mkTab, hkeys] at hl
      split_ifs at hl with hc
      cases hl
      exact hlc c hc
    · intro l hl
      cases hl
      exact ⟨rfl, hlw.2⟩
    · intro l hl
      simp only [ht, mkTab, hkeys] at hl
      split_ifs at hl with hc
      cases hl
      exact hlp hc
    · intro l hl
      simp [ht, mkTab] at hl
    · simp [ht, mkTab, hkeys, hx0]
    · intro l hl i hi
      simp only [ht, mkTab, hkeys] at hl
      split_ifs at hl with hc
      cases hl
      rw [hws]
      have h2 := List.forall₂_iff_get.1 (hrel hc)
      have hi1 : i < (all Tab.wpos).length := by
        by_contra hn
        rw [List.getElem?_eq_none (by omega)] at hi
        simp at hi
      have hi2 : i < (all Tab.w).length := by rw [← h2.1]; exact hi1
      rw [List.getElem?_eq_getElem hi1] at hi
      rw [List.getElem?_eq_getElem hi2]
      exact congrArg some (h2.2 i hi1 hi2 (Option.some.inj hi))
  have hkz : (partSettings (R := R) C0.anyZero).keepZero = true ∨ some 0 ∉ t.wpos.getD (t.ws (all Tab.w).length) := by
    rcases hz with hz | hz
    · exact Or.inl hz
    · right
      rw [hws]
      have hno : ∀ f : Tab R → Option (List (Option R)),
          (∀ x ∈ parts (C0 :: rest) masks, ∀ m, IsCat m x.1 → x.1.tab.wpos.getD (x.1.tab.w.getD []) = (f x.1.tab).getD []) →
          some 0 ∉ all f := by
        intro f hf hmem
        obtain ⟨x, hx, hmem⟩ := List.mem_flatMap.1 hmem
        obtain ⟨m, hm⟩ := hcats _ (hpart x hx)
        have h1 := hz _ (hpart x hx)
        unfold Cat.anyZero at h1
        rw [hf x hx m hm] at h1
        have := maskArr_mem hmem
        rw [List.any_eq_false] at h1
        exact h1 _ this (by simp)
      cases hwp0 : C0.tab.wpos with
      | none =>
        have : t.wpos = none := by simp [ht, mkTab, hkeys, hwp0]
        rw [this]
        apply hno
        intro x hx m hm
        have : x.1.tab.wpos = none := by
          rcases List.mem_cons.1 (hpart x hx) with h | h
          · rw [h, hwp0]
          · exact hwp _ h hwp0
        rw [this]
        rfl
      | some p =>
        have : t.wpos = some (all Tab.wpos) := by simp [ht, mkTab, hkeys, hwp0]
        rw [this]
        apply hno
        intro x hx m hm
        obtain ⟨l, hl⟩ := Option.isSome_iff_exists.1 ((hhas _ (hpart x hx)).2 (by simp [hwp0]))
        rw [hl]
        rfl
  have hcolt : ∀ c, (t.col c).isSome = (C0.tab.col c).isSome := by
    intro c
    simp only [ht, mkTab, hkeys]
    cases (C0.tab.col c).isSome <;> simp
  have hfrom : 0 < (all Tab.w).length → fromArrays (partSettings C0.anyZero) none t = finishInput (partSettings C0.anyZero) t := by
    intro hpos
    unfold fromArrays
    rw [if_neg, if_neg, if_neg]
    · rw [lengthsOk_clean hclean hpos]
      simp
    · rw [hcolt, hcolt, hra]
      cases (C0.tab.col .dec).isSome <;> simp
    · rw [hcolt, hcolt, hx0, hy]
      simp
  have hzero : (all Tab.w).length = 0 → fromArrays (partSettings C0.anyZero) none t = .error .valueError := by
    intro h0
    obtain ⟨x, hx⟩ := Option.isSome_iff_exists.1 hclean.x
    have hxl := (hclean.col .x x hx).1
    unfold fromArrays
    rw [if_neg, if_neg, if_pos]
    · unfold lengthsOk
      simp [hx, hxl, h0]
    · rw [hcolt, hcolt, hra]
      cases (C0.tab.col .dec).isSome <;> simp
    · rw [hcolt, hcolt, hx0, hy]
      simp
  rw [hcomb]
  rcases Nat.eq_zero_or_pos (all Tab.w).length with h0 | hpos
  · refine ⟨fun _ => hzero h0, fun h => ?_⟩
    rw [List.length_eq_zero_iff.1 h0] at h
    exact absurd rfl h
  · rw [hfrom hpos]
    obtain ⟨f1, f2⟩ := finish_clean (partSettings C0.anyZero) t hpos hclean (fun _ => rfl) hkz
    rw [hws] at f1 f2
    refine ⟨f1, fun h => ?_⟩
    obtain ⟨b, -, hf⟩ := f2 h
    refine ⟨_, hf, ?_, rfl, ?_, rfl⟩
    · intro c
      simp only [ht, mkTab, hkeys]
      cases C0.tab.col c <;> simp
    · simp only [ht, mkTab, hkeys]
      cases C0.tab.wpos <;> simp

/-! ### Examples and failures -/

/-- Two rows. -/
def smallTab (x k w : List (Option ℚ)) : Tab ℚ where
  col := exCol x (x.map fun _ => some 1) k
  w := some w
  wpos := none
  flag := none
  patch := none

/-- The four rows of `patchCat` and again, with a mask. -/
example : view (combine [patchCat, patchCat] (some [[true, false, false, true], [false, false, true, false]])) =
    .inr ⟨some [some 1, some 4, some 3], some [some 5, some 8, some 7], some [some 1, some 4, some 3], some 8⟩ := by decide +kernel

/-- The hypotheses of the theorem hold for it. -/
example : ∃ D, combine [patchCat, patchCat] none = .ok D ∧ D.sumw = some 20 := by
  have h := combine_rows_partial patchCat [patchCat] none (by simpa using ⟨4, patchCat_isCat⟩) (by simp)
    (by simp [parts]) (by simp) (by simp) rfl rfl (Or.inr (by simp; decide +kernel))
  obtain ⟨D, h1, -, -, -, h2⟩ := h.2 (by decide +kernel)
  exact ⟨D, h1, by rw [h2]; decide +kernel⟩

/-- C33 fails for patch numbers: both catalogues have them, and the result has none. -/
theorem combine_patch_wrong : patchCat.tab.patch = some [2, 0, 0, 2] ∧
    ∃ D, combine [patchCat, patchCat] none = .ok D ∧ D.tab.patch = none := by
  refine ⟨rfl, ?_⟩
  have hd : ((combine [patchCat, patchCat] none).toOption.map fun D => D.tab.patch) = some none := by decide +kernel
  cases h : combine [patchCat, patchCat] none with
  | error e => rw [h] at hd; simp [Except.toOption] at hd
  | ok D =>
    rw [h] at hd
    exact ⟨D, rfl, by simpa [Except.toOption] using hd⟩

/-- C33 fails for kept rows of zero weight, and depends on the order: with the catalogue that has one first, all four rows are there;
with the other one first, the row is dropped. -/
theorem combine_zero_weight_wrong :
    let A : Cat ℚ := ⟨smallTab [some 1, some 2] [some 5, some 6] [some 1, some 1], true, some 2⟩
    let B : Cat ℚ := ⟨smallTab [some 3, some 4] [some 7, some 8] [some 1, some 0], true, some 1⟩
    view (combine [B, A] none) = .inr ⟨some [some 3, some 4, some 1, some 2], some [some 7, some 8, some 5, some 6],
      some [some 1, some 0, some 1, some 1], some 3⟩ ∧
    view (combine [A, B] none) = .inr ⟨some [some 1, some 2, some 3], some [some 5, some 6, some 7],
      some [some 1, some 1, some 1], some 3⟩ := by
  decide +kernel

/-- The catalogues of the last theorem are made with `keep_zero_weight`. -/
example : view (finishInput { exSet with keepZero := true } (smallTab [some 3, some 4] [some 7, some 8] [some 1, some 0])) =
    .inr ⟨some [some 3, some 4], some [some 7, some 8], some [some 1, some 0], some 1⟩ := by decide +kernel

end Catalog
end TreeCorr
