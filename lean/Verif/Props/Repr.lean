import Verif.Proofs.Repr
import Verif.Props.Saved

/-!
# C88: a catalogue can be made again from what is printed, and `==` compares the contents
-/

namespace TreeCorr
namespace Catalog

variable {R : Type} [Field R] [DecidableEq R] {m n : ℕ}

/-- **C88, `==`**: true exactly for catalogues with the same columns, weights and patches. -/
theorem eq_iff (C D : LCat R) (hC : IsCat m C.cat) : C.eq D = true ↔ Same C D := by
  unfold LCat.eq
  simp only [Bool.and_eq_true, List.all_eq_true, arrayEq_iff, decide_eq_true_eq]
  constructor
  · rintro ⟨⟨⟨h1, h2⟩, h3⟩, h4⟩
    exact ⟨fun c => (h1 c (Col.mem_all c)).1, h2.1, h3.1, h4⟩
  · intro h
    exact ⟨⟨⟨fun c _ => ⟨h.col c, fun l hl => (hC.clean.col c l hl).2⟩, h.w, fun l hl => (hC.clean.w l hl).2⟩, h.wpos,
      fun l hl => (hC.clean.wpos l hl).2⟩, h.patch⟩

/-- `==` is reflexive, symmetric and transitive. -/
theorem eq_equivalence (C D E : LCat R) (hC : IsCat m C.cat) (hD : IsCat n D.cat) :
    C.eq C = true ∧ (C.eq D = D.eq C) ∧ (C.eq D = true → D.eq E = true → C.eq E = true) := by
  refine ⟨(eq_iff C C hC).2 ⟨fun _ => rfl, rfl, rfl, rfl⟩, ?_, fun h1 h2 => ?_⟩
  · rw [Bool.eq_iff_iff, eq_iff C D hC, eq_iff D C hD]
    exact ⟨fun h => ⟨fun c => (h.col c).symm, h.w.symm, h.wpos.symm, h.patch.symm⟩,
      fun h => ⟨fun c => (h.col c).symm, h.w.symm, h.wpos.symm, h.patch.symm⟩⟩
  · have h1 := (eq_iff C D hC).1 h1
    have h2 := (eq_iff D E hD).1 h2
    exact (eq_iff C E hC).2 ⟨fun c => (h1.col c).trans (h2.col c), h1.w.trans h2.w, h1.wpos.trans h2.wpos, h1.patch.trans h2.patch⟩

/-- Equal catalogues have the same number of rows and the same total weight. -/
theorem eq_sums (C D : LCat R) (hC : IsCat m C.cat) (hD : IsCat n D.cat) (h : C.eq D = true) : m = n ∧ C.cat.sumw = D.cat.sumw := by
  have h := (eq_iff C D hC).1 h
  obtain ⟨w, hw⟩ := Option.isSome_iff_exists.1 hC.w
  have hw' := h.w.symm.trans hw
  refine ⟨(hC.clean.w w hw).1.symm.trans (hD.clean.w w hw').1, ?_⟩
  rw [hC.sumw, hD.sumw]
  simp [Tab.ws, hw, hw']

/-- **C88, `eval(repr(cat)) == cat`** for a loaded catalogue that is no single patch other than 0, and does not have patch numbers and one row
only.  The weights are trivial if they were, and the number of patches is one more than the highest. -/
theorem repr_eval_partial [CharZero R] (xyz : Option R → Option R → Option (Option R) → Option R × Option R × Option R) (C : LCat R)
    (hC : IsCat m C.cat) (hp : Positions xyz C.cat.tab) (h0 : C.cat.sumw ≠ some 0) (hs : C.single = none ∨ C.single = some 0)
    (hsp : C.single = some 0 → C.cat.tab.patch = none) (hone : C.cat.tab.patch.isSome → m ≠ 1) :
    ∃ D, C.evalRepr xyz = .ok D ∧ C.eq D = true ∧ D.eq C = true ∧ D.cat.nontrivial = C.cat.nontrivial ∧ D.cat.sumw = C.cat.sumw ∧
      (∀ P, C.cat.tab.patch = some P → ∃ p ∈ P, (∀ q ∈ P, q ≤ p) ∧ D.npatch = p + 1) := by
  have hk : ({ (partSettings C.cat.anyZero : Settings R) with xyz := xyz }).keepZero = true ∨ C.cat.anyZero = false := by
    cases h : C.cat.anyZero <;> simp [partSettings]
  have key : ∀ patch, (patch = true → C.cat.tab.patch.isSome) →
      fromArrays { (partSettings C.cat.anyZero : Settings R) with xyz := xyz } none
        { C.cat.printed with patch := if patch then C.cat.tab.patch else none } = .ok (C.cat.bare patch) := by
    intro patch hpatch
    rw [fromArrays_printed _ C.cat hC hp _ (by intro l hl; split_ifs at hl; exact hC.clean.patch l hl),
      finish_printed _ C.cat hC hp patch hpatch (fun _ => rfl) hk h0]
  have done : ∀ (patch : Bool) (k : ℤ), (C.cat.bare patch).tab.patch = C.cat.tab.patch →
      C.eq ⟨C.cat.bare patch, C.single, k⟩ = true ∧ LCat.eq ⟨C.cat.bare patch, C.single, k⟩ C = true := by
    intro patch k hb
    have hP : C.patch = LCat.patch ⟨C.cat.bare patch, C.single, k⟩ := by simp only [LCat.patch, hb]
    have h1 : C.eq ⟨C.cat.bare patch, C.single, k⟩ = true := (eq_iff _ _ hC).2 ⟨fun _ => rfl, rfl, rfl, hP⟩
    refine ⟨h1, ?_⟩
    rw [← h1]
    unfold LCat.eq
    rw [← hP]
    rfl
  unfold LCat.evalRepr construct
  cases hP : C.cat.tab.patch with
  | none =>
    have k := key false (by simp)
    simp only [Bool.false_eq_true, if_false] at k
    rcases hs with hs | hs
    · refine ⟨⟨C.cat.bare false, none, 1⟩, ?_, ?_⟩
      · simp only [LCat.patch, hs, hP, PatchArg.single, PatchArg.array, k]
      · have := done false 1 (by simp [Cat.bare, hP])
        rw [hs] at this
        exact ⟨this.1, this.2, rfl, rfl, by simp⟩
    · refine ⟨⟨C.cat.bare false, some 0, 1⟩, ?_, ?_⟩
      · simp only [LCat.patch, hs, PatchArg.single, k]
        simp
      · have := done false 1 (by simp [Cat.bare, hP])
        rw [hs] at this
        exact ⟨this.1, this.2, rfl, rfl, by simp⟩
  | some P =>
    have k := key true (by simp [hP])
    have hs : C.single = none := hs.resolve_right fun h => by simp [hsp h] at hP
    have hl : P.length = m := hC.clean.patch P hP
    have h1 : P.length ≠ 1 := by rw [hl]; exact hone (by simp [hP])
    have hpos : P ≠ [] := by rintro rfl; simp at hl; have := hC.pos; omega
    obtain ⟨p, hp'⟩ : ∃ p, P.max? = some p := by
      cases h : P.max? with
      | some p => exact ⟨p, rfl⟩
      | none => exact absurd (List.max?_eq_none_iff.1 h) hpos
    have hsing : (PatchArg.many P).single = none := by
      rcases P with _ | ⟨a, _ | ⟨b, P⟩⟩
      · rfl
      · simp at h1
      · rfl
    have harr : (PatchArg.many P).array = some P := by
      rcases P with _ | ⟨a, _ | ⟨b, P⟩⟩
      · rfl
      · simp at h1
      · rfl
    rw [hP] at k
    simp only [if_true] at k
    refine ⟨⟨C.cat.bare true, none, p + 1⟩, ?_, ?_⟩
    · simp only [LCat.patch, hs, hP, hsing, harr, setNpatch, hp', k]
      simp
    · have := done true (p + 1) (by simp [Cat.bare])
      rw [hs] at this
      refine ⟨this.1, this.2, rfl, rfl, fun Q hQ => ?_⟩
      obtain rfl := Option.some.inj hQ
      obtain ⟨h1, h2⟩ := List.max?_eq_some_iff.1 hp'
      exact ⟨p, h1, h2, rfl⟩

/-- **Patches other than the first can not be made again**: `patch=2` needs `npatch`, which is not printed. -/
theorem repr_patch_wrong (xyz : Option R → Option R → Option (Option R) → Option R × Option R × Option R) (C : LCat R) {p : ℤ}
    (hs : C.single = some p) (hp : p ≠ 0) : C.evalRepr xyz = .error .valueError := by
  simp [LCat.evalRepr, construct, LCat.patch, hs, PatchArg.single, hp]

/-- **A catalogue of one row with an array of patch numbers**: the array of one number is taken for a number.  If it is 0
the result is not equal to the original, else there is none. -/
theorem repr_one_row_wrong (xyz : Option R → Option R → Option (Option R) → Option R × Option R × Option R) (C : LCat R) {p : ℤ}
    (hs : C.single = none) (hP : C.cat.tab.patch = some [p]) :
    (p ≠ 0 → C.evalRepr xyz = .error .valueError) ∧ (∀ D, C.evalRepr xyz = .ok D → C.eq D = false) := by
  have hp : C.patch = .many [p] := by simp [LCat.patch, hs, hP]
  refine ⟨fun h => by simp [LCat.evalRepr, construct, hp, PatchArg.single, h], fun D hD => ?_⟩
  simp only [LCat.evalRepr, construct, hp, PatchArg.single] at hD
  split_ifs at hD with h
  split at hD
  · obtain rfl := Except.ok.inj hD
    simp [LCat.eq, LCat.patch, hs, hP]
  · simp at hD

/-- A catalogue of a file that is not loaded: the same if `num`, `is_rand` and `patch` were not given. -/
theorem repr_unloaded_partial {A : Type} (U : Unloaded A) (h1 : U.num = 0) (h2 : U.isRand = false) (h3 : U.single = none) :
    U.evalRepr.loaded = U.loaded := by
  simp [Unloaded.evalRepr, Unloaded.loaded, h1, h2, h3]

/-! ### Examples -/

/-- The catalogue of four rows and two patches of C83. -/
def reprCat : LCat ℚ := ⟨saveCat, none, 2⟩

example : ∃ D, reprCat.evalRepr exSet.xyz = .ok D ∧ reprCat.eq D = true ∧ D.npatch = 2 := by
  obtain ⟨D, h1, h2, -, -, -, h3⟩ := repr_eval_partial exSet.xyz reprCat saveCat_isCat ⟨rfl, rfl, rfl, rfl⟩ (by decide +kernel)
    (Or.inl rfl) (by simp [reprCat]) (by simp)
  obtain ⟨p, hp, hq, hn⟩ := h3 [1, 0, 0, 1] rfl
  refine ⟨D, h1, h2, ?_⟩
  have := hq 1 (by simp)
  have : p ≤ 1 := by simp at hp; omega
  omega

/-- Other values of `k` are not equal. -/
example : reprCat.eq { reprCat with cat := { saveCat with tab := { saveTab with
    col := exCol [some 1, some 2, some 3, some 4] [some 1, some 1, some 1, some 1] [some 5, some 6, some 7, some 9] } } } = false := by
  decide +kernel

/-- `eq_iff`, `eq_sums`: trivial weights, given or not. -/
example : LCat.eq (R := ℚ) ⟨⟨{ patchTab with w := some [some 1, some 1, some 1, some 1] }, true, some 4⟩, none, 3⟩
    ⟨⟨{ patchTab with w := some [some 1, some 1, some 1, some 1] }, false, some 4⟩, none, 3⟩ = true := by decide +kernel

/-- `repr_patch_wrong`: the second patch. -/
example : ({ reprCat with single := some 1 } : LCat ℚ).evalRepr exSet.xyz = .error .valueError := repr_patch_wrong _ _ rfl (by simp)

/-- `repr_one_row_wrong`: one row in patch 0 gives a catalogue, but not an equal one. -/
example : ∃ D, (⟨⟨⟨exCol [some 1] [some 2] [some 3], some [some 1], none, none, some [0]⟩, false, some 1⟩, none, 1⟩ : LCat ℚ).evalRepr exSet.xyz
    = .ok D ∧ D.patch = .one 0 := ⟨_, rfl, rfl⟩

/-- A catalogue of one patch of a file, not loaded: what is made again has all rows. -/
theorem repr_unloaded_wrong : ∃ U : Unloaded (List ℕ), U.loaded = [2] ∧ U.evalRepr.loaded = [1, 2] :=
  ⟨⟨fun _ _ p => if p = some 1 then [2] else [1, 2], 0, false, some 1⟩, rfl, rfl⟩

end Catalog
end TreeCorr
