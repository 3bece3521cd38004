import Verif.Proofs.Exec

/-!
C82: `corr2` and `corr3` write for each output that is asked for what the documentation says, computed from the right catalogues; and the
columns that `corr2` takes as needed are those that are used.
-/

namespace TreeCorr
namespace Exec
open ReadCols (OutKey Fld colRequired)

/-- **C82, errors.** `corr2` fails exactly if the input does not suffice. -/
theorem corr2_ok_iff (i : In) : (corr2 i).2 = none ↔ Sufficient i := by
  unfold corr2
  obtain ⟨p, hg, hp⟩ := good_blocks i
  cases h1 : i.there .cat1
  · simp only [Bool.not_false, if_true]
    exact ⟨fun h => by simp at h, fun h => by have := h.cat1; rw [h1] at this; cases this⟩
  · simp only [Bool.not_true, Bool.false_eq_true, if_false]
    by_cases h2 : i.there .rand2 = true → i.there .cat2 = true
    · rw [if_neg (fun h3 => by simp only [Bool.and_eq_true, Bool.not_eq_true'] at h3; rw [h2 h3.2] at h3; cases h3.1), hg.iff]
      exact hp h1 h2
    · push Not at h2
      rw [if_pos (by simpa using h2.symm)]
      exact ⟨fun h => by simp at h, fun h => absurd (h.rand2 h2.1) h2.2⟩

/-- **C82, outputs.** If the input suffices, `corr2` writes all the outputs that are asked for and no others, each once, and each is
computed as documented. -/
theorem corr2_outputs {i : In} (h : Sufficient i) :
    corr2 i = ((order.filter i.has).map fun key => (key, documented i key), none) := by
  have h2 := (corr2_ok_iff i).2 h
  have h3 : corr2 i = (blocks i).foldr andThen ([], none) := by
    unfold corr2
    rw [if_neg (by simp [h.cat1]), if_neg]
    simp only [Bool.and_eq_true, Bool.not_eq_true', not_and]
    exact fun a b => by have := h.rand2 b; rw [a] at this; cases this
  obtain ⟨p, hg, -⟩ := good_blocks i
  rw [h3] at h2 ⊢
  exact Prod.ext (hg.all h2) h2

/-- **C82, kind of error, partly.** Input that does not suffice is refused with a TypeError, except for the normalised aperture mass
without randoms (`norm_error_wrong`). -/
theorem corr2_error_partial {i : In} {e : PyErr} (h : (corr2 i).2 = some e) (hn : i.has .norm = true → i.there .rand1 = true) :
    e = .typeError := by
  unfold corr2 at h
  split at h
  · exact (Option.some.inj h).symm
  · split at h
    · exact (Option.some.inj h).symm
    · obtain ⟨r, hr, h⟩ := foldr_error h
      rcases block_error i hr h with h | ⟨-, h1, h2⟩
      · exact h
      · rw [hn h1] at h2; cases h2

theorem mem_order (key : OutKey) : key ∈ order := by cases key <;> decide

theorem order_nodup : order.Nodup := by decide

/-- **C82, what is written is right.** Also when an error follows, what has been written has been asked for and is as documented. -/
theorem corr2_sound (i : In) {key : OutKey} {o : Out} (h : (key, o) ∈ (corr2 i).1) : i.has key = true ∧ o = documented i key := by
  obtain ⟨p, hg, -⟩ := good_blocks i
  have hm : (key, o) ∈ part i order := by
    unfold corr2 at h
    split at h
    · simp at h
    · split at h
      · simp at h
      · exact hg.pre.subset h
  simp only [part, List.mem_map, List.mem_filter] at hm
  obtain ⟨k', ⟨-, h1⟩, h2⟩ := hm
  obtain ⟨rfl, rfl⟩ := Prod.mk.inj h2
  exact ⟨h1, rfl⟩

/-- **C82, independence.** What is written for an output does not depend on which others are asked for. -/
theorem corr2_independent {i i' : In} (hs : i.nnStat = i'.nnStat) (ht : i.stat = i'.stat) (hp : i.there = i'.there) {key : OutKey} {o o' : Out}
    (h : (key, o) ∈ (corr2 i).1) (h' : (key, o') ∈ (corr2 i').1) : o = o' := by
  rw [(corr2_sound i h).2, (corr2_sound i' h').2]
  obtain ⟨a, b, c, d⟩ := i
  obtain ⟨a', b', c', d'⟩ := i'
  simp only at hs ht hp
  subst hs ht hp
  rfl

/-- **C82, randoms.** Of randoms only the positions are used. -/
theorem random_positions (i : In) (key : OutKey) {s : Src} {l : Letter} (h : (s, l) ∈ (documented i key).uses)
    (hs : s = .rand1 ∨ s = .rand2) : l = none := by
  exact (mem_uses_imp i key h).2.2 hs

/-- **C82, columns of the first file.** A kind of values of the first file is used if and only if `corr2` takes
its columns as needed, except for the scalar values of KZ (`kz_columns_wrong`). -/
theorem first_columns_partial (i : In) (F : Fld) :
    (∃ key, i.has key = true ∧ (Src.cat1, some F) ∈ (documented i key).uses) ↔
      colRequired i.has 0 F = true ∨ (F = .K ∧ i.has .kz = true) := by
  constructor
  · rintro ⟨key, hk, hu⟩
    have := ((mem_uses_imp i key hu).1 rfl).resolve_left (by simp)
    cases key <;> simp [kinds] at this <;> subst this <;> simp [colRequired, hk]
  · intro h1
    have use : ∀ key, i.has key = true → (kinds key).1 = some F →
        ∃ key, i.has key = true ∧ (Src.cat1, some F) ∈ (documented i key).uses :=
      fun key hk e => ⟨key, hk, uses_first i key e⟩
    cases F <;> simp [colRequired] at h1
    · rcases h1 with ((((h1 | h1) | h1) | h1) | h1) | h1
      exacts [use _ h1 rfl, use _ h1 rfl, use _ h1 rfl, use _ h1 rfl, use _ h1 rfl, use _ h1 rfl]
    · exact use _ h1 rfl
    · exact use _ h1 rfl
    · rcases h1 with h1 | h1
      exacts [use _ h1 rfl, use _ h1 rfl]
    · exact use _ h1 rfl
    · exact use _ h1 rfl

/-- **C82, columns of the second file.** If there is a second file, a kind of values of it is used if and only if `corr2` takes its
columns as needed. -/
theorem second_columns {i : In} (h : i.there .cat2 = true) (F : Fld) :
    (∃ key, i.has key = true ∧ (Src.cat2, some F) ∈ (documented i key).uses) ↔ colRequired i.has 1 F = true := by
  constructor
  · rintro ⟨key, hk, hu⟩
    have := ((mem_uses_imp i key hu).2.1 rfl).resolve_left (by simp)
    cases key <;> simp [kinds] at this <;> subst this <;> simp [colRequired, hk]
  · intro h1
    have use : ∀ key, i.has key = true → (kinds key).2 = some F →
        ∃ key, i.has key = true ∧ (Src.cat2, some F) ∈ (documented i key).uses :=
      fun key hk e => ⟨key, hk, uses_second i key h e⟩
    cases F <;> simp [colRequired] at h1
    · rcases h1 with h1 | h1
      exacts [use _ h1 rfl, use _ h1 rfl]
    · rcases h1 with (h1 | h1) | h1
      exacts [use _ h1 rfl, use _ h1 rfl, use _ h1 rfl]
    · rcases h1 with (h1 | h1) | h1
      exacts [use _ h1 rfl, use _ h1 rfl, use _ h1 rfl]
    · rcases h1 with ((((h1 | h1) | h1) | h1) | h1) | h1
      exacts [use _ h1 rfl, use _ h1 rfl, use _ h1 rfl, use _ h1 rfl, use _ h1 rfl, use _ h1 rfl]
    · rcases h1 with (h1 | h1) | h1
      exacts [use _ h1 rfl, use _ h1 rfl, use _ h1 rfl]
    · rcases h1 with (h1 | h1) | h1
      exacts [use _ h1 rfl, use _ h1 rfl, use _ h1 rfl]

/-- **C82, `corr3`.** With data `corr3` writes all the outputs asked for and no others, each once, as documented; without data it fails and
writes nothing. -/
theorem corr3_outputs (i : In3) : corr3 i =
    if i.cat = true then
      (([.ggg, .m3, .nnn, .kkk] : List OutKey3).filter i.has |>.map fun key => (key, documented3 i key), none)
    else ([], some .typeError) := by
  unfold corr3
  cases i.cat <;> cases h1 : i.has .ggg <;> cases h2 : i.has .m3 <;> cases h3 : i.has .nnn <;> cases h4 : i.has .kkk <;> cases h5 : i.rand <;>
    cases h6 : i.nnnStat <;> simp [h1, h2, h3, h4, h5, h6, documented3]

/-! ### Cases and counterexamples -/

/-- Lenses, sources and randoms; the profile of the shear and the counts are asked for. -/
def exIn : In where
  has := fun key => key = .nn ∨ key = .ng ∨ key = .norm
  nnStat := .compensated
  stat := fun _ => none
  there := fun _ => true

example : Sufficient exIn where
  cat1 := rfl
  rand2 := fun _ => rfl
  cat2 := fun _ _ _ => rfl
  both := fun _ _ _ => rfl
  rand1 := fun _ _ _ _ _ => rfl
  norm := fun _ => rfl

example : corr2 exIn = ([(.nn, .counts ⟨none, none, .cat1, some .cat2⟩ (some ⟨none, none, .rand1, some .rand2⟩)
      (some ⟨none, none, .cat1, some .rand2⟩) (some ⟨none, none, .rand1, some .cat2⟩)),
    (.ng, .cross ⟨none, some .G, .cat1, some .cat2⟩ (some ⟨none, some .G, .rand1, some .cat2⟩)),
    (.norm, .norm ⟨none, some .G, .cat1, some .cat2⟩ ⟨some .G, some .G, .cat2, none⟩ ⟨none, none, .cat1, none⟩ ⟨none, none, .rand1, none⟩
      (some ⟨none, none, .cat1, some .rand1⟩) (some ⟨none, some .G, .rand1, some .cat2⟩))], none) := by decide

/-- **C82 fails** for the columns of the first file for KZ: its scalar values are used, and are not taken as needed. -/
theorem kz_columns_wrong : ∃ i : In, Sufficient i ∧ (∃ key, i.has key = true ∧ (Src.cat1, some .K) ∈ (documented i key).uses) ∧
    colRequired i.has 0 .K = false := by
  refine ⟨{ exIn with has := fun key => key = .kz }, ⟨rfl, fun _ => rfl, fun _ _ _ => rfl, fun _ _ _ => rfl, fun _ _ _ _ _ => rfl, fun _ => rfl⟩,
    ⟨.kz, ?_, ?_⟩, ?_⟩ <;> decide

/-- **C82 fails** for the normalised aperture mass without randoms: this is not noticed, and ends with an AttributeError from the
processing of `None`. -/
theorem norm_error_wrong : ∃ i : In, i.has .norm = true ∧ i.there .rand1 = false ∧ (corr2 i).2 = some .attributeError :=
  ⟨{ exIn with there := fun s => s = .cat1 ∨ s = .cat2 }, by decide, by decide, by decide⟩

/-- Without a second file the counts are written, and then there is an error. -/
example : corr2 { exIn with there := fun s => s = .cat1 } = ([(.nn, .counts ⟨none, none, .cat1, none⟩ none none none)], some .typeError) := by
  decide

/-- **C82 fails** for a statistic with the value `None`: for `ng_statistic` the default is compensated if there are randoms, and `None` is
how a parameter that is not given is written elsewhere; here the randoms are then not used. -/
theorem statistic_none_wrong : ∃ i : In, i.stat .G = some none ∧ Sufficient i ∧
    corr2 i = ([(.ng, .cross ⟨none, some .G, .cat1, some .cat2⟩ none)], none) ∧
    corr2 { i with stat := fun _ => none } = ([(.ng, .cross ⟨none, some .G, .cat1, some .cat2⟩ (some ⟨none, some .G, .rand1, some .cat2⟩))], none) := by
  refine ⟨{ exIn with has := fun key => key = .ng, stat := fun _ => some none }, rfl,
    ⟨rfl, fun _ => rfl, fun _ _ _ => rfl, fun _ _ _ => rfl, fun _ _ _ _ _ => rfl, fun _ => rfl⟩, ?_, ?_⟩ <;> decide

end Exec
end TreeCorr
