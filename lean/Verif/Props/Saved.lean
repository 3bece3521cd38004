import Verif.Proofs.Saved
import Verif.Props.CatalogPatches

/-!
C83: a catalogue that is written to a file and read back is the same, and patches saved in a directory are those made in memory.
-/

namespace TreeCorr
namespace Catalog

variable {R : Type} [Field R] [DecidableEq R] {m : ℕ}

/-- **C83, files.** A finished catalogue, written and read with the same units and with the columns that were written, is the same:
positions, values, weights, patch numbers, the sum of weights, and whether weights were given.  Rows of zero weight need
`keep_zero_weight` again (`zero_rows_lost`). -/
theorem write_read [CharZero R] (s : Settings R) (u : Units R) (hu : u.Ok) (C : Cat R) (hC : IsCat m C) (hp : Positions s.xyz C.tab)
    (hflag : C.tab.flag = none) (hfl : ∀ c, s.flip c = false) (hk : s.keepZero = true ∨ C.anyZero = false) (h0 : C.sumw ≠ some 0) :
    readBack s (Want.ofFile C.tab.patch.isSome (C.toFile u)) u (C.toFile u) = .ok C := by
  rw [readBack_toFile s u hu C hC hp _ C.tab.patch.isSome rfl id hfl hk h0]
  congr 1
  obtain ⟨⟨c, w, p, f, t⟩, n, sw⟩ := C
  simp only at hflag
  subst hflag
  cases t <;> rfl

/-- **C83, files.** Each position in the file is divided by its own unit; a catalogue with `ra` is written with `ra` and `dec` and
without `x`, `y`, `z`. -/
theorem file_units (u : Units R) (C : Cat R) :
    (∀ ra, C.tab.col .ra = some ra → (C.toFile u).col .ra = some (ra.map (Option.map (· / u.ra))) ∧
      (C.toFile u).col .dec = (C.tab.col .dec).map (List.map (Option.map (· / u.dec))) ∧ (C.toFile u).col .x = none ∧
      (C.toFile u).col .y = none ∧ (C.toFile u).col .z = none) ∧
    (C.tab.col .ra = none → (C.toFile u).col .x = (C.tab.col .x).map (List.map (Option.map (· / u.x))) ∧
      (C.toFile u).col .y = (C.tab.col .y).map (List.map (Option.map (· / u.y))) ∧ (C.toFile u).col .ra = none ∧
      (C.toFile u).col .dec = none ∧ (C.toFile u).col .r = none) := by
  constructor
  · intro ra h
    simp only [Cat.toFile, h, Option.isSome_some, if_true]
    exact ⟨rfl, rfl, trivial, trivial, trivial⟩
  · intro h
    simp only [Cat.toFile, h, Option.isSome_none, Bool.false_eq_true, if_false]
    exact ⟨rfl, rfl, trivial, trivial, trivial⟩

/-- What the theorem on saved patches asks of a catalogue with `save_patch_dir`: made by the constructor, in more than one patch, each
number below `npatch` occurs, no zero weights, no patch with a zero sum of weights; the configuration names just its columns; the files
have different names.  If patches are read one by one from its file, these are the rows of the patch, and positions are either angles or
without units. -/
structure Savable (xyz : Option R → Option R → Option (Option R) → Option R × Option R × Option R) (o : Obj R) (low : Bool) (m : ℕ)
    (P : List ℤ) : Prop where
  isCat : IsCat m o.cat
  pos : Positions xyz o.cat.tab
  patch : o.cat.tab.patch = some P
  npatch : o.npatch ≠ 1
  occur : ∀ p : ℤ, p ∈ P ↔ 0 ≤ p ∧ p < o.npatch
  zero : o.cat.anyZero = false
  sums : ∀ w, o.cat.tab.w = some w → ∀ p ∈ P, npSum (rowsIn P p w) ≠ some 0
  named : o.Named
  names : ∀ i < o.npatch, ∀ j < o.npatch, o.name i = o.name j → i = j
  single : low = true → o.fromFile = true → ∀ p ∈ P, ∀ D, onePatch o.cat P p = .ok D →
    ∃ D', o.single p = .ok D' ∧ D'.tab.patch = none ∧ D'.bare false = D
  units : low = true → o.fromFile = true → (o.cat.tab.col .ra).isSome ∨ o.units = (1, 1)

theorem Savable.memory [CharZero R] {xyz : Option R → Option R → Option (Option R) → Option R × Option R × Option R} {o : Obj R} {low : Bool}
    {P : List ℤ} (h : Savable xyz o low m P) :
    ∃ Ds, getPatches o.npatch o.cat = .ok Ds ∧ List.Forall₂ (fun p D => onePatch o.cat P p = .ok D ∧ PatchOf o.cat P p D ∧ p ∈ P)
      (patchIds P) Ds ∧ Ds.length = o.npatch := by
  obtain ⟨w, hw⟩ := Option.isSome_iff_exists.1 h.isCat.w
  have hws : o.cat.tab.ws m = w := by simp [Tab.ws, hw]
  have hlen : P.length = m := h.isCat.clean.patch P h.patch
  have hone : ∀ p ∈ patchIds P, ∃ D, onePatch o.cat P p = .ok D ∧ PatchOf o.cat P p D := by
    intro p hp
    have hp := (patchIds_mem P p).1 hp
    exact onePatch_exact o.cat h.isCat P hlen p hp h.zero (by rw [hws]; exact h.sums w hw p hp)
  obtain ⟨Ds, hDs⟩ := (Config.mapM_isOk_iff (onePatch o.cat P) (patchIds P)).2 fun p hp => ⟨_, (hone p hp).choose_spec.1⟩
  have hF := (Config.mapM_ok_iff _ _ _).1 hDs
  refine ⟨Ds, ?_, ?_, ?_⟩
  · unfold getPatches
    rw [if_neg (by exact_mod_cast h.npatch), h.patch]
    exact hDs
  · have : ∀ p D, p ∈ patchIds P → onePatch o.cat P p = .ok D → onePatch o.cat P p = .ok D ∧ PatchOf o.cat P p D ∧ p ∈ P := by
      intro p D hp hD
      obtain ⟨D', h1, h2⟩ := hone p hp
      rw [hD] at h1
      cases h1
      exact ⟨hD, h2, (patchIds_mem P p).1 hp⟩
    clear hDs hone
    generalize patchIds P = L at hF this
    induction hF with
    | nil => exact .nil
    | cons hab _ ih => exact .cons (this _ _ (by simp) hab) (ih fun p D hp => this p D (by simp [hp]))
  · rw [← hF.length_eq, patchIds_range P o.npatch h.occur]
    simp

theorem forall₂_right {α β : Type} {r : α → β → Prop} {l : List α} {l' : List β} (h : List.Forall₂ r l l') : ∀ b ∈ l', ∃ a, r a b := by
  induction h with
  | nil => simp
  | cons hab _ ih =>
    intro b hb
    rcases List.mem_cons.1 hb with rfl | hb
    · exact ⟨_, hab⟩
    · exact ih b hb

theorem Savable.read [CharZero R] {xyz : Option R → Option R → Option (Option R) → Option R × Option R × Option R} {o : Obj R} {low : Bool}
    {P : List ℤ} (h : Savable xyz o low m P) (Ds : List (Cat R)) (hDs : getPatches o.npatch o.cat = .ok Ds) (b : Bool)
    (hb : b = true ∨ b = o.loaded) (disk : Disk R) (hH : Holds o disk Ds) : readPatches xyz { o with loaded := b } disk = .ok Ds := by
  obtain ⟨Ds', h1, h2, -⟩ := h.memory
  rw [hDs] at h1
  cases h1
  apply readPatches_holds xyz { o with loaded := b } disk Ds hH
  intro D hD
  obtain ⟨p, -, hp, hpP⟩ := forall₂_right h2 D hD
  have hN : Obj.Named { o with loaded := b } := by
    refine ⟨h.named.col, h.named.w, h.named.wpos, ?_⟩
    rcases hb with hb | hb
    · exact Or.inl hb
    · rw [hb]
      exact h.named.all
  have hlen : P.length = m := h.isCat.clean.patch P h.patch
  refine ⟨_, hp.isCat, ?_, hp.zero, hp.sumw, hp.flag, hp.patch, ?_⟩
  · exact positions_patch xyz o.cat.tab D.tab h.pos P p (fun c l hl => by rw [hlen, (h.isCat.clean.col c l hl).1]) hp.col
  · rw [want_eq xyz _ hN h.pos h.isCat.w, ofFile_patch hp h.isCat.w]

/-- **C83, saved patches.** With `save_patch_dir`, with or without `low_mem`, whether the catalogue is from arrays or a file, in memory
or not, and whether the directory lacks some of the files (whatever the others hold) or has those of this catalogue: `get_patches`
gives the patches that it would make in memory; afterwards the directory holds them, and no other file was touched.  Missing: other
files of these names are taken for the patches (`stale_patches_wrong`); the conditions on the catalogue (the theorems on failures
below). -/
theorem saved_patches_partial [CharZero R] (xyz : Option R → Option R → Option (Option R) → Option R × Option R × Option R) (o : Obj R)
    (low : Bool) (P : List ℤ) (h : Savable xyz o low m P) (hnew : o.patches = none) (disk : Disk R) (Ds : List (Cat R))
    (hDs : getPatches o.npatch o.cat = .ok Ds) (hdisk : (∃ i < o.npatch, disk (o.name i) = none) ∨ Holds o disk Ds) :
    (getPatchesDir xyz o low disk).1 = .ok Ds ∧ Holds o (getPatchesDir xyz o low disk).2.1 Ds ∧
      (getPatchesDir xyz o low disk).2.2.patches = some Ds ∧
      ∀ n, (∀ i < o.npatch, n ≠ o.name i) → (getPatchesDir xyz o low disk).2.1 n = disk n := by
  obtain ⟨Ds', h1, h2, hlen⟩ := h.memory
  rw [hDs] at h1
  cases h1
  have hread : readPatches xyz o disk = .ok Ds ∧ Holds o disk Ds ∨ readPatches xyz o disk = .error .os := by
    rcases hdisk with ⟨i, hi, hd⟩ | hH
    · right
      unfold readPatches
      rw [if_pos ⟨i, List.mem_range.2 hi, hd⟩]
    · exact Or.inl ⟨h.read Ds hDs o.loaded (Or.inr rfl) disk hH, hH⟩
  rcases hread with ⟨hr, hH⟩ | hr
  · unfold getPatchesDir
    rw [hnew]
    simp only [if_neg h.npatch, hr]
    exact ⟨trivial, hH, trivial, fun _ _ => trivial⟩
  -- the patches that are made, up to flags
  obtain ⟨Es, u, b, hbuild, hElen, hEfile, hb, hEs⟩ : ∃ Es u b, buildPatches o low = (.ok Es, u, b) ∧ Es.length = Ds.length ∧
      (∀ (i : ℕ) (E D : Cat R), Es[i]? = some E → Ds[i]? = some D → E.toFile ⟨u.1, u.2, 1, 1⟩ = D.toFile .one) ∧ (b = true ∨ b = o.loaded) ∧
      (low = false → Es = Ds) := by
    unfold buildPatches
    rcases Bool.eq_false_or_eq_true (low && o.fromFile) with hl | hl
    · rw [hl]
      simp only [if_true]
      obtain ⟨hlow, hff⟩ := Bool.and_eq_true_iff.1 hl
      have hS : ∃ Es, (patchIds P).mapM o.single = .ok Es ∧ List.Forall₂ (fun E D : Cat R => E.tab.patch = none ∧ E.bare false = D) Es Ds := by
        have hs := h.single hlow hff
        generalize patchIds P = L at h2
        clear hDs hlen hr hdisk
        induction h2 with
        | nil => exact ⟨[], rfl, .nil⟩
        | @cons p D L Ds hab _ ih =>
          obtain ⟨Es, e1, e2⟩ := ih
          obtain ⟨E, e3, e4, e5⟩ := hs p hab.2.2 D hab.1
          refine ⟨E :: Es, ?_, .cons ⟨e4, e5⟩ e2⟩
          rw [List.mapM_cons, e3, e1]
          rfl
      obtain ⟨Es, e1, e2⟩ := hS
      have hfile : ∀ (i : ℕ) (E D : Cat R), Es[i]? = some E → Ds[i]? = some D → E.toFile ⟨o.units.1, o.units.2, 1, 1⟩ = D.toFile .one := by
        intro i E D hE hD
        have hED : E.tab.patch = none ∧ E.bare false = D := by
          rw [List.forall₂_iff_get] at e2
          obtain ⟨i1, g1⟩ := List.getElem?_eq_some_iff.1 hE
          obtain ⟨i2, g2⟩ := List.getElem?_eq_some_iff.1 hD
          have := e2.2 i i1 i2
          simp only [List.get_eq_getElem, g1, g2] at this
          exact this
        obtain ⟨p, -, hp, -⟩ := forall₂_right h2 D (List.mem_of_getElem? hD)
        rw [← toFile_bare _ E hED.1, hED.2]
        rcases h.units hlow hff with hra | hun
        · exact toFile_units (by rw [hp.col]; simpa using hra)
        · rw [hun]
          rfl
      rcases Bool.eq_false_or_eq_true o.centers with hc | hc
      · rw [hc]
        simp only [if_true]
        rw [← patchIds_range P o.npatch h.occur, e1]
        exact ⟨Es, _, _, rfl, e2.length_eq, hfile, Or.inr rfl, fun hf => by rw [hlow] at hf; simp at hf⟩
      · rw [hc, h.patch]
        simp only [Bool.false_eq_true, if_false]
        rw [e1]
        exact ⟨Es, _, _, rfl, e2.length_eq, hfile, Or.inl rfl, fun hf => by rw [hlow] at hf; simp at hf⟩
    · rw [hl]
      simp only [Bool.false_eq_true, if_false]
      refine ⟨Ds, (1, 1), true, by rw [hDs], rfl, ?_, Or.inl rfl, fun _ => rfl⟩
      intro i E D hE hD
      rw [hE] at hD
      cases hD
      rfl
  have hW : Holds o (writePatches o u Es disk) Ds := by
    obtain ⟨h3, h4⟩ := writePatches_holds' o disk u Es (hElen.trans hlen) h.names
    refine ⟨hlen, ?_⟩
    intro i D hi
    have hi' : i < Es.length := by
      rw [hElen]
      exact (List.getElem?_eq_some_iff.1 hi).1
    rw [h4 i _ (List.getElem?_eq_getElem hi'), hEfile i _ D (List.getElem?_eq_getElem hi') hi]
  have hR := h.read Ds hDs b hb _ hW
  simp only [hnew] at hR
  unfold getPatchesDir
  rw [hnew]
  simp only [if_neg h.npatch, hr, hbuild]
  rcases Bool.eq_false_or_eq_true low with hl | hl
  · rw [hl]
    simp only [if_true, hR]
    exact ⟨trivial, hW, trivial, fun n hn => writePatches_other o disk u Es n hn⟩
  · rw [hl]
    simp only [Bool.false_eq_true, if_false]
    rw [hEs hl] at hW ⊢
    exact ⟨rfl, hW, rfl, fun n hn => writePatches_other o disk u Ds n hn⟩

/-- **C83, later runs.** A later run with the same catalogue and directory (not in memory yet, say, or the other way of `low_mem`) finds
the patches of the first. -/
theorem later_run_partial [CharZero R] (xyz : Option R → Option R → Option (Option R) → Option R × Option R × Option R) (o o' : Obj R)
    (low low' : Bool) (P : List ℤ) (h : Savable xyz o low m P) (h' : Savable xyz o' low' m P) (hnew : o.patches = none)
    (hnew' : o'.patches = none) (hcat : o'.cat = o.cat) (hn : o'.npatch = o.npatch) (hname : o'.name = o.name) (disk : Disk R)
    (hdisk : ∃ i < o.npatch, disk (o.name i) = none) :
    ∃ Ds, getPatches o.npatch o.cat = .ok Ds ∧ (getPatchesDir xyz o low disk).1 = .ok Ds ∧
      (getPatchesDir xyz o' low' (getPatchesDir xyz o low disk).2.1).1 = .ok Ds := by
  obtain ⟨Ds, hDs, -, -⟩ := h.memory
  obtain ⟨h1, h2, -⟩ := saved_patches_partial xyz o low P h hnew disk Ds hDs (Or.inl hdisk)
  refine ⟨Ds, hDs, h1, ?_⟩
  refine (saved_patches_partial xyz o' low' P h' hnew' _ Ds (by rw [hn, hcat]; exact hDs) (Or.inr ?_)).1
  unfold Holds
  rw [hn, hname]
  exact h2

/-! ### Examples and failures -/

/-- Four rows in patches 0 and 1. -/
def saveTab : Tab ℚ := { patchTab with patch := some [1, 0, 0, 1] }

/-- The catalogue of these rows. -/
def saveCat : Cat ℚ := ⟨saveTab, true, some 10⟩

theorem saveCat_made : view (finishInput exSet saveTab) = view (.ok saveCat) := by decide +kernel

theorem saveCat_isCat : IsCat 4 saveCat := by
  refine ⟨patchCat_isCat.pos, ⟨patchCat_isCat.clean.col, patchCat_isCat.clean.w, patchCat_isCat.clean.wpos, ?_, rfl,
    patchCat_isCat.clean.x, patchCat_isCat.clean.zero⟩, patchCat_isCat.w, patchCat_isCat.triv, patchCat_isCat.sumw⟩
  intro l h
  simp only [saveCat, saveTab, Option.some.injEq] at h
  subst h
  rfl

/-- No columns. -/
def noCols : Want := ⟨fun _ => false, false, false, false⟩

/-- The columns `x`, `y`, `k`, `w`. -/
def someCols : Want := ⟨fun c => c = .x ∨ c = .y ∨ c = .k, true, false, false⟩

/-- The catalogue of arrays `C` with `n` patches. -/
def arrays (n : ℕ) (C : Cat ℚ) : Obj ℚ :=
  ⟨C, true, false, noCols, (1, 1), n, false, fun _ => .error .typeError, fun i => if i = 0 then "patch000.fits" else if i = 1 then
    "patch001.fits" else "patch002.fits", none⟩

/-- A catalogue `C` of a file, not in memory, with `n` patches and the given columns in the configuration. -/
def ofFile (n : ℕ) (q : Want) (C : Cat ℚ) : Obj ℚ :=
  ⟨C, false, true, q, (1, 1), n, false, fun p => match C.tab.patch with
    | some P => onePatch C P p
    | none => .error .typeError, fun i => if i = 0 then "cat_000.fits" else if i = 1 then "cat_001.fits" else "cat_002.fits", none⟩

/-- An empty directory. -/
def emptyDir : Disk ℚ := fun _ => none

theorem save_occur (p : ℤ) : p ∈ [(1 : ℤ), 0, 0, 1] ↔ 0 ≤ p ∧ p < (2 : ℕ) := by
  simp only [List.mem_cons, List.not_mem_nil, or_false]
  omega

theorem arrays_savable (low : Bool) : Savable exSet.xyz (arrays 2 saveCat) low 4 [1, 0, 0, 1] := by
  refine ⟨saveCat_isCat, ⟨rfl, rfl, rfl, rfl⟩, rfl, by decide, save_occur, by decide +kernel, ?_, ⟨?_, ?_, ?_, Or.inl rfl⟩, ?_, ?_, ?_⟩
  · intro w hw
    simp only [arrays, saveCat, saveTab, patchTab, Option.some.injEq] at hw
    subst hw
    decide +kernel
  · intro c h
    simp [arrays, noCols] at h
  · intro h
    simp [arrays, noCols] at h
  · intro h
    simp [arrays, noCols] at h
  · have : (arrays 2 saveCat).npatch = 2 := rfl
    intro i hi j hj h
    rw [this] at hi hj
    interval_cases i <;> interval_cases j <;> simp [arrays] at h ⊢
  · intro _ h
    simp [arrays] at h
  · intro _ h
    simp [arrays] at h

theorem onePatch_bare (C : Cat ℚ) {m : ℕ} (hC : IsCat m C) (P : List ℤ) (hP : P.length = m) (hz : C.anyZero = false) (p : ℤ) (hp : p ∈ P)
    (h0 : npSum (rowsIn P p (C.tab.ws m)) ≠ some 0) (D : Cat ℚ) (hD : onePatch C P p = .ok D) :
    D.tab.patch = none ∧ D.bare false = D := by
  obtain ⟨D', h1, h2⟩ := onePatch_exact C hC P hP p hp hz h0
  rw [hD] at h1
  cases h1
  exact ⟨h2.patch, bare_self h2.flag h2.patch⟩

theorem ofFile_savable (low : Bool) : Savable exSet.xyz (ofFile 2 someCols saveCat) low 4 [1, 0, 0, 1] := by
  refine ⟨saveCat_isCat, ⟨rfl, rfl, rfl, rfl⟩, rfl, by decide, save_occur, by decide +kernel, ?_, ⟨?_, ?_, ?_, Or.inr ⟨?_, ?_, ?_⟩⟩, ?_, ?_, ?_⟩
  · intro w hw
    simp only [ofFile, saveCat, saveTab, patchTab, Option.some.injEq] at hw
    subst hw
    decide +kernel
  · intro c
    cases c <;> decide
  · intro _; rfl
  · intro h
    simp [ofFile, someCols] at h
  · intro c
    cases c <;> decide
  · intro _; rfl
  · intro h
    simp [ofFile, saveCat, saveTab, patchTab] at h
  · have : (ofFile 2 someCols saveCat).npatch = 2 := rfl
    intro i hi j hj h
    rw [this] at hi hj
    interval_cases i <;> interval_cases j <;> simp [ofFile] at h ⊢
  · intro _ _ p hp D hD
    refine ⟨D, hD, onePatch_bare saveCat saveCat_isCat [1, 0, 0, 1] rfl (by decide +kernel) p hp ?_ D hD⟩
    revert p
    have : ∀ p ∈ [(1 : ℤ), 0, 0, 1], npSum (rowsIn [1, 0, 0, 1] p (saveCat.tab.ws 4)) ≠ some 0 := by decide +kernel
    intro p hp _
    exact this p hp
  · intro _ _
    exact Or.inr rfl

/-- The hypotheses hold: arrays and a file, with and without `low_mem`, in an empty directory and in a later run. -/
example (low low' : Bool) : ∃ Ds, getPatches 2 saveCat = .ok Ds ∧ (getPatchesDir exSet.xyz (ofFile 2 someCols saveCat) low emptyDir).1 = .ok Ds ∧
    (getPatchesDir exSet.xyz (ofFile 2 someCols saveCat) low' (getPatchesDir exSet.xyz (ofFile 2 someCols saveCat) low emptyDir).2.1).1 = .ok Ds :=
  later_run_partial exSet.xyz _ _ low low' _ (ofFile_savable low) (ofFile_savable low') rfl rfl rfl rfl rfl emptyDir ⟨0, by decide, rfl⟩

example (low low' : Bool) : ∃ Ds, getPatches 2 saveCat = .ok Ds ∧ (getPatchesDir exSet.xyz (arrays 2 saveCat) low emptyDir).1 = .ok Ds ∧
    (getPatchesDir exSet.xyz (arrays 2 saveCat) low' (getPatchesDir exSet.xyz (arrays 2 saveCat) low emptyDir).2.1).1 = .ok Ds :=
  later_run_partial exSet.xyz _ _ low low' _ (arrays_savable low) (arrays_savable low') rfl rfl rfl rfl rfl emptyDir ⟨0, by decide, rfl⟩

/-- The round trip with other units. -/
example : readBack exSet (Want.ofFile true (saveCat.toFile ⟨2, 3, 1, 1⟩)) ⟨2, 3, 1, 1⟩ (saveCat.toFile ⟨2, 3, 1, 1⟩) = .ok saveCat :=
  write_read exSet ⟨2, 3, 1, 1⟩ (by norm_num [Units.Ok]) saveCat saveCat_isCat ⟨rfl, rfl, rfl, rfl⟩ rfl (fun _ => rfl)
    (Or.inr (by decide +kernel)) (by decide +kernel)

/-- What one sees of the patches, or the error. -/
def viewsDir (r : Except Err (List (Cat ℚ))) : Err ⊕ List View :=
  match r with
  | .error e => .inl e
  | .ok Ds => .inr (Ds.map fun C => ⟨C.tab.col .x, C.tab.col .k, C.tab.w, C.sumw⟩)

/-- The model runs. -/
example : viewsDir (getPatchesDir exSet.xyz (arrays 2 saveCat) true emptyDir).1 =
    .inr [⟨some [some 2, some 3], some [some 6, some 7], some [some 2, some 3], some 5⟩,
      ⟨some [some 1, some 4], some [some 5, some 8], some [some 1, some 4], some 5⟩] := by decide +kernel

/-- Rows of zero weight are lost on reading without `keep_zero_weight`. -/
theorem zero_rows_lost : view (readBack exSet (Want.ofFile false (Cat.toFile .one ⟨{ saveTab with w := some [some 1, some 2, some 0, some 4] },
    true, some 7⟩)) .one (Cat.toFile .one ⟨{ saveTab with w := some [some 1, some 2, some 0, some 4] }, true, some 7⟩)) =
    .inr ⟨some [some 1, some 2, some 4], some [some 5, some 6, some 8], some [some 1, some 2, some 4], some 7⟩ := by decide +kernel

/-- Another catalogue of arrays, at other places. -/
def otherCat : Cat ℚ :=
  let c := exCol [some 11, some 12, some 13, some 14] [some 1, some 1, some 1, some 1] [some 5, some 6, some 7, some 8]
  ⟨{ saveTab with col := c }, true, some 10⟩

/-- C83 fails for two catalogues of arrays with one `save_patch_dir`: the files of both are `patch000.fits`, …, and the patches of
the second are those of the first. -/
theorem stale_patches_wrong :
    let disk := (getPatchesDir exSet.xyz (arrays 2 saveCat) false emptyDir).2.1
    (viewsDir (getPatchesDir exSet.xyz (arrays 2 otherCat) false disk).1 =
      .inr [⟨some [some 2, some 3], some [some 6, some 7], some [some 2, some 3], some 5⟩,
        ⟨some [some 1, some 4], some [some 5, some 8], some [some 1, some 4], some 5⟩]) ∧
    views (getPatches 2 otherCat) = .inr [⟨some [some 12, some 13], some [some 6, some 7], some [some 2, some 3], some 5⟩,
        ⟨some [some 11, some 14], some [some 5, some 8], some [some 1, some 4], some 5⟩] := by decide +kernel

/-- The catalogue with a row of zero weight, kept. -/
def keptCat : Cat ℚ := ⟨{ saveTab with w := some [some 1, some 2, some 0, some 4] }, true, some 7⟩

/-- C83 fails for rows of zero weight that were kept: in the first run patch 0 has two rows, in the second one. -/
theorem kept_rows_wrong :
    let r := getPatchesDir exSet.xyz (arrays 2 keptCat) false emptyDir
    viewsDir r.1 = .inr [⟨some [some 2, some 3], some [some 6, some 7], some [some 2, some 0], some 2⟩,
        ⟨some [some 1, some 4], some [some 5, some 8], some [some 1, some 4], some 5⟩] ∧
    viewsDir (getPatchesDir exSet.xyz (arrays 2 keptCat) false r.2.1).1 = .inr [⟨some [some 2], some [some 6], some [some 2], some 2⟩,
        ⟨some [some 1, some 4], some [some 5, some 8], some [some 1, some 4], some 5⟩] := by decide +kernel

/-- C83 fails for a file with `x_units` and `low_mem`: positions are divided by the units when they are written, `y` by its own, and
read without. -/
theorem low_mem_units_wrong :
    let r := getPatchesDir exSet.xyz { ofFile 2 someCols saveCat with units := (2, 3) } true emptyDir
    viewsDir r.1 =
      .inr [⟨some [some 1, some (3 / 2)], some [some 6, some 7], some [some 2, some 3], some 5⟩,
        ⟨some [some (1 / 2), some 2], some [some 5, some 8], some [some 1, some 4], some 5⟩] ∧
    saveTab.col .y = some [some 1, some 1, some 1, some 1] ∧
    (r.2.1 "cat_000.fits").bind (·.col .y) = some [some (1 / 3), some (1 / 3)] := by decide +kernel

/-- Without the column `k`, as for randoms. -/
def randCat : Cat ℚ := ⟨{ saveTab with col := fun c => if c = .k then none else saveTab.col c }, true, some 10⟩

/-- C83 fails for randoms whose configuration names a column of values: the first run is right, the second is a ValueError, and after it
the catalogue has no patches at all. -/
theorem randoms_wrong :
    let r := getPatchesDir exSet.xyz (ofFile 2 someCols randCat) false emptyDir
    let r' := getPatchesDir exSet.xyz (ofFile 2 someCols randCat) false r.2.1
    viewsDir r.1 = .inr [⟨some [some 2, some 3], none, some [some 2, some 3], some 5⟩,
        ⟨some [some 1, some 4], none, some [some 1, some 4], some 5⟩] ∧
    viewsDir r'.1 = .inl (.py .valueError) ∧ viewsDir (getPatchesDir exSet.xyz r'.2.2 false r'.2.1).1 = .inr [] := by decide +kernel

/-- C83 fails with `low_mem` for a number without rows: the last file is missing, an OSError, and after it the catalogue has no patches
at all.  Without `low_mem` there are two patches. -/
theorem missing_number_wrong :
    let r := getPatchesDir exSet.xyz (ofFile 3 someCols patchCat) true emptyDir
    viewsDir r.1 = .inl .os ∧ viewsDir (getPatchesDir exSet.xyz r.2.2 true r.2.1).1 = .inr [] ∧
    viewsDir (getPatchesDir exSet.xyz (ofFile 3 someCols patchCat) false emptyDir).1 =
      .inr [⟨some [some 2, some 3], some [some 6, some 7], some [some 2, some 3], some 5⟩,
        ⟨some [some 1, some 4], some [some 5, some 8], some [some 1, some 4], some 5⟩] := by decide +kernel

/-- C83 fails for weights that come from flags (no `w_col`, `keep_zero_weight`): in a later run, with the catalogue not in memory, the
weights are not read, and the flagged row counts. -/
theorem flagged_rows_wrong :
    let o := ofFile 2 { someCols with w := false } ⟨{ saveTab with w := some [some 1, some 1, some 0, some 1] }, true, some 3⟩
    let r := getPatchesDir exSet.xyz o false emptyDir
    viewsDir r.1 = .inr [⟨some [some 2, some 3], some [some 6, some 7], some [some 1, some 0], some 1⟩,
        ⟨some [some 1, some 4], some [some 5, some 8], some [some 1, some 1], some 2⟩] ∧
    viewsDir (getPatchesDir exSet.xyz o false r.2.1).1 = .inr [⟨some [some 2, some 3], some [some 6, some 7], some [some 1, some 1], some 2⟩,
        ⟨some [some 1, some 4], some [some 5, some 8], some [some 1, some 1], some 2⟩] := by decide +kernel

end Catalog
end TreeCorr
