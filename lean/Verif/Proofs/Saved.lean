import Verif.Proofs.CatalogOps
import Verif.Proofs.Config
import Verif.Spec.Saved

namespace TreeCorr
namespace Catalog

open Rows (takeIdx whereEq)

variable {R : Type} [Field R] [DecidableEq R] {m : ℕ}

/-- No NaN. -/
structure NF (t : Tab R) : Prop where
  col : ∀ c l, t.col c = some l → none ∉ l
  w : ∀ l, t.w = some l → none ∉ l
  wpos : ∀ l, t.wpos = some l → none ∉ l
  flag : t.flag = none

theorem nanIdx_nil {l : List (Option R)} (h : none ∉ l) : nanIdx l = [] := by
  unfold nanIdx
  rw [List.filter_eq_nil_iff]
  intro i _ hi
  exact h (List.mem_of_getElem? (of_decide_eq_true hi))

theorem nanZero_self {l : List (Option R)} (h : none ∉ l) : nanZero l = l := by
  unfold nanZero
  conv_rhs => rw [← List.map_id l]
  apply List.map_congr_left
  intro a ha
  cases a with
  | none => exact absurd ha h
  | some a => rfl

theorem nanWeights_self {l : List (Option R)} (h : none ∉ l) (w : Option (List (Option R))) : nanWeights l w = .ok w := by
  unfold nanWeights
  rw [if_pos (nanIdx_nil h)]

theorem checkNaN_self {t : Tab R} (h : NF t) (c : Col) : checkNaN t c = .ok t := by
  unfold checkNaN
  cases hc : t.col c with
  | none => rfl
  | some l =>
    simp only
    rw [nanWeights_self (h.col c l hc), nanZero_self (h.col c l hc)]
    simp only
    congr 1
    cases t
    simp only [Tab.mk.injEq, and_true]
    funext c'
    split_ifs with e
    · rw [e, ← hc]
    · rfl

theorem foldlM_self {t : Tab R} (h : NF t) (L : List Col) : L.foldlM checkNaN t = .ok t := by
  induction L with
  | nil => rfl
  | cons c L ih =>
    rw [List.foldlM_cons, checkNaN_self h c]
    exact ih

theorem finish_plain (s : Settings R) {t : Tab R} (h : NF t) (hfl : ∀ c, s.flip c = false) :
    finishInput s t = (do let t ← generateXYZ s t; let t ← wposZero t; finishWeights s t) := by
  have h1 : flipCols s t = .ok t := by
    unfold flipCols
    simp [hfl]
  have h2 : applyFlag s t = .ok t := by
    unfold applyFlag
    rw [h.flag]
  have h3 : checkNaNw t = t := by
    unfold checkNaNw
    cases hw : t.w with
    | none => cases t; simp_all
    | some w =>
      rw [Option.map_some, nanZero_self (h.w w hw), ← hw]
  have h4 : checkNaNwpos t = .ok t := by
    unfold checkNaNwpos
    cases hw : t.wpos with
    | none => rfl
    | some p =>
      simp only
      rw [nanWeights_self (h.wpos p hw), nanZero_self (h.wpos p hw), ← hw]
  unfold finishInput
  rw [h1]
  simp only [bind, Except.bind]
  rw [h2]
  simp only
  rw [foldlM_self h]
  simp only
  rw [h3, h4]

/-- Generating positions first makes no difference. -/
theorem finish_xyz (s : Settings R) {t t' : Tab R} (h : NF t) (h' : NF t') (hfl : ∀ c, s.flip c = false)
    (hx : (t'.col .x).isSome) (hg : generateXYZ s t = .ok t') : finishInput s t = finishInput s t' := by
  have hg' : generateXYZ s t' = .ok t' := by
    obtain ⟨x, hx⟩ := Option.isSome_iff_exists.1 hx
    unfold generateXYZ
    rw [hx]
  rw [finish_plain s h hfl, finish_plain s h' hfl, hg, hg']

theorem Clean.nf {t : Tab R} (h : Clean m t) : NF t :=
  ⟨fun c l e => (h.col c l e).2, fun l e => (h.w l e).2, fun l e => (h.wpos l e).2, h.flag⟩

theorem finish_exact [CharZero R] (s : Settings R) (t : Tab R) (hm : 0 < m) (hc : Clean m t) (hfl : ∀ c, s.flip c = false)
    (hk : s.keepZero = true ∨ some 0 ∉ t.wpos.getD (t.ws m)) (h0 : npSum (t.ws m) ≠ some 0) :
    finishInput s t = .ok ⟨{ t with w := some (t.ws m) }, t.w.isSome, npSum (t.ws m)⟩ := by
  obtain ⟨b, hb, hf⟩ := (finish_clean s t hm hc hfl hk).2 h0
  rw [hf]
  cases hw : t.w with
  | some w => rw [hb (by simp [hw])]; rfl
  | none =>
    have hp := finish_plain s hc.nf hfl
    obtain ⟨x, hx⟩ := Option.isSome_iff_exists.1 hc.x
    have hg : generateXYZ s t = .ok t := by
      unfold generateXYZ
      rw [hx]
    have hz : wposZero t = .ok t := by
      unfold wposZero
      cases hwp : t.wpos with
      | none => rfl
      | some p =>
        simp only
        rw [if_neg]
        intro h
        obtain ⟨a, ha, ha0⟩ := List.any_eq_true.1 h
        have ha0 := of_decide_eq_true ha0
        subst ha0
        obtain ⟨i, hi⟩ := List.getElem?_of_mem ha
        have := hc.zero p hwp i hi
        simp only [Tab.ws, hw, Option.getD_none, List.getElem?_replicate] at this
        split_ifs at this
        simp at this
    rw [hp, hg] at hf
    simp only [bind, Except.bind] at hf
    rw [hz] at hf
    simp only [finishWeights, hw, Except.ok.injEq, Cat.mk.injEq] at hf
    rw [← hf.2.1]
    rfl

theorem mul_div_by {u : R} (hu : u ≠ 0) (l : List (Option R)) : mulBy u (divBy u l) = l := by
  unfold mulBy divBy
  rw [List.map_map]
  conv_rhs => rw [← List.map_id l]
  apply List.map_congr_left
  intro a _
  cases a with
  | none => rfl
  | some a => simp [hu]

/-- All units are there. -/
def Units.Ok (u : Units R) : Prop := u.x ≠ 0 ∧ u.y ≠ 0 ∧ u.ra ≠ 0 ∧ u.dec ≠ 0

theorem Units.Ok.of {u : Units R} (h : u.Ok) (c : Col) : u.of c ≠ 0 := by
  obtain ⟨h1, h2, h3, h4⟩ := h
  cases c <;> simp [Units.of, *]

theorem Units.one_ok : (Units.one : Units R).Ok := by simp [Units.Ok, Units.one]

theorem map_mul_div {u : R} (hu : u ≠ 0) (o : Option (List (Option R))) : (o.map (divBy u)).map (mulBy u) = o := by
  cases o with
  | none => rfl
  | some l => simp [mul_div_by hu]

/-- The table with weights only if they are not trivial. -/
def Cat.given (patch : Bool) (C : Cat R) : Tab R :=
  { C.tab with w := if C.nontrivial then C.tab.w else none, flag := none, patch := if patch then C.tab.patch else none }

theorem given_clean {C : Cat R} (hC : IsCat m C) (patch : Bool) : Clean m (C.given patch) ∧ (C.given patch).ws m = C.tab.ws m := by
  have hws : (C.given patch).ws m = C.tab.ws m := by
    unfold Tab.ws Cat.given
    cases hn : C.nontrivial with
    | true => simp
    | false => simp [hC.triv hn]
  refine ⟨⟨hC.clean.col, ?_, hC.clean.wpos, ?_, rfl, hC.clean.x, ?_⟩, hws⟩
  · intro l hl
    simp only [Cat.given] at hl
    split_ifs at hl
    exact hC.clean.w l hl
  · intro l hl
    simp only [Cat.given] at hl
    split_ifs at hl
    exact hC.clean.patch l hl
  · intro p hp i hi
    rw [hws]
    exact hC.clean.zero p hp i hi

theorem finish_given [CharZero R] (s : Settings R) (C : Cat R) (hC : IsCat m C) (patch : Bool) (hfl : ∀ c, s.flip c = false)
    (hk : s.keepZero = true ∨ C.anyZero = false) (h0 : C.sumw ≠ some 0) : finishInput s (C.given patch) = .ok (C.bare patch) := by
  obtain ⟨hc, hws⟩ := given_clean hC patch
  obtain ⟨w, hw⟩ := Option.isSome_iff_exists.1 hC.w
  have hws' : C.tab.ws m = w := by simp [Tab.ws, hw]
  rw [hC.sumw] at h0
  rw [finish_exact s _ hC.pos hc hfl ?_ (by rw [hws]; exact h0), hws]
  · congr 1
    have hn : (C.given patch).w.isSome = C.nontrivial := by
      unfold Cat.given
      cases C.nontrivial <;> simp [hw]
    rw [hn, ← hC.sumw, hws', ← hw]
    rfl
  · refine hk.imp_right fun hz hm => ?_
    have : ¬ C.anyZero = true := by simp [hz]
    apply this
    unfold Cat.anyZero
    rw [hws, hws'] at hm
    rw [hw]
    exact List.any_eq_true.2 ⟨some 0, hm, by simp⟩

theorem ite_isSome {α β : Type} {b : Bool} {o : Option α} (h : b = o.isSome) (f : α → β) : (if b then o.map f else none) = o.map f := by
  subst h
  cases o <;> rfl

/-- What was written is read back. -/
theorem readBack_toFile [CharZero R] (s : Settings R) (u : Units R) (hu : u.Ok) (C : Cat R) (hC : IsCat m C) (hp : Positions s.xyz C.tab)
    (q : Want) (patch : Bool) (hq : q = Want.ofFile patch (C.toFile u)) (hpatch : patch = true → C.tab.patch.isSome)
    (hfl : ∀ c, s.flip c = false)
    (hk : s.keepZero = true ∨ C.anyZero = false) (h0 : C.sumw ≠ some 0) : readBack s q u (C.toFile u) = .ok (C.bare patch) := by
  subst hq
  obtain ⟨w, hw⟩ := Option.isSome_iff_exists.1 hC.w
  rw [← finish_given s C hC patch hfl hk h0]
  unfold readBack
  rw [if_neg]
  swap
  · rintro (⟨c, -, h1, h2⟩ | ⟨h1, h2⟩ | ⟨h1, h2⟩ | ⟨h1, h2⟩)
    · simp [Want.ofFile, h2] at h1
    · simp [Want.ofFile, h2] at h1
    · simp [Want.ofFile, h2] at h1
    · have := hpatch h1
      simp only [Cat.toFile] at h2
      simp [h2] at this
  have hcol : ∀ c, (if (Want.ofFile patch (C.toFile u)).col c then ((C.toFile u).col c).map (mulBy (u.of c)) else none) =
      ((C.toFile u).col c).map (mulBy (u.of c)) :=
    fun c => ite_isSome rfl _
  have hw' : (if (Want.ofFile patch (C.toFile u)).w then (C.toFile u).w else none) = if C.nontrivial then C.tab.w else none := by
    have := ite_isSome (b := (Want.ofFile patch (C.toFile u)).w) (o := (C.toFile u).w) rfl id
    rw [Option.map_id, id] at this
    exact this
  have hwp : (if (Want.ofFile patch (C.toFile u)).wpos then (C.toFile u).wpos else none) = C.tab.wpos := by
    have := ite_isSome (b := (Want.ofFile patch (C.toFile u)).wpos) (o := (C.toFile u).wpos) rfl id
    rw [Option.map_id, id] at this
    exact this
  simp only [hcol, hw', hwp]
  unfold Positions at hp
  have hgc := (given_clean hC patch).1
  cases hra : C.tab.col .ra with
  | none =>
    rw [hra] at hp
    congr 1
    unfold Cat.given
    simp only [Tab.mk.injEq, and_true, true_and, Want.ofFile, Cat.toFile]
    refine ⟨?_, rfl⟩
    funext c
    cases c <;> simp [hra, hp.1, hp.2.1, -Option.map_map, map_mul_div (hu.of _)]
  | some ra =>
    rw [hra] at hp
    obtain ⟨dec, hdec, rows, hrows, hx, hy, hz⟩ := hp
    have hcol2 : ∀ c, ((C.toFile u).col c).map (mulBy (u.of c)) = match c with
        | .x | .y | .z => none
        | c => C.tab.col c := by
      intro c
      cases c <;> simp [Cat.toFile, hra, hdec, -Option.map_map, map_mul_div (hu.of _), mul_div_by (hu.of _)]
    simp only [hcol2]
    apply finish_xyz s _ hgc.nf hfl hgc.x
    · unfold generateXYZ
      simp only [hra, hdec, Want.ofFile, Cat.toFile]
      congr 1
      unfold Cat.given
      simp only [Tab.mk.injEq, and_true, true_and]
      funext c
      cases c <;> simp [hx, hy, hz, hrows, hra, hdec]
    · refine ⟨?_, hgc.nf.w, hgc.nf.wpos, rfl⟩
      intro c l hl
      have : C.tab.col c = some l := by
        cases c <;> simp at hl <;> exact hl
      exact (hC.clean.col c l this).2

/-! ### Patches -/

theorem rowsIn_get {α : Type} (P : List ℤ) (p : ℤ) (l : List α) (h : P.length = l.length) (j : ℕ) :
    (rowsIn P p l)[j]? = (whereEq P p)[j]?.bind fun i => l[i]? := by
  obtain ⟨r, h1, h2, h3⟩ := Rows.takeIdx_some (idx := whereEq P p) (l := l) fun i hi => h ▸ Rows.whereEq_lt hi
  rw [takeIdx_rowsIn P p l h] at h1
  have e := Option.some.inj h1
  rw [e]
  by_cases hj : j < (whereEq P p).length
  · rw [h3 j hj, List.getElem?_eq_getElem hj]
    rfl
  · rw [List.getElem?_eq_none (by omega), List.getElem?_eq_none (by omega)]
    rfl

/-- The rows of a patch of the generated positions are those generated of the rows. -/
theorem rowsIn_generated {α β : Type} (P : List ℤ) (p : ℤ) (ra dec : List (Option α)) (r : Option (List (Option α)))
    (h1 : P.length = ra.length) (h2 : P.length = dec.length) (h3 : ∀ l, r = some l → P.length = l.length)
    (f : Option α → Option α → Option (Option α) → β) :
    rowsIn P p ((List.range ra.length).map fun i => f (ra[i]?.getD none) (dec[i]?.getD none) (r.map fun r => r[i]?.getD none)) =
      (List.range (rowsIn P p ra).length).map fun i => f ((rowsIn P p ra)[i]?.getD none) ((rowsIn P p dec)[i]?.getD none)
        ((r.map (rowsIn P p)).map fun r => r[i]?.getD none) := by
  have hlen : (rowsIn P p ra).length = (whereEq P p).length := by
    obtain ⟨r, e1, e2, -⟩ := Rows.takeIdx_some (idx := whereEq P p) (l := ra) fun i hi => h1 ▸ Rows.whereEq_lt hi
    rw [takeIdx_rowsIn P p ra h1] at e1
    rw [Option.some.inj e1, e2]
  apply List.ext_getElem?
  intro j
  rw [rowsIn_get P p _ (by simp [h1]), List.getElem?_map, hlen]
  by_cases hj : j < (whereEq P p).length
  · have hlt : (whereEq P p)[j] < ra.length := h1 ▸ Rows.whereEq_lt (List.getElem_mem hj)
    rw [List.getElem?_eq_getElem hj, List.getElem?_range hj, Option.bind_some, List.getElem?_map, List.getElem?_range hlt,
      Option.map_some, Option.map_some, rowsIn_get P p ra h1, rowsIn_get P p dec h2, List.getElem?_eq_getElem hj, Option.bind_some,
      Option.bind_some]
    congr 2
    cases hr : r with
    | none => rfl
    | some l =>
      simp only [Option.map_some]
      rw [rowsIn_get P p l (h3 l hr), List.getElem?_eq_getElem hj, Option.bind_some]
  · rw [List.getElem?_eq_none (by omega), List.getElem?_eq_none (by simp; omega)]
    rfl

theorem rowsIn_map {α β : Type} (P : List ℤ) (p : ℤ) (l : List α) (f : α → β) : rowsIn P p (l.map f) = (rowsIn P p l).map f := by
  unfold rowsIn
  rw [List.zip_map_right, List.filter_map, List.map_map, List.map_map]
  rfl

/-- A patch has the positions of its rows. -/
theorem positions_patch (xyz : Option R → Option R → Option (Option R) → Option R × Option R × Option R) (t t' : Tab R)
    (ht : Positions xyz t) (P : List ℤ) (p : ℤ) (hl : ∀ c l, t.col c = some l → P.length = l.length)
    (hcol : ∀ c, t'.col c = (t.col c).map (rowsIn P p)) : Positions xyz t' := by
  unfold Positions at ht ⊢
  rw [hcol .ra]
  cases hra : t.col .ra with
  | none =>
    rw [hra] at ht
    simp only [Option.map_none, hcol, ht.1, ht.2.1, Option.isSome_map]
    exact ⟨trivial, trivial, ht.2.2⟩
  | some ra =>
    rw [hra] at ht
    obtain ⟨dec, hdec, rows, hrows, hx, hy, hz⟩ := ht
    refine ⟨rowsIn P p dec, by rw [hcol, hdec]; rfl, rowsIn P p rows, ?_, ?_, ?_, ?_⟩
    · rw [hrows, hcol .r]
      exact rowsIn_generated P p ra dec (t.col .r) (hl _ _ hra) (hl _ _ hdec) (fun l h => hl _ _ h) xyz
    · rw [hcol, hx, Option.map_some, rowsIn_map]
    · rw [hcol, hy, Option.map_some, rowsIn_map]
    · rw [hcol, hz, Option.map_some, rowsIn_map]

/-- What is known of a patch. -/
structure PatchOf (C : Cat R) (P : List ℤ) (p : ℤ) (D : Cat R) : Prop where
  isCat : IsCat (P.count p) D
  col : ∀ c, D.tab.col c = (C.tab.col c).map (rowsIn P p)
  wpos : D.tab.wpos = C.tab.wpos.map (rowsIn P p)
  patch : D.tab.patch = none
  flag : D.tab.flag = none
  nontrivial : D.nontrivial = C.nontrivial
  sumw : D.sumw ≠ some 0
  zero : D.anyZero = false

theorem onePatch_exact [CharZero R] (C : Cat R) (hC : IsCat m C) (P : List ℤ) (hP : P.length = m) (p : ℤ) (hp : p ∈ P)
    (hz : C.anyZero = false) (h0 : npSum (rowsIn P p (C.tab.ws m)) ≠ some 0) : ∃ D, onePatch C P p = .ok D ∧ PatchOf C P p D := by
  obtain ⟨D, hD, hcat, hcol, hw, hwp, hpt, hsum⟩ := (onePatch_spec C hC P hP p hp).2 h0
  obtain ⟨w, hCw⟩ := Option.isSome_iff_exists.1 hC.w
  have hzD : D.anyZero = false := by
    rw [← Bool.not_eq_true]
    intro h
    have : ¬ C.anyZero = true := by simp [hz]
    apply this
    unfold Cat.anyZero at h ⊢
    rw [hw, hwp, hCw] at h
    rw [hCw]
    obtain ⟨a, ha, ha0⟩ := List.any_eq_true.1 h
    refine List.any_eq_true.2 ⟨a, ?_, ha0⟩
    cases hq : C.tab.wpos with
    | none => rw [hq] at ha; exact mem_rowsIn ha
    | some q => rw [hq] at ha; exact mem_rowsIn ha
  have hsel : ∀ {α : Type} (o : Option (List α)), (∀ l, o = some l → l.length = m) →
      o.bind (takeIdx (whereEq P p)) = o.map (rowsIn P p) ∧ ∀ l, o = some l → (takeIdx (whereEq P p) l).isSome := by
    intro α o ho
    cases o with
    | none => simp
    | some l =>
      have := takeIdx_rowsIn P p l (by rw [hP, ho l rfl])
      refine ⟨by simp [this], ?_⟩
      intro l' hl
      cases hl
      simp [this]
  have s1 := fun c => hsel (C.tab.col c) fun l h => (hC.clean.col c l h).1
  have s2 := hsel C.tab.w fun l h => (hC.clean.w l h).1
  have s3 := hsel C.tab.wpos fun l h => (hC.clean.wpos l h).1
  have s4 := hsel C.tab.patch fun l h => hC.clean.patch l h
  have hselect : select (whereEq P p) C.tab = .ok ⟨fun c => (C.tab.col c).map (rowsIn P p), C.tab.w.map (rowsIn P p),
      C.tab.wpos.map (rowsIn P p), C.tab.flag, C.tab.patch.map (rowsIn P p)⟩ := by
    unfold select
    rw [if_pos ⟨fun c _ => (s1 c).2, s2.2, s3.2, s4.2⟩]
    simp only [(s1 _).1, s2.1, s3.1, s4.1]
  obtain ⟨E, hE⟩ : ∃ E : Cat R, E = ⟨D.tab, C.nontrivial, D.sumw⟩ := ⟨_, rfl⟩
  have hEcat : IsCat (P.count p) E := by
    subst hE
    refine ⟨hcat.pos, hcat.clean, hcat.w, ?_, hcat.sumw⟩
    intro hn
    have h1 := hC.triv hn
    show D.tab.w = _
    rw [hw, h1, Option.map_some, ← hP, rowsIn_replicate]
  have hgiven : E.given false = ⟨fun c => (C.tab.col c).map (rowsIn P p), if C.nontrivial then C.tab.w.map (rowsIn P p) else none,
      C.tab.wpos.map (rowsIn P p), none, none⟩ := by
    subst hE
    unfold Cat.given
    simp only [Tab.mk.injEq, true_and, and_true]
    exact ⟨funext hcol, by rw [hw], hwp, by simp⟩
  have hfin := finish_given (partSettings C.anyZero) E hEcat false (fun _ => rfl) (Or.inr (by subst hE; exact hzD))
    (by subst hE; show D.sumw ≠ _; rw [hsum]; exact h0)
  have hone : onePatch C P p = finishInput (partSettings C.anyZero) (E.given false) := by
    rw [hgiven]
    unfold onePatch
    rw [hselect]
  rw [hone, hfin] at hD
  have hDE := Except.ok.inj hD
  refine ⟨D, by rw [hone, hfin, hDE], hcat, hcol, hwp, hpt, ?_, ?_, by rw [hsum]; exact h0, hzD⟩
  · rw [← hDE]
    rfl
  · rw [← hDE, hE]
    rfl

theorem isSome_toFile (u : Units R) {C D : Cat R} (h : ∀ c, (D.tab.col c).isSome = (C.tab.col c).isSome) (c : Col) :
    ((D.toFile u).col c).isSome = ((C.toFile u).col c).isSome := by
  unfold Cat.toFile
  simp only [h .ra]
  rcases Bool.eq_false_or_eq_true (C.tab.col .ra).isSome with hr | hr <;> cases c <;> simp [hr, h]

/-- The columns that are asked for are those of the files of the patches. -/
theorem want_eq (xyz : Option R → Option R → Option (Option R) → Option R × Option R × Option R) (o : Obj R) (hN : o.Named)
    (hpos : Positions xyz o.cat.tab) (hw : o.cat.tab.w.isSome) : o.want = Want.ofFile false (o.cat.toFile .one) := by
  have hcol : ∀ c, ((o.cat.toFile .one).col c).isSome = true →
      ((o.loaded && (o.cat.tab.col c).isSome) || o.cfg.col c) = (o.cat.tab.col c).isSome := by
    intro c hc
    rcases hN.all with h | ⟨h, -⟩
    · rw [h, Bool.true_and]
      rcases Bool.eq_false_or_eq_true (o.cfg.col c) with hcf | hcf
      · rw [hcf, hN.col c hcf]; rfl
      · rw [hcf, Bool.or_false]
    · have h1 := h c hc
      rw [h1, hN.col c h1, Bool.or_true]
  have hno : ∀ c, (o.cat.tab.col c).isSome = false → ((o.loaded && (o.cat.tab.col c).isSome) || o.cfg.col c) = false := by
    intro c hc
    rw [hc, Bool.and_false, Bool.false_or, ← Bool.not_eq_true]
    intro h
    rw [hN.col c h] at hc
    simp at hc
  have hww : ((o.loaded && o.cat.nontrivial) || o.cfg.w) = o.cat.nontrivial := by
    rcases Bool.eq_false_or_eq_true o.cat.nontrivial with hn | hn
    · rcases hN.all with h | ⟨-, h, -⟩
      · simp [h, hn]
      · simp [h hn, hn]
    · rw [hn, Bool.and_false, Bool.false_or, ← Bool.not_eq_true]
      intro h
      rw [hN.w h] at hn
      simp at hn
  have hwp : ((o.loaded && o.cat.tab.wpos.isSome) || o.cfg.wpos) = o.cat.tab.wpos.isSome := by
    rcases Bool.eq_false_or_eq_true o.cat.tab.wpos.isSome with hn | hn
    · rcases hN.all with h | ⟨-, -, h⟩
      · simp [h, hn]
      · simp [h hn, hn]
    · rw [hn, Bool.and_false, Bool.false_or, ← Bool.not_eq_true]
      intro h
      rw [hN.wpos h] at hn
      simp at hn
  have hfw : (o.cat.toFile .one).w.isSome = o.cat.nontrivial := by
    unfold Cat.toFile
    rcases Bool.eq_false_or_eq_true o.cat.nontrivial with hn | hn <;> simp [hn, hw]
  unfold Positions at hpos
  unfold Obj.want Want.ofFile
  simp only [Want.mk.injEq, and_true]
  refine ⟨?_, by rw [hww, hfw], by rw [hwp]; rfl⟩
  funext c
  have hin := hcol c
  have hout := hno c
  rcases Bool.eq_false_or_eq_true (o.cat.tab.col .ra).isSome with hr | hr
  · rw [if_pos ((hcol .ra (by simp [Cat.toFile, hr])).trans hr)]
    have hdec : (o.cat.tab.col .dec).isSome = true := by
      obtain ⟨ra, hra⟩ := Option.isSome_iff_exists.1 hr
      rw [hra] at hpos
      obtain ⟨dec, h, -⟩ := hpos
      simp [h]
    rcases Bool.eq_false_or_eq_true (o.cat.tab.col c).isSome with hc | hc
    · cases c <;> simp_all [Cat.toFile]
    · cases c <;> simp_all [Cat.toFile]
  · rw [if_neg (by rw [hno .ra hr]; simp)]
    have hra : o.cat.tab.col .ra = none := by simpa using hr
    rw [hra] at hpos
    rcases Bool.eq_false_or_eq_true (o.cat.tab.col c).isSome with hc | hc
    · cases c <;> simp_all [Cat.toFile]
    · cases c <;> simp_all [Cat.toFile]

theorem ofFile_patch {C : Cat R} {P : List ℤ} {p : ℤ} {D : Cat R} (h : PatchOf C P p D) (hw : C.tab.w.isSome) :
    Want.ofFile false (D.toFile .one) = Want.ofFile false (C.toFile .one) := by
  unfold Want.ofFile
  simp only [Want.mk.injEq, and_true]
  refine ⟨funext fun c => isSome_toFile .one (fun c => by rw [h.col]; simp) c, ?_, ?_⟩
  · have hD := h.isCat.w
    have hn := h.nontrivial
    unfold Cat.toFile
    rcases Bool.eq_false_or_eq_true C.nontrivial with e | e <;> simp [e, hn, hw, hD]
  · unfold Cat.toFile
    simp [h.wpos]

theorem bare_self {D : Cat R} (h1 : D.tab.flag = none) (h2 : D.tab.patch = none) : D.bare false = D := by
  obtain ⟨⟨c, w, p, f, t⟩, n, s⟩ := D
  simp only at h1 h2
  subst h1 h2
  rfl

/-- The files that hold the patches are read as the patches. -/
theorem readPatches_holds [CharZero R] (xyz : Option R → Option R → Option (Option R) → Option R × Option R × Option R) (o : Obj R)
    (disk : Disk R) (Ds : List (Cat R)) (hH : Holds o disk Ds)
    (hD : ∀ D ∈ Ds, ∃ n, IsCat n D ∧ Positions xyz D.tab ∧ D.anyZero = false ∧ D.sumw ≠ some 0 ∧ D.tab.flag = none ∧ D.tab.patch = none ∧
      o.want = Want.ofFile false (D.toFile .one)) : readPatches xyz o disk = .ok Ds := by
  obtain ⟨hlen, hfile⟩ := hH
  unfold readPatches
  rw [if_neg]
  · have : (List.range o.npatch).mapM (readOne xyz o disk) = .ok Ds := by
      rw [Config.mapM_ok_iff, List.forall₂_iff_get]
      refine ⟨by simp [hlen], ?_⟩
      intro i h1 h2
      simp only [List.get_eq_getElem, List.getElem_range, readOne]
      rw [hfile i _ (List.getElem?_eq_getElem h2)]
      obtain ⟨n, c1, c2, c3, c4, c5, c6, c7⟩ := hD _ (List.getElem_mem h2)
      have := readBack_toFile (plainSettings xyz) .one Units.one_ok _ c1 c2 o.want false c7 (by simp) (fun _ => rfl) (Or.inr c3) c4
      rw [bare_self c5 c6] at this
      exact this
    rw [this]
    rfl
  · rintro ⟨i, hi, h⟩
    have hi : i < Ds.length := by rw [hlen]; exact List.mem_range.1 hi
    rw [hfile i _ (List.getElem?_eq_getElem hi)] at h
    simp at h

/-- What is written. -/
theorem writePatches_holds' (o : Obj R) (disk : Disk R) (u : R × R) (Ds : List (Cat R)) (hlen : Ds.length = o.npatch)
    (hname : ∀ i < o.npatch, ∀ j < o.npatch, o.name i = o.name j → i = j) :
    Ds.length = o.npatch ∧ ∀ (i : ℕ) (D : Cat R), Ds[i]? = some D → writePatches o u Ds disk (o.name i) = some (D.toFile ⟨u.1, u.2, 1, 1⟩) := by
  refine ⟨hlen, ?_⟩
  intro i D hi
  have hin : i < o.npatch := by
    rw [← hlen]
    by_contra h
    rw [List.getElem?_eq_none (by omega)] at hi
    simp at hi
  unfold writePatches
  rw [if_pos (List.mem_map.2 ⟨i, List.mem_range.2 hin, rfl⟩)]
  have hmem : (i, D) ∈ (List.range o.npatch).zip Ds := by
    apply List.mem_of_getElem? (i := i)
    rw [List.getElem?_zip_eq_some]
    exact ⟨List.getElem?_range hin, hi⟩
  obtain ⟨x, hx⟩ : ∃ x, ((List.range o.npatch).zip Ds).find? (fun x => o.name x.1 = o.name i) = some x := by
    rw [← Option.isSome_iff_exists, List.find?_isSome]
    exact ⟨(i, D), hmem, by simp⟩
  rw [hx, Option.map_some]
  have h1 := List.find?_some hx
  have h2 := List.mem_of_find?_eq_some hx
  obtain ⟨j, hj⟩ := List.getElem?_of_mem h2
  obtain ⟨x1, x2⟩ := x
  rw [List.getElem?_zip_eq_some] at hj
  obtain ⟨ha, hb⟩ := hj
  have hjn : j < o.npatch := by
    by_contra h
    rw [List.getElem?_eq_none (by simp; omega)] at ha
    simp at ha
  rw [List.getElem?_range hjn] at ha
  simp only [Option.some.injEq] at ha
  subst ha
  have := hname j hjn i hin (by simpa using h1)
  subst this
  rw [hi] at hb
  cases hb
  rfl

theorem writePatches_other (o : Obj R) (disk : Disk R) (u : R × R) (Ds : List (Cat R)) (n : String) (h : ∀ i < o.npatch, n ≠ o.name i) :
    writePatches o u Ds disk n = disk n := by
  unfold writePatches
  rw [if_neg]
  intro hn
  obtain ⟨i, hi, rfl⟩ := List.mem_map.1 hn
  exact h i (List.mem_range.1 hi) rfl

/-- All numbers occur. -/
theorem patchIds_range (P : List ℤ) (n : ℕ) (h : ∀ p : ℤ, p ∈ P ↔ 0 ≤ p ∧ p < n) : patchIds P = (List.range n).map Int.ofNat := by
  have h1 : (patchIds P).Pairwise (· < ·) := patchIds_sorted P
  have h2 : ((List.range n).map Int.ofNat).Pairwise (· < ·) := by
    rw [List.pairwise_map]
    exact List.pairwise_lt_range.imp fun h => Int.ofNat_lt.2 h
  have hperm : (patchIds P).Perm ((List.range n).map Int.ofNat) := by
    rw [List.perm_ext_iff_of_nodup (patchIds_nodup P) (h2.imp fun h => ne_of_lt h)]
    intro a
    rw [patchIds_mem, h, List.mem_map]
    constructor
    · rintro ⟨ha, hb⟩
      exact ⟨a.toNat, List.mem_range.2 (by omega), by simp; omega⟩
    · rintro ⟨k, hk, rfl⟩
      have := List.mem_range.1 hk
      simp
      omega
  exact hperm.eq_of_pairwise (fun a b _ _ h3 h4 => absurd (lt_trans h3 h4) (lt_irrefl _)) h1 h2

theorem toFile_units {D : Cat R} {a b : R} (h : (D.tab.col .ra).isSome) : D.toFile ⟨a, b, 1, 1⟩ = D.toFile .one := by
  unfold Cat.toFile
  simp only [Tab.mk.injEq, true_and, and_true, h, if_true]
  funext c
  cases c <;> rfl

theorem toFile_bare (u : Units R) (D : Cat R) (h : D.tab.patch = none) : (D.bare false).toFile u = D.toFile u := by
  unfold Cat.toFile Cat.bare
  simp [h]

end Catalog
end TreeCorr
