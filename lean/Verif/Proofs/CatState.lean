import Mathlib.Algebra.BigOperators.Group.List.Lemmas
import Mathlib.Data.List.Perm.Basic
import Mathlib.Data.List.Dedup
import Verif.Spec.CatState

/-! The invariant of a catalogue that is not trimmed. -/

namespace TreeCorr
namespace CatState

variable {R E K F : Type} [Field R] [DecidableEq R] [AddCommGroup E] [Module R E] [DecidableEq K]

/-- The centres that are kept. -/
def How.cen : How E → Option (List E)
  | .centers c => some c
  | .kmeans c => some c
  | _ => .none

/-- What all rows in a catalogue without weights have. -/
theorem sum_ones (l : List (Row R E)) (h : ∀ r ∈ l, r.w = 1) : (l.map Row.w).sum = (l.length : R) := by
  induction l with
  | nil => simp
  | cons r l ih =>
    rw [List.map_cons, List.sum_cons, ih fun r hr => h r (List.mem_cons_of_mem _ hr), h r List.mem_cons_self, List.length_cons]
    push_cast
    exact add_comm _ _

theorem sum_ones_sq (l : List (Row R E)) (h : ∀ r ∈ l, r.w = 1) : (l.map fun r => r.w ^ 2).sum = (l.length : R) := by
  rw [← sum_ones l h]
  congr 1
  refine List.map_congr_left fun r hr => ?_
  rw [h r hr, one_pow]

theorem sum_pos (l : List (Row R E)) (h : ∀ r ∈ l, r.w = 1) : (l.map fun r => r.w • r.pos) = l.map Row.pos := by
  refine List.map_congr_left fun r hr => ?_
  rw [h r hr, one_smul]

theorem filter_ones (l : List (Row R E)) (h : ∀ r ∈ l, r.w = 1) : (l.filter fun r => r.w ≠ 0) = l := by
  rw [List.filter_eq_self]
  intro r hr
  simp [h r hr]

theorem quot_centre (e : Env R E K F) (l : List (Row R E)) :
    (quot (l.map Row.w).sum (l.map fun r => r.w • r.pos).sum).bind e.unit = centre e l := by
  unfold quot centre
  split <;> rfl

theorem meanIdx_centre (e : Env R E K F) (b : Bool) (l : List (Row R E)) (h : b = false → ∀ r ∈ l, r.w = 1) :
    (meanIdx b l).bind e.unit = centre e l := by
  cases b with
  | true => exact quot_centre e l
  | false =>
    rw [← quot_centre, sum_ones l (h rfl), sum_pos l (h rfl)]
    rfl

theorem meanAll_centre (e : Env R E K F) (b : Bool) (l : List (Row R E)) (h : b = false → ∀ r ∈ l, r.w = 1) :
    (meanAll b (l.map Row.w).sum l).bind e.unit = centre e l := by
  cases b with
  | true => exact quot_centre e l
  | false =>
    rw [← quot_centre, sum_ones l (h rfl), sum_pos l (h rfl)]
    rfl

theorem numbers_eq (D : Data R E) (n : ℕ) (h : ∀ r ∈ D.rows, r.patch < n) : CatState.numbers D.rows = D.numbers n := by
  refine List.Perm.eq_of_pairwise' (r := (· ≤ ·)) (List.pairwise_insertionSort _ _) ?_ ?_
  · exact ((List.pairwise_lt_range).imp le_of_lt).filter _
  · refine (List.perm_insertionSort _ _).trans ((List.perm_ext_iff_of_nodup (List.nodup_dedup _) (List.nodup_range.filter _)).2 fun p => ?_)
    simp only [List.mem_dedup, List.mem_map, List.mem_filter, List.mem_range, decide_eq_true_eq]
    constructor
    · rintro ⟨r, hr, rfl⟩
      exact ⟨h r hr, r, hr, rfl⟩
    · rintro ⟨-, r, hr, rfl⟩
      exact ⟨r, hr, rfl⟩

/-- What is known is right. -/
structure Inv (e : Env R E K F) (D : Data R E) (h : How E) (s : St R E K F) : Prop where
  file : s.file = none ∨ s.file = some D
  data : s.data = some D ∨ (s.data = none ∧ s.file = some D)
  given : s.given = h.cen
  km : s.kmeans = none ∨ s.given.isSome
  fin : s.data = some D → s.nontriv ≠ none ∧ s.sumw ≠ none ∧ s.nobj ≠ none ∧ s.npatch ≠ none
  nontriv : ∀ b, s.nontriv = some b → b = D.weighted
  sumw : ∀ x, s.sumw = some x → x = D.total
  nobj : ∀ n, s.nobj = some n → n = (D.rows.filter fun r => r.w ≠ 0).length
  sumw2 : ∀ x, s.sumw2 = some x → x = (D.rows.map fun r => r.w ^ 2).sum
  npatch : ∀ n, s.npatch = some n → n = D.count h
  npn : s.npatch = none → ∃ m, h = .column m
  nob : s.nobj = none → s.nontriv = none
  computed : ∀ c, s.computed = some c → D.centres e h = some c
  patches : ∀ p, s.patches = some p → (p = .self ∧ D.count h = 1) ∨ (D.count h ≠ 1 ∧ p = .parts ((D.numbers (D.count h)).map D.inPatch))
  cache : ∀ x ∈ s.cache, x.2 = e.build x.1 D.rows

variable {e : Env R E K F} {D : Data R E} {h : How E} {s : St R E K F}

theorem inv_load (ok : D.Ok h) (i : Inv e D h s) : Inv e D h (load s) ∧ (load s).data = some D := by
  rcases i.data with hd | ⟨hd, hf⟩
  · have : load s = s := by unfold load; rw [hd]
    rw [this]
    exact ⟨i, hd⟩
  · have hl : load s = finish D s := by unfold load; rw [hd, hf]
    rw [hl]
    refine ⟨?_, rfl⟩
    have hg : (finish D s).given = h.cen := by
      simp only [finish]
      rcases hg : s.given with _ | c
      · rcases i.km with hk | hk
        · simp only [hk, ← i.given, hg]
        · rw [hg] at hk; simp at hk
      · simp only [← i.given, hg]
    have hn : ∀ n, (finish D s).npatch = some n → n = D.count h := by
      intro n hn
      simp only [finish] at hn
      split at hn
      · rename_i hc
        simp only [Bool.and_eq_true, Option.isNone_iff_eq_none] at hc
        have hcen := i.given
        rw [hc.1.1] at hcen
        have hne := ok.patched.1 hc.2
        simp only [Option.some.injEq] at hn
        rw [← hn]
        cases h with
        | none => exact absurd rfl hne
        | column m => rfl
        | centers c => cases hcen
        | kmeans c => cases hcen
      · exact i.npatch n hn
    have hnn : (finish D s).npatch ≠ none := by
      intro hno
      simp only [finish] at hno
      split at hno
      · cases hno
      · rename_i hc
        obtain ⟨m, rfl⟩ := i.npn hno
        refine hc ?_
        have hgn : s.given = none := i.given
        have hkn : s.kmeans = none := by
          rcases i.km with hk | hk
          · exact hk
          · rw [hgn] at hk; simp at hk
        simp [hgn, hkn, ok.patched.2 (by simp)]
    have hob : (finish D s).nobj ≠ none := by
      simp only [finish]
      split <;> simp
    refine ⟨i.file, .inl rfl, hg, ?_, fun _ => ⟨by simp [finish], by simp [finish], hob, hnn⟩, ?_, ?_, ?_, i.sumw2, hn,
      fun hno => absurd hno hnn, fun hno => absurd hno hob, i.computed, i.patches, i.cache⟩
    · rcases i.km with hk | hk
      · exact .inl hk
      · right
        rw [hg, ← i.given]
        exact hk
    · intro b hb
      simp only [finish, Option.some.injEq] at hb
      exact hb.symm
    · intro x hx
      simp only [finish, Option.some.injEq] at hx
      rw [← hx, Data.total]
      split
      · rfl
      · rename_i hw
        rw [sum_ones _ (ok.w (by simpa using hw))]
    · intro n hn
      simp only [finish] at hn
      split at hn
      · rename_i m hm
        exact i.nobj n (hm.trans hn)
      · simp only [Option.some.injEq] at hn
        rw [← hn]
        split
        · rfl
        · rename_i hw
          rw [filter_ones _ (ok.w (by simpa using hw))]

/-- `load` if something is not known. -/
theorem inv_loadIf (ok : D.Ok h) (i : Inv e D h s) (b : Bool) : Inv e D h (if b then load s else s) := by
  cases b
  · exact i
  · exact (inv_load ok i).1

theorem getRows_ok (ok : D.Ok h) (i : Inv e D h s) : (getRows s).1 = D.rows ∧ Inv e D h (getRows s).2 := by
  obtain ⟨i', hd⟩ := inv_load ok i
  exact ⟨by simp [getRows, hd], i'⟩

theorem getNpatch_ok (ok : D.Ok h) (i : Inv e D h s) : (getNpatch s).1 = D.count h ∧ Inv e D h (getNpatch s).2 := by
  refine ⟨?_, inv_loadIf ok i _⟩
  unfold getNpatch
  rcases hn : s.npatch with _ | n
  · simp only [Option.isNone_none, if_true]
    obtain ⟨i', hd⟩ := inv_load ok i
    obtain ⟨n, hn⟩ := Option.ne_none_iff_exists'.1 (i'.fin hd).2.2.2
    rw [hn, ← i'.npatch n hn]
    rfl
  · simp only [Option.isNone_some, Bool.false_eq_true, if_false, hn, Option.getD_some]
    exact i.npatch n hn

theorem getNontriv_ok (ok : D.Ok h) (i : Inv e D h s) : (getNontriv s).1 = D.weighted ∧ Inv e D h (getNontriv s).2 := by
  refine ⟨?_, inv_loadIf ok i _⟩
  unfold getNontriv
  rcases hn : s.nontriv with _ | n
  · simp only [Option.isNone_none, if_true]
    obtain ⟨i', hd⟩ := inv_load ok i
    obtain ⟨n, hn⟩ := Option.ne_none_iff_exists'.1 (i'.fin hd).1
    rw [hn, ← i'.nontriv n hn]
    rfl
  · simp only [Option.isNone_some, Bool.false_eq_true, if_false, hn, Option.getD_some]
    exact i.nontriv n hn

theorem getSumw_ok (ok : D.Ok h) (i : Inv e D h s) : (getSumw s).1 = D.total ∧ Inv e D h (getSumw s).2 := by
  refine ⟨?_, inv_loadIf ok i _⟩
  unfold getSumw
  rcases hn : s.sumw with _ | n
  · simp only [Option.isNone_none, if_true]
    obtain ⟨i', hd⟩ := inv_load ok i
    obtain ⟨n, hn⟩ := Option.ne_none_iff_exists'.1 (i'.fin hd).2.1
    rw [hn, ← i'.sumw n hn]
    rfl
  · simp only [Option.isNone_some, Bool.false_eq_true, if_false, hn, Option.getD_some]
    exact i.sumw n hn

theorem inv_nobj (i : Inv e D h s) {n : ℕ} (hn : n = (D.rows.filter fun r => r.w ≠ 0).length) :
    Inv e D h { s with nobj := some n } :=
  { i with
    fin := fun hd => ⟨(i.fin hd).1, (i.fin hd).2.1, by simp, (i.fin hd).2.2.2⟩
    nobj := fun m hm => by rw [← hn]; exact (Option.some.inj hm).symm
    nob := fun hno => by cases hno }

theorem getNobj_ok (ok : D.Ok h) (i : Inv e D h s) :
    (getNobj s).1 = (D.rows.filter fun r => r.w ≠ 0).length ∧ Inv e D h (getNobj s).2 := by
  unfold getNobj
  rcases hn : s.nobj with _ | n
  · have ht := i.nob hn
    have hg : getNontriv s = (((load s).nontriv).getD false, load s) := by simp [getNontriv, ht]
    obtain ⟨hb, -⟩ := getNontriv_ok ok i
    obtain ⟨i', hd⟩ := inv_load ok i
    obtain ⟨hr, i''⟩ := getRows_ok ok i'
    rw [hg] at hb
    simp only at hb
    simp only [hg, hb]
    rcases Bool.eq_false_or_eq_true D.weighted with hw | hw
    · simp only [hw, if_true, hd]
      have := inv_nobj i' (n := (D.rows.filter fun r => r.w ≠ 0).length) rfl
      simp only [hd] at this
      exact ⟨trivial, this⟩
    · simp only [hw, Bool.false_eq_true, if_false, hr]
      rw [filter_ones _ (ok.w hw)]
      exact ⟨rfl, inv_nobj i'' (by rw [filter_ones _ (ok.w hw)])⟩
  · exact ⟨i.nobj n hn, i⟩

theorem getSumw2_ok (ok : D.Ok h) (i : Inv e D h s) :
    (getSumw2 s).1 = (D.rows.map fun r => r.w ^ 2).sum ∧ Inv e D h (getSumw2 s).2 := by
  unfold getSumw2
  rcases hn : s.sumw2 with _ | x
  · obtain ⟨hb, i'⟩ := getNontriv_ok ok i
    obtain ⟨hr, i''⟩ := getRows_ok ok i'
    simp only [hb, hr]
    have hx : (if D.weighted = true then (D.rows.map fun r => r.w ^ 2).sum else (D.rows.length : R)) = (D.rows.map fun r => r.w ^ 2).sum := by
      split
      · rfl
      · rename_i hw
        rw [sum_ones_sq _ (ok.w (by simpa using hw))]
    rw [hx]
    exact ⟨rfl, { i'' with sumw2 := fun x hx => (Option.some.inj hx).symm }⟩
  · exact ⟨i.sumw2 x hn, i⟩

theorem inv_computed (i : Inv e D h s) {c : List (Option E)} (hc : D.centres e h = some c) : Inv e D h { s with computed := some c } :=
  { i with computed := fun d hd => by rw [hc]; exact hd }

theorem getCenters_ok (ok : D.Ok h) (i : Inv e D h s) :
    (getCenters e s).1 = D.centres e h ∧ Inv e D h (getCenters e s).2 := by
  unfold getCenters
  rcases hg : s.given with _ | c
  · have hcen : h.cen = none := by rw [← i.given, hg]
    rcases hc : s.computed with _ | c
    · simp only
      obtain ⟨i', hd⟩ := inv_load ok i
      have hgn : (getNontriv (load s)).2 = load s := by
        obtain ⟨b, hb⟩ := Option.ne_none_iff_exists'.1 (i'.fin hd).1
        simp [getNontriv, hb]
      obtain ⟨hb, -⟩ := getNontriv_ok ok i'
      rw [hgn, hb, hd]
      simp only [Option.map_some, Option.getD_some]
      cases h with
      | none =>
        have hp : D.patched = false := by
          rcases Bool.eq_false_or_eq_true D.patched with hp | hp
          · exact absurd rfl (ok.patched.1 hp)
          · exact hp
        obtain ⟨hs, i''⟩ := getSumw_ok ok i'
        rw [hp, hs]
        simp only [Bool.false_eq_true, if_false, Data.total]
        rw [meanAll_centre e _ _ ok.w]
        exact ⟨rfl, inv_computed i'' rfl⟩
      | column m =>
        have hp : D.patched = true := ok.patched.2 (by simp)
        obtain ⟨hs, i''⟩ := getNpatch_ok ok i'
        rw [hp, hs]
        simp only [if_true]
        have hiff : (((List.range (D.count (.column m))).map fun p => D.rows.filter fun r => r.patch = p).any List.isEmpty = true) ↔
            ∃ p < D.count (.column m), D.inPatch p = [] := by
          simp only [List.any_map, List.any_eq_true, List.mem_range, Function.comp_apply, List.isEmpty_iff]
          rfl
        have hmap : ((List.range (D.count (.column m))).map fun p => D.rows.filter fun r => r.patch = p).map
            (fun q => (meanIdx D.weighted q).bind e.unit) = (List.range (D.count (.column m))).map fun p => centre e (D.inPatch p) := by
          rw [List.map_map]
          refine List.map_congr_left fun p _ => ?_
          exact meanIdx_centre e _ _ fun hw r hr => ok.w hw r (List.mem_filter.1 hr).1
        by_cases hex : ∃ p < D.count (.column m), D.inPatch p = []
        · rw [if_pos (hiff.2 hex)]
          refine ⟨?_, i''⟩
          simp only [Data.centres]
          rw [if_pos hex]
        · rw [if_neg fun hc => hex (hiff.1 hc)]
          rw [hmap]
          have : D.centres e (.column m) = some ((List.range (D.count (.column m))).map fun p => centre e (D.inPatch p)) := by
            simp only [Data.centres]
            rw [if_neg hex]
          exact ⟨this.symm, inv_computed i'' this⟩
      | centers c => cases hcen
      | kmeans c => cases hcen
    · exact ⟨(i.computed c hc).symm, i⟩
  · refine ⟨?_, i⟩
    have := i.given
    rw [hg] at this
    cases h with
    | none => cases this
    | column m => cases this
    | centers c' => simp only [How.cen, Option.some.injEq] at this; rw [this]; rfl
    | kmeans c' => simp only [How.cen, Option.some.injEq] at this; rw [this]; rfl

/-- The first part of `getPatches`. -/
theorem inv_patches (i : Inv e D h s) {p : Patches R E}
    (hp : (p = .self ∧ D.count h = 1) ∨ (D.count h ≠ 1 ∧ p = .parts ((D.numbers (D.count h)).map D.inPatch))) :
    Inv e D h { s with patches := some p } :=
  { i with patches := fun q hq => by cases hq; exact hp }

theorem getPatches_known (ok : D.Ok h) (i : Inv e D h s) {p : Patches R E} (hp : s.patches = some p) :
    (getPatches s).1 = (if D.count h = 1 then [D.rows] else (D.numbers (D.count h)).map D.inPatch) ∧ Inv e D h (getPatches s).2 := by
  unfold getPatches
  simp only [hp]
  rcases i.patches p hp with ⟨rfl, h1⟩ | ⟨h1, rfl⟩
  · obtain ⟨hr, i'⟩ := getRows_ok ok i
    simp only [hr]
    rw [if_pos h1]
    exact ⟨rfl, i'⟩
  · rw [if_neg h1]
    exact ⟨rfl, i⟩

theorem getPatches_new (hp : s.patches = none) : getPatches s =
    getPatches (if (getNpatch s).1 = 1 then { (getNpatch s).2 with patches := some .self } else
      { (getRows (getNpatch s).2).2 with patches := some (.parts ((CatState.numbers (getRows (getNpatch s).2).1).map fun p =>
        (getRows (getNpatch s).2).1.filter fun r => r.patch = p)) }) := by
  by_cases h1 : (getNpatch s).1 = 1
  · rw [if_pos h1]
    conv_lhs => unfold getPatches
    simp only [hp]
    rw [if_pos h1]
    rfl
  · rw [if_neg h1]
    conv_lhs => unfold getPatches
    simp only [hp]
    rw [if_neg h1]
    rfl

theorem getPatches_ok (ok : D.Ok h) (i : Inv e D h s) :
    (getPatches s).1 = (if D.count h = 1 then [D.rows] else (D.numbers (D.count h)).map D.inPatch) ∧ Inv e D h (getPatches s).2 := by
  rcases hp : s.patches with _ | p
  · rw [getPatches_new hp]
    obtain ⟨hn, i'⟩ := getNpatch_ok ok i
    obtain ⟨hr, i''⟩ := getRows_ok ok i'
    rw [hn, hr]
    by_cases h1 : D.count h = 1
    · rw [if_pos h1, if_pos h1]
      have := getPatches_known (s := { (getNpatch s).2 with patches := some .self }) ok (inv_patches i' (.inl ⟨rfl, h1⟩)) rfl
      rwa [if_pos h1] at this
    · rw [if_neg h1, if_neg h1]
      have hne : h ≠ .none := by rintro rfl; exact h1 rfl
      have e1 : CatState.numbers D.rows = D.numbers (D.count h) := numbers_eq D _ (ok.patch hne)
      rw [e1]
      have := getPatches_known (p := .parts ((D.numbers (D.count h)).map D.inPatch)) ok (inv_patches i'' (.inr ⟨h1, rfl⟩)) rfl
      rwa [if_neg h1] at this
  · exact getPatches_known ok i hp

theorem getField_ok (ok : D.Ok h) (i : Inv e D h s) (key : K) :
    (getField e key s).1 = e.build key D.rows ∧ Inv e D h (getField e key s).2 := by
  unfold getField
  split
  · rename_i x hf
    have hx := List.find?_some hf
    have hm := List.mem_of_find?_eq_some hf
    simp only [decide_eq_true_eq] at hx
    refine ⟨by rw [i.cache x hm, hx], { i with cache := fun y hy => ?_ }⟩
    rcases List.mem_cons.1 hy with rfl | hy
    · exact i.cache _ hm
    · exact i.cache y (List.mem_filter.1 hy).1
  · obtain ⟨hr, i'⟩ := getRows_ok ok i
    simp only [hr]
    refine ⟨trivial, { i' with cache := fun y hy => ?_ }⟩
    rcases List.mem_cons.1 (List.mem_of_mem_take hy) with rfl | hy
    · rfl
    · exact i'.cache y hy

/-- Not a trim. -/
def Op.Keeps : Op K → Prop
  | .select _ => False
  | _ => True

theorem step_ok (ok : D.Ok h) (i : Inv e D h s) (o : Op K) (ho : o.Keeps) :
    (step e s o).1 = D.truth e h o ∧ Inv e D h (step e s o).2 := by
  cases o with
  | load => exact ⟨rfl, (inv_load ok i).1⟩
  | unload =>
    refine ⟨rfl, ?_⟩
    rcases i.file with hf | hf
    · have hd : s.data = some D := by
        rcases i.data with hd | hd
        · exact hd
        · rw [hf] at hd; cases hd.2
      have : (step e s .unload).2 = { s with cache := [] } := by
        simp [step, unload, hf]
      rw [this]
      exact { i with cache := by simp }
    · have : (step e s .unload).2 = { s with data := none, cache := [] } := by
        simp [step, unload, hf]
      rw [this]
      exact { i with data := .inr ⟨rfl, hf⟩, fin := by simp, cache := by simp }
  | clear => exact ⟨rfl, { i with cache := by simp [step] }⟩
  | resize n => exact ⟨rfl, { i with cache := fun x hx => i.cache x (List.mem_of_mem_take hx) }⟩
  | rows => exact ⟨congrArg Ans.rows (getRows_ok ok i).1, (getRows_ok ok i).2⟩
  | npatch => exact ⟨congrArg Ans.nat (getNpatch_ok ok i).1, (getNpatch_ok ok i).2⟩
  | sumw => exact ⟨congrArg Ans.num (getSumw_ok ok i).1, (getSumw_ok ok i).2⟩
  | nobj => exact ⟨congrArg Ans.nat (getNobj_ok ok i).1, (getNobj_ok ok i).2⟩
  | sumw2 => exact ⟨congrArg Ans.num (getSumw2_ok ok i).1, (getSumw2_ok ok i).2⟩
  | centers => exact ⟨congrArg Ans.centers (getCenters_ok ok i).1, (getCenters_ok ok i).2⟩
  | patches => exact ⟨congrArg Ans.patches (getPatches_ok ok i).1, (getPatches_ok ok i).2⟩
  | field key => exact ⟨congrArg Ans.field (getField_ok ok i key).1, (getField_ok ok i key).2⟩
  | select => exact ho.elim

theorem run_ok (ok : D.Ok h) (os : List (Op K)) (ho : ∀ o ∈ os, o.Keeps) (s : St R E K F) (i : Inv e D h s) :
    run e s os = os.map (D.truth e h) := by
  induction os generalizing s with
  | nil => rfl
  | cons o os ih =>
    obtain ⟨h1, h2⟩ := step_ok ok i o (ho o List.mem_cons_self)
    rw [run, List.map_cons, h1, ih (fun o' h' => ho o' (List.mem_cons_of_mem _ h')) _ h2]

/-! ### Beginnings -/

theorem inv_fromFile (hk : ∀ c, h ≠ .kmeans c) (hn : ∀ n, h = .column (some n) → n = D.count h) :
    Inv e D h (fromFile D h : St R E K F) := by
  refine ⟨.inr rfl, .inr ⟨rfl, rfl⟩, ?_, ?_, by simp [fromFile], by simp [fromFile], by simp [fromFile], by simp [fromFile],
    by simp [fromFile], ?_, ?_, fun _ => rfl, by simp [fromFile], by simp [fromFile], by simp [fromFile]⟩
  · cases h <;> first | rfl | exact absurd rfl (hk _)
  · cases h <;> first | exact .inl rfl | exact absurd rfl (hk _)
  · intro n hn'
    cases h with
    | none => simp only [fromFile, Option.some.injEq] at hn'; exact hn'.symm
    | column m => simp only [fromFile] at hn'; subst hn'; exact hn n rfl
    | centers c => simp only [fromFile, Option.some.injEq] at hn'; exact hn'.symm
    | kmeans c => exact absurd rfl (hk c)
  · intro hn'
    cases h with
    | none => simp [fromFile] at hn'
    | column m => exact ⟨m, rfl⟩
    | centers c => simp [fromFile] at hn'
    | kmeans c => simp [fromFile] at hn'

theorem inv_loaded (ok : D.Ok h) : Inv e D h (load (fromFile D h) : St R E K F) := by
  have hl : (load (fromFile D h) : St R E K F) = finish D (fromFile D h) := rfl
  rw [hl]
  have hn : (finish D (fromFile D h : St R E K F)).npatch = some (D.count h) := by
    cases h with
    | none =>
      have hp : D.patched = false := by
        rcases Bool.eq_false_or_eq_true D.patched with hp | hp
        · exact absurd rfl (ok.patched.1 hp)
        · exact hp
      simp [finish, fromFile, hp, Data.count]
    | column m => simp [finish, fromFile, ok.patched.2, Data.count, maxPatch]
    | centers c => simp [finish, fromFile, Data.count]
    | kmeans c => simp [finish, fromFile, Data.count]
  have hob : (finish D (fromFile D h : St R E K F)).nobj = some (D.rows.filter fun r => r.w ≠ 0).length := by
    simp only [finish, fromFile, Option.some.injEq]
    split
    · rfl
    · rename_i hw
      rw [filter_ones _ (ok.w (by simpa using hw))]
  refine ⟨.inr rfl, .inl rfl, by cases h <;> rfl, by cases h <;> simp [finish, fromFile], fun _ => ⟨by simp [finish], by simp [finish],
    by simp [hob], by simp [hn]⟩, fun b hb => (Option.some.inj hb).symm, ?_, ?_, by simp [finish, fromFile], ?_, by simp [hn], by simp [hob],
    by simp [finish, fromFile], by simp [finish, fromFile], by simp [finish, fromFile]⟩
  · intro x hx
    simp only [finish, Option.some.injEq] at hx
    rw [← hx, Data.total]
    split
    · rfl
    · rename_i hw
      rw [sum_ones _ (ok.w (by simpa using hw))]
  · intro n hn'
    rw [hob] at hn'
    exact (Option.some.inj hn').symm
  · intro n hn'
    rw [hn] at hn'
    exact (Option.some.inj hn').symm

theorem inv_arrays (ok : D.Ok h) : Inv e D h (fromArrays D h : St R E K F) := by
  have i : Inv e D h (load (fromFile D h) : St R E K F) := inv_loaded ok
  exact { i with file := .inl rfl, data := .inl rfl }

end CatState
end TreeCorr
