import Mathlib.Data.List.Perm.Lattice
import Verif.Model.CatalogOps
import Verif.Props.Catalog

namespace TreeCorr
namespace Catalog

open Rows (takeIdx whereEq)
open Classical

variable {R : Type} [Field R] [DecidableEq R] {m : ℕ}

/-- The weights of a table, ones if none are given. -/
def Tab.ws (m : ℕ) (t : Tab R) : List (Option R) := t.w.getD (List.replicate m (some 1))

/-- A table of `m` rows without NaN and flags, with positions; rows with zero `wpos` have zero weight. -/
structure Clean (m : ℕ) (t : Tab R) : Prop where
  col : ∀ c l, t.col c = some l → l.length = m ∧ none ∉ l
  w : ∀ l, t.w = some l → l.length = m ∧ none ∉ l
  wpos : ∀ l, t.wpos = some l → l.length = m ∧ none ∉ l
  patch : ∀ l, t.patch = some l → l.length = m
  flag : t.flag = none
  x : (t.col .x).isSome
  zero : ∀ p, t.wpos = some p → ∀ i : ℕ, p[i]? = some (some 0) → (t.ws m)[i]? = some (some 0)

theorem finish_clean [CharZero R] (s : Settings R) (t : Tab R) (hm : 0 < m) (hc : Clean m t) (hfl : ∀ c, s.flip c = false)
    (hk : s.keepZero = true ∨ some 0 ∉ t.wpos.getD (t.ws m)) :
    (npSum (t.ws m) = some 0 → finishInput s t = .error .valueError) ∧
    (npSum (t.ws m) ≠ some 0 →
      ∃ b, (t.w.isSome → b = true) ∧ finishInput s t = .ok ⟨{ t with w := some (t.ws m) }, b, npSum (t.ws m)⟩) := by
  obtain ⟨S, rfl⟩ := tab_of_lengths t (fun c l h => (hc.col c l h).1) (fun l h => (hc.w l h).1) (fun l h => (hc.wpos l h).1)
    (fun l h => by rw [hc.flag] at h; simp at h) hc.patch
  have hws : (S.tab m).ws m = arr m S.weight := getD_weight S
  have hflag : S.flag = none := by
    have := hc.flag
    simpa [Src.tab] using this
  have hx : (S.col .x).isSome := by
    have := hc.x
    simpa [Src.tab] using this
  have hNotFl : ∀ i, ¬ S.Flagged s i := by
    rintro i ⟨f, hf, -⟩
    rw [hflag] at hf
    simp at hf
  have hmem : ∀ (f : ℕ → Option R) i, i < m → f i = none → none ∈ arr m f := by
    intro f i hi h
    exact List.mem_map.2 ⟨i, List.mem_range.2 hi, h⟩
  have hNaN : ∀ i < m, ¬ S.NaN i := by
    rintro i hi (⟨c, f, hf, h⟩ | ⟨f, hf, h⟩ | ⟨f, hf, h⟩)
    · exact (hc.col c (arr m f) (by simp [Src.tab, hf])).2 (hmem f i hi h)
    · exact (hc.w (arr m f) (by simp [Src.tab, hf])).2 (hmem f i hi h)
    · exact (hc.wpos (arr m f) (by simp [Src.tab, hf])).2 (hmem f i hi h)
  have hPeq : ∀ i < m, ∀ p, S.wpos = some p → nz (p i) = p i := by
    intro i hi p hp
    have : p i ≠ none := fun h => hNaN i hi (Or.inr (Or.inr ⟨p, hp, h⟩))
    obtain ⟨v, hv⟩ := Option.ne_none_iff_exists'.1 this
    rw [hv]
    rfl
  have hP : S.P s = S.wpos.map fun p i => nz (p i) := by
    unfold Src.P
    cases S.wpos <;> simp [hNotFl]
  have hW : ∀ i < m, S.W s i = S.weight i := by
    intro i hi
    unfold Src.W
    split_ifs with h
    · rcases h with h | h | ⟨q, hq, h⟩
      · exact absurd h (hNaN i hi)
      · exact absurd h (hNotFl i)
      · rw [hP] at hq
        obtain ⟨p, hp, rfl⟩ := Option.map_eq_some_iff.1 hq
        simp only at h
        rw [hPeq i hi p hp] at h
        have := hc.zero (arr m p) (by simp [Src.tab, hp]) i (by rw [arr_get, if_pos hi, h])
        rw [hws, arr_get, if_pos hi] at this
        exact (Option.some.inj this).symm
    · rfl
  have hok : S.Ok s := ⟨Or.inl hx, fun c _ h => by rw [hfl c] at h; simp at h⟩
  have hflip : ∀ c a, flipped s c a = a := fun c a => if_neg fun h => by rw [hfl c] at h; simp at h
  have hkept : S.keptRows s m = List.range m := by
    unfold Src.keptRows
    split_ifs with h
    · rfl
    · rcases hk with hk | hk
      · exact absurd hk h
      rw [List.filter_eq_self]
      intro i hi
      have hi := List.mem_range.1 hi
      simp only [decide_eq_true_eq]
      intro h0
      apply hk
      rw [hP] at h0
      have hin : ∀ f : ℕ → Option R, f i = some 0 → some 0 ∈ arr m f := fun f h => List.mem_map.2 ⟨i, List.mem_range.2 hi, h⟩
      cases hp : S.wpos with
      | none =>
        rw [hp] at h0
        simp only [Option.map_none, Option.elim] at h0
        rw [hW i hi] at h0
        have : (S.tab m).wpos = none := by simp [Src.tab, hp]
        rw [this, hws]
        exact hin _ h0
      | some p =>
        rw [hp] at h0
        simp only [Option.map_some, Option.elim] at h0
        rw [hPeq i hi p hp] at h0
        have : (S.tab m).wpos = some (arr m p) := by simp [Src.tab, hp]
        rw [this]
        exact hin _ h0
  rw [finish_tab s S hok hm, hws, arr_congr hW, hkept]
  constructor
  · intro h
    rw [if_pos h]
  · intro h
    rw [if_neg h]
    refine ⟨(S.fin s m).w.isSome, ?_, ?_⟩
    · intro hw
      obtain ⟨f, hf⟩ := Option.isSome_iff_exists.1 hw
      by_contra hb
      have hfin : (S.fin s m).w = none := by simpa using hb
      -- a given array of weights stays given
      exact absurd hfin (fin_w_some s S (by
        have : S.w.map (arr m) = some f := hf
        cases hS : S.w with
        | none => rw [hS] at this; simp at this
        | some _ => rfl))
    · congr 2
      unfold Src.pick Src.tab
      have h1 : (List.range m).map (S.fin s m).weight = arr m S.weight :=
        arr_congr fun i hi => by rw [fin_weight s S hi, hW i hi]
      have h2 : (S.fin s m).wpos.map (fun f => (List.range m).map f) = S.wpos.map (arr m) := by
        rw [(fin_rest s S).1, hP]
        cases hp : S.wpos with
        | none => rfl
        | some p =>
          simp only [Option.map_some, Option.some.injEq]
          exact arr_congr fun i hi => hPeq i hi p hp
      have h3 : (S.fin s m).patch = S.patch := (fin_rest s S).2.1
      have h4 : (S.fin s m).flag = S.flag := fin_flag s S
      have h5 : (fun c => ((S.fin s m).col c).map fun f => (List.range m).map f) = fun c => (S.col c).map (arr m) := by
        funext c
        obtain ⟨e1, e2⟩ := fin_col (n := m) s S c
        have hout : S.out s c = S.col c := by
          unfold Src.out
          rw [if_neg (by intro h; rw [h] at hx; simp at hx)]
          simp [hflip]
        rw [hout] at e1 e2
        cases hf : (S.fin s m).col c with
        | none =>
          rw [hf] at e1
          cases hg : S.col c with
          | none => rfl
          | some g => rw [hg] at e1; simp at e1
        | some f =>
          rw [hf] at e1
          cases hg : S.col c with
          | none => rw [hg] at e1; simp at e1
          | some g =>
            simp only [Option.map_some, Option.some.injEq]
            exact arr_congr fun i hi => e2 f g hf hg i (hNaN i hi)
      simp only [h1, h2, h3, h4, h5]
      rfl

/-! ### Patches -/

theorem filterMap_shift {α β : Type} (f : ℕ → Option β) (n : ℕ) :
    (List.range (n + 1)).filterMap f = ((f 0).toList) ++ (List.range n).filterMap fun i => f (i + 1) := by
  rw [List.range_succ_eq_map, List.filterMap_cons]
  cases h : f 0 <;> simp [List.filterMap_map, Function.comp_def]

theorem rowsIn_eq {α : Type} (P : List ℤ) (p : ℤ) (l : List α) (h : P.length = l.length) :
    (whereEq P p).filterMap (fun i => l[i]?) = rowsIn P p l := by
  unfold whereEq rowsIn
  induction P generalizing l with
  | nil => simp
  | cons a P ih =>
    cases l with
    | nil => simp at h
    | cons b l =>
      have ih := ih l (by simpa using h)
      rw [List.filterMap_filter] at ih ⊢
      rw [List.length_cons, filterMap_shift (α := α)]
      simp only [List.getElem?_cons_zero, List.getElem?_cons_succ, List.zip_cons_cons]
      rw [ih]
      by_cases hp : a = p <;> simp [List.filter_cons, hp]

theorem takeIdx_rowsIn {α : Type} (P : List ℤ) (p : ℤ) (l : List α) (h : P.length = l.length) :
    takeIdx (whereEq P p) l = some (rowsIn P p l) := by
  obtain ⟨r, h1, -, -⟩ := Rows.takeIdx_some (idx := whereEq P p) (l := l) fun i hi => h ▸ Rows.whereEq_lt hi
  rw [h1, ← Rows.takeIdx_eq h1, rowsIn_eq P p l h]

theorem mem_rowsIn {α : Type} {P : List ℤ} {p : ℤ} {l : List α} {a : α} (h : a ∈ rowsIn P p l) : a ∈ l := by
  unfold rowsIn at h
  obtain ⟨x, hx, rfl⟩ := List.mem_map.1 h
  exact (List.of_mem_zip (List.mem_filter.1 hx).1).2

theorem rowsIn_length {α : Type} (P : List ℤ) (p : ℤ) (l : List α) (h : P.length = l.length) :
    (rowsIn P p l).length = P.count p := by
  unfold rowsIn
  rw [List.length_map]
  induction P generalizing l with
  | nil => simp
  | cons a P ih =>
    cases l with
    | nil => simp at h
    | cons b l =>
      have ih := ih l (by simpa using h)
      by_cases hp : a = p <;> simp [List.filter_cons, hp, ih, List.count_cons]

theorem rowsIn_rel {α β : Type} (P : List ℤ) (p : ℤ) (l : List α) (l' : List β) (h : P.length = l.length) (h' : P.length = l'.length)
    (Q : α → Prop) (Q' : β → Prop) (hQ : ∀ i : ℕ, ∀ a b, l[i]? = some a → l'[i]? = some b → Q a → Q' b) (j : ℕ) (a : α) (b : β)
    (ha : (rowsIn P p l)[j]? = some a) (hb : (rowsIn P p l')[j]? = some b) : Q a → Q' b := by
  obtain ⟨r, h1, h2, h3⟩ := Rows.takeIdx_some (idx := whereEq P p) (l := l) fun i hi => h ▸ Rows.whereEq_lt hi
  obtain ⟨r', h1', h2', h3'⟩ := Rows.takeIdx_some (idx := whereEq P p) (l := l') fun i hi => h' ▸ Rows.whereEq_lt hi
  rw [takeIdx_rowsIn P p l h] at h1
  rw [takeIdx_rowsIn P p l' h'] at h1'
  have e1 := Option.some.inj h1
  have e2 := Option.some.inj h1'
  rw [e1] at ha
  rw [e2] at hb
  have hj : j < (whereEq P p).length := by
    rw [← h2]
    by_contra hc
    rw [List.getElem?_eq_none (by omega)] at ha
    simp at ha
  rw [h3 j hj] at ha
  rw [h3' j hj] at hb
  exact hQ _ a b ha hb

/-- A finished catalogue of `m` rows. -/
structure IsCat (m : ℕ) (C : Cat R) : Prop where
  pos : 0 < m
  clean : Clean m { C.tab with flag := none }
  w : C.tab.w.isSome
  triv : C.nontrivial = false → C.tab.w = some (List.replicate m (some 1))
  sumw : C.sumw = npSum (C.tab.ws m)

theorem rowsIn_replicate {α : Type} (P : List ℤ) (p : ℤ) (a : α) : rowsIn P p (List.replicate P.length a) = List.replicate (P.count p) a := by
  rw [List.eq_replicate_iff]
  exact ⟨rowsIn_length P p _ (by simp), fun b hb => List.eq_of_mem_replicate (mem_rowsIn hb)⟩

theorem onePatch_spec [CharZero R] (C : Cat R) (hC : IsCat m C) (P : List ℤ) (hP : P.length = m) (p : ℤ) (hp : p ∈ P) :
    (npSum (rowsIn P p (C.tab.ws m)) = some 0 → onePatch C P p = .error .valueError) ∧
    (npSum (rowsIn P p (C.tab.ws m)) ≠ some 0 →
      ∃ D, onePatch C P p = .ok D ∧ IsCat (P.count p) D ∧ (∀ c, D.tab.col c = (C.tab.col c).map (rowsIn P p)) ∧
        D.tab.w = C.tab.w.map (rowsIn P p) ∧ D.tab.wpos = C.tab.wpos.map (rowsIn P p) ∧ D.tab.patch = none ∧
        D.sumw = npSum (rowsIn P p (C.tab.ws m))) := by
  obtain ⟨w, hw⟩ := Option.isSome_iff_exists.1 hC.w
  have hws : C.tab.ws m = w := by simp [Tab.ws, hw]
  have hwl := hC.clean.w w hw
  have hsel : ∀ {α : Type} (o : Option (List α)), (∀ l, o = some l → l.length = m) →
      o.bind (takeIdx (whereEq P p)) = o.map (rowsIn P p) ∧ ∀ l, o = some l → (takeIdx (whereEq P p) l).isSome := by
    intro α o ho
    cases o with
    | none => simp
    | some l =>
      have := takeIdx_rowsIn P p l (by rw [hP, ho l rfl])
      refine ⟨by simp [this], ?_⟩
      intro l' hl
      cases hl
      simp [this]
  have s1 := fun c => hsel (C.tab.col c) fun l h => (hC.clean.col c l h).1
  have s2 := hsel C.tab.w fun l h => (hC.clean.w l h).1
  have s3 := hsel C.tab.wpos fun l h => (hC.clean.wpos l h).1
  have s4 := hsel C.tab.patch fun l h => hC.clean.patch l h
  have hselect : select (whereEq P p) C.tab = .ok ⟨fun c => (C.tab.col c).map (rowsIn P p), C.tab.w.map (rowsIn P p),
      C.tab.wpos.map (rowsIn P p), C.tab.flag, C.tab.patch.map (rowsIn P p)⟩ := by
    unfold select
    rw [if_pos ⟨fun c _ => (s1 c).2, s2.2, s3.2, s4.2⟩]
    simp only [(s1 _).1, s2.1, s3.1, s4.1]
  have hcnt : 0 < P.count p := List.count_pos_iff.2 hp
  set t : Tab R := ⟨fun c => (C.tab.col c).map (rowsIn P p), if C.nontrivial then C.tab.w.map (rowsIn P p) else none,
      C.tab.wpos.map (rowsIn P p), none, none⟩ with ht
  have hone : onePatch C P p = finishInput (partSettings C.anyZero) t := by
    unfold onePatch
    rw [hselect]
  have hlen : ∀ {α : Type} (l : List α), l.length = m → (rowsIn P p l).length = P.count p :=
    fun l hl => rowsIn_length P p l (by rw [hP, hl])
  have hws' : t.ws (P.count p) = rowsIn P p w := by
    unfold Tab.ws
    cases hn : C.nontrivial with
    | true => simp [ht, hn, hw]
    | false =>
      have h1 := hC.triv hn
      rw [hw] at h1
      rw [Option.some.inj h1, ← hP, rowsIn_replicate]
      simp [ht, hn]
  have hclean : Clean (P.count p) t := by
    refine ⟨?_, ?_, ?_, ?_, rfl, ?_, ?_⟩
    · intro c l hl
      obtain ⟨l0, h0, rfl⟩ := Option.map_eq_some_iff.1 hl
      have := hC.clean.col c l0 h0
      exact ⟨hlen _ this.1, fun h => this.2 (mem_rowsIn h)⟩
    · intro l hl
      simp only [ht] at hl
      split_ifs at hl
      obtain ⟨l0, h0, rfl⟩ := Option.map_eq_some_iff.1 hl
      have := hC.clean.w l0 h0
      exact ⟨hlen _ this.1, fun h => this.2 (mem_rowsIn h)⟩
    · intro l hl
      obtain ⟨l0, h0, rfl⟩ := Option.map_eq_some_iff.1 hl
      have := hC.clean.wpos l0 h0
      exact ⟨hlen _ this.1, fun h => this.2 (mem_rowsIn h)⟩
    · intro l hl
      simp [ht] at hl
    · have := hC.clean.x
      simpa [ht] using this
    · intro l hl i hi
      obtain ⟨l0, h0, rfl⟩ := Option.map_eq_some_iff.1 hl
      rw [hws']
      have hl0 := hC.clean.wpos l0 h0
      have hi' : i < (rowsIn P p l0).length := by
        by_contra hc
        rw [List.getElem?_eq_none (by omega)] at hi
        simp at hi
      have hi2 : i < (rowsIn P p w).length := by rw [hlen w hwl.1, ← hlen l0 hl0.1]; exact hi'
      rw [List.getElem?_eq_getElem hi2]
      congr 1
      refine rowsIn_rel P p l0 w (by rw [hP, hl0.1]) (by rw [hP, hwl.1]) (· = some 0) (· = some 0) ?_ i (some 0) _ hi
        (List.getElem?_eq_getElem hi2) rfl
      intro k a b ha hb hq
      subst hq
      have := hC.clean.zero l0 h0 k ha
      have hws2 : Tab.ws m { C.tab with flag := none } = w := hws
      rw [hws2, hb] at this
      exact Option.some.inj this
  have hkz : (partSettings (R := R) C.anyZero).keepZero = true ∨ some 0 ∉ t.wpos.getD (t.ws (P.count p)) := by
    by_cases hz : C.anyZero = true
    · exact Or.inl hz
    · right
      intro h
      apply hz
      unfold Cat.anyZero
      rw [hw]
      simp only [Option.getD_some, List.any_eq_true, decide_eq_true_eq]
      refine ⟨some 0, ?_, rfl⟩
      rw [hws'] at h
      cases hwp : C.tab.wpos with
      | none =>
        simp only [ht, hwp, Option.map_none, Option.getD_none] at h
        exact mem_rowsIn h
      | some q =>
        simp only [ht, hwp, Option.map_some, Option.getD_some] at h
        exact mem_rowsIn h
  obtain ⟨f1, f2⟩ := finish_clean (partSettings C.anyZero) t hcnt hclean (fun _ => rfl) hkz
  rw [hws'] at f1 f2
  rw [hone, hws]
  refine ⟨f1, fun h => ?_⟩
  obtain ⟨b, hb, hf⟩ := f2 h
  refine ⟨_, hf, ⟨hcnt, ?_, rfl, ?_, ?_⟩, fun c => rfl, by simp [hw], rfl, rfl, rfl⟩
  · refine ⟨hclean.col, ?_, hclean.wpos, hclean.patch, rfl, hclean.x, ?_⟩
    · intro l hl
      cases hl
      exact ⟨hlen w hwl.1, fun h => hwl.2 (mem_rowsIn h)⟩
    · intro q hq i hi
      have := hclean.zero q hq i hi
      rw [hws'] at this
      exact this
  · intro hb0
    have hn : C.nontrivial = false := by
      by_contra hn
      have hn' : C.nontrivial = true := by simpa using hn
      have : t.w.isSome := by simp [ht, hw, hn']
      rw [hb this] at hb0
      simp at hb0
    have h1 := hC.triv hn
    rw [hw] at h1
    show some (rowsIn P p w) = _
    rw [Option.some.inj h1, ← hP, rowsIn_replicate]
  · rfl

theorem patchIds_mem (P : List ℤ) (p : ℤ) : p ∈ patchIds P ↔ p ∈ P := by
  unfold patchIds
  rw [List.mem_insertionSort, List.mem_dedup]

theorem patchIds_nodup (P : List ℤ) : (patchIds P).Nodup :=
  (List.perm_insertionSort _ _).nodup_iff.2 (List.nodup_dedup P)

theorem patchIds_sorted (P : List ℤ) : (patchIds P).Pairwise (· < ·) := by
  have h1 : (patchIds P).Pairwise (· ≤ ·) := List.pairwise_insertionSort _ _
  have h2 := patchIds_nodup P
  exact (h1.and h2).imp fun h => lt_of_le_of_ne h.1 h.2

theorem partition_perm {α : Type} (ids : List ℤ) (hn : ids.Nodup) (P : List ℤ) (l : List α) (h : P.length = l.length)
    (hP : ∀ p ∈ P, p ∈ ids) : (ids.flatMap fun p => rowsIn P p l).Perm l := by
  induction P generalizing l with
  | nil =>
    have : l = [] := List.length_eq_zero_iff.1 (by simpa using h.symm)
    subst this
    simp [rowsIn]
  | cons a P ih =>
    cases l with
    | nil => simp at h
    | cons b l =>
      have ih := ih l (by simpa using h) fun p hp => hP p (by simp [hp])
      have ha := hP a (by simp)
      have hr : ∀ p, rowsIn (a :: P) p (b :: l) = if a = p then b :: rowsIn P p l else rowsIn P p l := by
        intro p
        unfold rowsIn
        by_cases hp : a = p <;> simp [List.filter_cons, hp]
      obtain ⟨l1, l2, rfl⟩ := List.append_of_mem ha
      have hn1 : a ∉ l1 ∧ a ∉ l2 := by
        rw [List.nodup_append] at hn
        obtain ⟨-, h2, h3⟩ := hn
        exact ⟨fun hm => h3 a hm a (by simp) rfl, (List.nodup_cons.1 h2).1⟩
      have e : ∀ L : List ℤ, a ∉ L → (L.flatMap fun p => rowsIn (a :: P) p (b :: l)) = L.flatMap fun p => rowsIn P p l := by
        intro L hL
        unfold List.flatMap
        congr 1
        apply List.map_congr_left
        intro p hp
        rw [hr, if_neg]
        rintro rfl
        exact hL hp
      rw [List.flatMap_append, List.flatMap_cons, e l1 hn1.1, e l2 hn1.2, hr, if_pos rfl]
      rw [List.flatMap_append, List.flatMap_cons] at ih
      refine List.Perm.trans ?_ (ih.cons b)
      rw [List.cons_append]
      exact List.perm_middle

theorem npSum_append (l l' : List (Option R)) :
    npSum (l ++ l') = match npSum l, npSum l' with | some a, some b => some (a + b) | _, _ => none := by
  induction l with
  | nil =>
    have : npSum ([] : List (Option R)) = some 0 := rfl
    rw [List.nil_append, this]
    cases npSum l' <;> simp
  | cons a l ih =>
    have hc : ∀ (a : Option R) l, npSum (a :: l) = match a, npSum l with | some a, some b => some (a + b) | _, _ => none := fun _ _ => rfl
    rw [List.cons_append, hc, ih, hc]
    cases a with
    | none => cases npSum l <;> cases npSum l' <;> rfl
    | some a => cases npSum l <;> cases npSum l' <;> simp [add_assoc]

theorem npSum_perm {l l' : List (Option R)} (h : l.Perm l') : npSum l = npSum l' := by
  have hc : ∀ (a : Option R) l, npSum (a :: l) = match a, npSum l with | some a, some b => some (a + b) | _, _ => none := fun _ _ => rfl
  induction h with
  | nil => rfl
  | cons a _ ih => rw [hc, hc, ih]
  | swap a b l =>
    rw [hc, hc, hc, hc]
    cases a <;> cases b <;> cases npSum l <;> simp [add_left_comm]
  | trans _ _ h1 h2 => rw [h1, h2]

theorem npSum_flatMap {β : Type} (L : List β) (f : β → List (Option R)) : npSum (L.flatMap f) = npSum (L.map fun p => npSum (f p)) := by
  have hc : ∀ (a : Option R) l, npSum (a :: l) = match a, npSum l with | some a, some b => some (a + b) | _, _ => none := fun _ _ => rfl
  induction L with
  | nil => rfl
  | cons p L ih => rw [List.flatMap_cons, npSum_append, ih, List.map_cons, hc]

/-- Positions made from numbers are numbers. -/
def Settings.XyzTotal (s : Settings R) : Prop :=
  ∀ (a b : R) (c : Option R), (s.xyz (some a) (some b) (c.map some)).1 ≠ none ∧ (s.xyz (some a) (some b) (c.map some)).2.1 ≠ none ∧
    (s.xyz (some a) (some b) (c.map some)).2.2 ≠ none

theorem fin_col_ne_none (s : Settings R) (S : Src R) (hs : s.XyzTotal) (h : S.Ok s) (c : Col) (f : ℕ → Option R)
    (hf : (S.fin s m).col c = some f) (i : ℕ) : f i ≠ none := by
  rw [(fin_rest s S).2.2] at hf
  have hz : ∀ c f, (S.Z s).col c = some f → ∃ g : ℕ → R, f = fun i => some (g i) := by
    intro c f hf
    unfold Src.Z at hf
    obtain ⟨g, -, rfl⟩ := Option.map_eq_some_iff.1 hf
    exact ⟨fun i => (flipped s c (g i)).getD 0, rfl⟩
  have hz' : ∀ c f i, (S.Z s).col c = some f → f i ≠ none := by
    intro c f i hf
    obtain ⟨g, rfl⟩ := hz c f hf
    simp
  unfold Src.xyzS at hf
  cases hx : (S.Z s).col .x with
  | some x =>
    rw [hx] at hf
    exact hz' c f i hf
  | none =>
    rw [hx] at hf
    have hpos := h.pos
    have hxS : S.col .x = none := by
      cases h' : S.col .x with
      | none => rfl
      | some x => simp [Src.Z, h'] at hx
    rw [hxS] at hpos
    simp only [Option.isSome_none, Bool.false_eq_true, false_or] at hpos
    obtain ⟨-, -, hra, hdec⟩ := hpos
    have hra' : ((S.Z s).col .ra).isSome := by simpa [Src.Z] using hra
    have hdec' : ((S.Z s).col .dec).isSome := by simpa [Src.Z] using hdec
    obtain ⟨ra, era⟩ := Option.isSome_iff_exists.1 hra'
    obtain ⟨dec, edec⟩ := Option.isSome_iff_exists.1 hdec'
    obtain ⟨gra, rfl⟩ := hz _ _ era
    obtain ⟨gdec, rfl⟩ := hz _ _ edec
    have hrow : ∃ c : Option R, (S.Z s).xyzRow s i = s.xyz (some (gra i)) (some (gdec i)) (c.map some) := by
      unfold Src.xyzRow
      rw [era, edec]
      cases hr : (S.Z s).col .r with
      | none => exact ⟨none, rfl⟩
      | some r =>
        obtain ⟨gr, rfl⟩ := hz _ _ hr
        exact ⟨some (gr i), rfl⟩
    obtain ⟨c0, hrow⟩ := hrow
    have ht := hs (gra i) (gdec i) c0
    cases c <;> first
      | exact hz' _ f i hf
      | simp only [Option.some.injEq] at hf
        subst hf
        simp only [hrow]
        first
          | exact ht.1
          | exact ht.2.1
          | exact ht.2.2

theorem W_ne_none (s : Settings R) (S : Src R) (i : ℕ) : S.W s i ≠ none := by
  unfold Src.W
  split_ifs with h
  · simp
  · push Not at h
    exact weight_ne_none h.1

theorem npSum_drop_zero (l : List ℕ) (F : ℕ → Option R) (q : ℕ → Prop) [DecidablePred q] (h : ∀ i ∈ l, ¬ q i → F i = some 0) :
    npSum ((l.filter q).map F) = npSum (l.map F) := by
  have hc : ∀ (a : Option R) l, npSum (a :: l) = match a, npSum l with | some a, some b => some (a + b) | _, _ => none := fun _ _ => rfl
  induction l with
  | nil => rfl
  | cons a l ih =>
    have ih := ih fun i hi => h i (by simp [hi])
    by_cases ha : q a
    · rw [List.filter_cons, if_pos (by simpa using ha), List.map_cons, hc, ih, List.map_cons, hc]
    · rw [List.filter_cons, if_neg (by simpa using ha), ih, List.map_cons, hc, h a (by simp) ha]
      cases npSum (l.map F) <;> simp

/-- What the constructor makes is a finished catalogue. -/
theorem finished_isCat [CharZero R] (s : Settings R) (hs : s.XyzTotal) (S : Src R) (h : S.Ok s) {n : ℕ} (hn : 0 < n) (C : Cat R)
    (hC : finishInput s (S.tab n) = .ok C) : ∃ m, IsCat m C := by
  rw [finish_tab s S h hn] at hC
  split_ifs at hC with h0
  have hC := Except.ok.inj hC
  subst hC
  have hlt : ∀ i ∈ S.keptRows s n, i < n := fun i hi => keptRows_lt hi
  have hfw : (S.keptRows s n).map (S.fin s n).weight = (S.keptRows s n).map (S.W s) :=
    List.map_congr_left fun i hi => fin_weight s S (hlt i hi)
  have hsum : npSum ((S.keptRows s n).map (S.W s)) = npSum (arr n (S.W s)) := by
    unfold Src.keptRows arr
    split_ifs
    · rfl
    · apply npSum_drop_zero
      intro i _ hi
      push Not at hi
      cases hP : S.P s with
      | none => rw [hP] at hi; exact hi
      | some p =>
        rw [hP] at hi
        unfold Src.W
        rw [if_pos (Or.inr (Or.inr ⟨p, hP, hi⟩))]
  refine ⟨(S.keptRows s n).length, ?_, ⟨?_, ?_, ?_, ?_, rfl, ?_, ?_⟩, rfl, ?_, ?_⟩
  · rcases Nat.eq_zero_or_pos (S.keptRows s n).length with h | h
    · rw [List.length_eq_zero_iff.1 h] at hsum
      rw [← hsum] at h0
      exact absurd rfl h0
    · exact h
  · intro c l hl
    obtain ⟨f, hf, rfl⟩ := Option.map_eq_some_iff.1 hl
    refine ⟨by simp, ?_⟩
    intro hm
    obtain ⟨i, -, hi⟩ := List.mem_map.1 hm
    exact fin_col_ne_none s S hs h c f hf i hi
  · intro l hl
    cases hl
    refine ⟨by simp, ?_⟩
    rw [hfw]
    intro hm
    obtain ⟨i, -, hi⟩ := List.mem_map.1 hm
    exact W_ne_none s S i hi
  · intro l hl
    obtain ⟨f, hf, rfl⟩ := Option.map_eq_some_iff.1 hl
    refine ⟨by simp, ?_⟩
    intro hm
    obtain ⟨i, -, hi⟩ := List.mem_map.1 hm
    rw [(fin_rest s S).1] at hf
    unfold Src.P at hf
    obtain ⟨p, -, rfl⟩ := Option.map_eq_some_iff.1 hf
    simp only at hi
    split_ifs at hi
    simp [nz] at hi
  · intro l hl
    obtain ⟨f, hf, rfl⟩ := Option.map_eq_some_iff.1 hl
    simp
  · have := fin_x (n := n) s S
    simpa [Src.pick] using this
  · intro l hl i hi
    obtain ⟨f, hf, rfl⟩ := Option.map_eq_some_iff.1 hl
    rw [(fin_rest s S).1] at hf
    show ((S.keptRows s n).map (S.fin s n).weight)[i]? = _
    rw [hfw, List.getElem?_map]
    rw [List.getElem?_map] at hi
    cases hj : (S.keptRows s n)[i]? with
    | none => rw [hj] at hi; simp at hi
    | some j =>
      rw [hj] at hi
      simp only [Option.map_some, Option.some.injEq] at hi ⊢
      unfold Src.W
      rw [if_pos (Or.inr (Or.inr ⟨f, hf, hi⟩))]
  · intro hb
    have hw : (S.fin s n).w = none := by simpa using hb
    show some _ = some _
    congr 1
    rw [List.eq_replicate_iff]
    refine ⟨by simp, ?_⟩
    intro a ha
    obtain ⟨i, -, rfl⟩ := List.mem_map.1 ha
    simp [Src.weight, hw]
  · show npSum (arr n (S.W s)) = npSum ((S.keptRows s n).map (S.fin s n).weight)
    rw [hfw, hsum]

/-! ### Combining -/

theorem maskArr_mem {α : Type} {mask : Option (List Bool)} {l : List α} {a : α} (h : a ∈ maskArr mask l) : a ∈ l := by
  unfold maskArr at h
  cases mask with
  | none => exact h
  | some m =>
    obtain ⟨x, hx, rfl⟩ := List.mem_map.1 h
    exact (List.of_mem_zip (List.mem_filter.1 hx).1).2

theorem maskArr_length {α β : Type} {mask : Option (List Bool)} {l : List α} {l' : List β} (h : l.length = l'.length) :
    (maskArr mask l).length = (maskArr mask l').length := by
  unfold maskArr
  cases mask with
  | none => exact h
  | some m =>
    simp only [List.length_map]
    induction m generalizing l l' with
    | nil => simp
    | cons b m ih =>
      cases l with
      | nil =>
        have : l' = [] := List.length_eq_zero_iff.1 (by simpa using h.symm)
        subst this
        simp
      | cons a l =>
        cases l' with
        | nil => simp at h
        | cons a' l' =>
          have ih := ih (l := l) (l' := l') (by simpa using h)
          cases b <;> simp [List.filter_cons, ih]

theorem maskArr_rel {α β : Type} {Q : α → β → Prop} {mask : Option (List Bool)} {l : List α} {l' : List β} (h : List.Forall₂ Q l l') :
    List.Forall₂ Q (maskArr mask l) (maskArr mask l') := by
  unfold maskArr
  cases mask with
  | none => exact h
  | some m =>
    simp only
    induction m generalizing l l' with
    | nil => simp
    | cons b m ih =>
      cases h with
      | nil => simp
      | cons hab h =>
        have ih := ih h
        cases b <;> simp [List.filter_cons, ih, hab]

/-- The table with the columns of the keys. -/
def mkTab (keys : Keys) (a : Col → List (Option R)) (w p : List (Option R)) : Tab R :=
  ⟨fun c => if keys.col c then some (a c) else none, some w, if keys.wpos then some p else none, none, none⟩

/-- A catalogue can be appended. -/
def Fits (keys : Keys) (x : Cat R × Option (List Bool)) : Prop :=
  (∀ mask, x.2 = some mask → mask.length = x.1.tab.ntot) ∧ (∀ c, keys.col c = true → (x.1.tab.col c).isSome) ∧
    (keys.wpos = true → x.1.tab.wpos.isSome)

theorem fold_append (keys : Keys) (L : List (Cat R × Option (List Bool))) (hL : ∀ x ∈ L, Fits keys x) (a : Col → List (Option R))
    (w p : List (Option R)) :
    L.foldlM (appendCat keys) (mkTab keys a w p) = .ok (mkTab keys
      (fun c => a c ++ L.flatMap fun x => maskArr x.2 ((x.1.tab.col c).getD []))
      (w ++ L.flatMap fun x => maskArr x.2 (x.1.tab.w.getD [])) (p ++ L.flatMap fun x => maskArr x.2 (x.1.tab.wpos.getD []))) := by
  induction L generalizing a w p with
  | nil => simp [pure, Except.pure]
  | cons x L ih =>
    obtain ⟨h1, h2, h3⟩ := hL x (by simp)
    have e : appendCat keys (mkTab keys a w p) x = .ok (mkTab keys (fun c => a c ++ maskArr x.2 ((x.1.tab.col c).getD []))
        (w ++ maskArr x.2 (x.1.tab.w.getD [])) (p ++ maskArr x.2 (x.1.tab.wpos.getD []))) := by
      unfold appendCat
      rw [if_neg, if_neg]
      · congr 1
        unfold mkTab
        simp only [Option.getD_some, Tab.mk.injEq, and_true]
        refine ⟨?_, ?_⟩
        · funext c
          cases keys.col c <;> simp
        · cases keys.wpos <;> simp
      · simp only [Bool.or_eq_true, List.any_eq_true, Bool.and_eq_true, not_or, not_exists, not_and]
        refine ⟨?_, ?_⟩
        · intro c _ hc
          have := h2 c hc
          simp [Option.isNone_iff_eq_none, ← Option.isSome_iff_ne_none, this]
        · intro hc
          have := h3 hc
          simp [Option.isNone_iff_eq_none, ← Option.isSome_iff_ne_none, this]
      · cases hm : x.2 with
        | none => simp
        | some mask => simp [h1 mask hm]
    rw [List.foldlM_cons, e]
    have := ih (fun y hy => hL y (by simp [hy])) (fun c => a c ++ maskArr x.2 ((x.1.tab.col c).getD []))
      (w ++ maskArr x.2 (x.1.tab.w.getD [])) (p ++ maskArr x.2 (x.1.tab.wpos.getD []))
    simp only [bind, Except.bind]
    rw [this]
    simp only [List.append_assoc, List.flatMap_cons]

theorem zero_rel {t : Tab R} (h : Clean m t) {p : List (Option R)} (hp : t.wpos = some p) {w : List (Option R)} (hw : t.w = some w) :
    List.Forall₂ (fun a b => a = some 0 → b = some 0) p w := by
  rw [List.forall₂_iff_get]
  have hl : p.length = w.length := by rw [(h.wpos p hp).1, (h.w w hw).1]
  refine ⟨hl, ?_⟩
  intro i h1 h2 h3
  have hws : t.ws m = w := by simp [Tab.ws, hw]
  have := h.zero p hp i (by rw [List.getElem?_eq_getElem h1]; exact congrArg some h3)
  rw [hws, List.getElem?_eq_getElem h2] at this
  exact Option.some.inj this

theorem flatMap_rel {α β γ : Type} {Q : α → β → Prop} (L : List γ) (f : γ → List α) (g : γ → List β)
    (h : ∀ x ∈ L, List.Forall₂ Q (f x) (g x)) : List.Forall₂ Q (L.flatMap f) (L.flatMap g) := by
  induction L with
  | nil => exact .nil
  | cons x L ih =>
    rw [List.flatMap_cons, List.flatMap_cons]
    exact List.rel_append (h x (by simp)) (ih fun y hy => h y (by simp [hy]))

theorem flatMap_length_eq {α β γ : Type} (L : List γ) (f : γ → List α) (g : γ → List β)
    (h : ∀ x ∈ L, (f x).length = (g x).length) : (L.flatMap f).length = (L.flatMap g).length := by
  induction L with
  | nil => rfl
  | cons x L ih => simp only [List.flatMap_cons, List.length_append, h x (by simp), ih fun y hy => h y (by simp [hy])]

theorem lengthsOk_clean {t : Tab R} (h : Clean m t) (hm : 0 < m) : lengthsOk t = true := by
  obtain ⟨x, hx⟩ := Option.isSome_iff_exists.1 h.x
  have hxl := (h.col .x x hx).1
  unfold lengthsOk
  simp only [hx, Option.elim, hxl, Bool.and_eq_true, List.all_eq_true, decide_eq_true_eq]
  refine ⟨⟨⟨⟨?_, ?_⟩, ?_⟩, ?_⟩, by omega⟩
  · intro c _
    cases hc : t.col c with
    | none => rfl
    | some l => simp [(h.col c l hc).1]
  · cases hc : t.w with
    | none => rfl
    | some l => simp [(h.w l hc).1]
  · cases hc : t.wpos with
    | none => rfl
    | some l => simp [(h.wpos l hc).1]
  · cases hc : t.patch with
    | none => rfl
    | some l => simp [h.patch l hc]

end Catalog
end TreeCorr
