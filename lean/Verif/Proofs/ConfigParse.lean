import Verif.Spec.Config
import Verif.Proofs.Config

/-! Helper lemmas on the parsing of strings, and on merging. -/

namespace TreeCorr
namespace Config

theorem Forall₂_fixed {C : Conv} {P : Params} {d r : Dict}
    (h : List.Forall₂ (fun a b => checkItem C P a = .ok b) d r) (y : Str × Entry) (hy : y ∈ r) : checkItem C P y = .ok y := by
  induction h with
  | nil => simp at hy
  | @cons a b d r h1 h2 ih =>
    rcases List.mem_cons.1 hy with rfl | hy
    · have hb := checkItem_fst h1
      obtain ⟨ka, ea⟩ := a
      obtain ⟨kb, eb⟩ := y
      simp only at hb
      subst hb
      unfold checkItem at h1 ⊢
      cases hp : P.lookup kb with
      | none => simp only [hp] at h1; cases h1
      | some p =>
        simp only [hp] at h1 ⊢
        cases he : checkEntry C p ea with
        | error e => rw [he] at h1; cases h1
        | ok e =>
          rw [he] at h1
          simp only [Except.ok.injEq, Prod.mk.injEq, true_and] at h1
          subst h1
          rw [checkEntry_idem he]
    · exact ih hy

theorem mapM_error {α β : Type} {f : α → Except PyErr β} {l : List α} {err : PyErr} (h : l.mapM f = .error err) :
    ∃ x ∈ l, f x = .error err := by
  induction l with
  | nil => cases h
  | cons a l ih =>
    rw [List.mapM_cons] at h
    cases ha : f a with
    | error e => rw [ha] at h; cases h; exact ⟨a, by simp, ha⟩
    | ok b =>
      rw [ha] at h
      cases hl : l.mapM f with
      | error e =>
        rw [hl] at h; cases h
        obtain ⟨x, hx, he⟩ := ih hl
        exact ⟨x, List.mem_cons_of_mem _ hx, he⟩
      | ok bs => rw [hl] at h; cases h

theorem check_nodup {C : Conv} {P : Params} {d r : Dict} (nd : (d.map Prod.fst).Nodup)
    (h : checkConfig C P [] d = .ok r) : (r.map Prod.fst).Nodup := by
  rw [checkConfig_eq C P d nd] at h
  cases hm : d.mapM (checkItem C P) with
  | error e => rw [hm] at h; cases h
  | ok ys =>
    rw [hm] at h
    cases h
    exact defaults_nodup P ys (by rw [Forall₂_keys ((mapM_ok_iff _ _ _).1 hm)]; exact nd)

theorem dset_nodup (d : Dict) (k : Str) (e : Entry) (nd : (d.map Prod.fst).Nodup) : ((dset d k e).map Prod.fst).Nodup := by
  rw [dset_keys]
  split_ifs with h
  · exact nd
  · refine List.nodup_append.2 ⟨nd, by simp, ?_⟩
    rintro a ha b hb rfl
    simp at hb
    exact h (hb ▸ ha)

theorem mem_keys_iff {α : Type} {d : List (Str × α)} {k : Str} : k ∈ d.map Prod.fst ↔ (d.lookup k).isSome := by
  have := lookup_none_iff (d := d) (k := k)
  cases h : d.lookup k with
  | none => simpa using this.1 h
  | some e => simpa [h] using this

theorem mergeLoop (P : Params) (config kwargs : Dict) (hc : (config.map Prod.fst).Nodup) (hk : (kwargs.map Prod.fst).Nodup) :
    ((config.foldl (fun kw x => if x.1 ∈ P.map Prod.fst ∧ x.1 ∉ kw.map Prod.fst then dset kw x.1 x.2 else kw) kwargs).map
      Prod.fst).Nodup ∧
    ∀ k, (config.foldl (fun kw x => if x.1 ∈ P.map Prod.fst ∧ x.1 ∉ kw.map Prod.fst then dset kw x.1 x.2 else kw)
      kwargs).lookup k = given P config kwargs k := by
  induction config generalizing kwargs with
  | nil =>
    refine ⟨hk, fun k => ?_⟩
    simp only [List.foldl_nil]
    unfold given
    cases kwargs.lookup k <;> simp
  | cons x config ih =>
    obtain ⟨kx, ex⟩ := x
    simp only [List.map_cons, List.nodup_cons] at hc
    rw [List.foldl_cons]
    have key : ∀ k, given P config (if kx ∈ P.map Prod.fst ∧ kx ∉ kwargs.map Prod.fst then dset kwargs kx ex else kwargs) k =
        given P ((kx, ex) :: config) kwargs k := by
      intro k
      unfold given
      rw [List.lookup_cons]
      by_cases hkx : k = kx
      · subst hkx
        have hnone : config.lookup k = none := lookup_none_iff.2 hc.1
        simp only [mem_keys_iff, beq_self_eq_true, hnone]
        cases hP : P.lookup k with
        | none => simp only [Option.isSome_none, Bool.false_eq_true, false_and, if_false]
        | some p =>
          cases hkw : kwargs.lookup k with
          | none => simp [dset_lookup]
          | some e => simp [hkw]
      · have hb : (k == kx) = false := by simpa using hkx
        rw [hb]
        split_ifs with h1 <;> simp [dset_lookup, hkx]
    have nd : ((if kx ∈ P.map Prod.fst ∧ kx ∉ kwargs.map Prod.fst then dset kwargs kx ex else kwargs).map Prod.fst).Nodup := by
      split_ifs
      · exact dset_nodup _ _ _ hk
      · exact hk
    obtain ⟨h1, h2⟩ := ih _ hc.2 nd
    exact ⟨h1, fun k => by rw [h2, key]⟩

theorem filter_lookup {α : Type} (f : Str × α → Bool) (d : List (Str × α)) (nd : (d.map Prod.fst).Nodup) (k : Str) :
    (d.filter f).lookup k = (d.lookup k).filter fun e => f (k, e) := by
  induction d with
  | nil => rfl
  | cons x d ih =>
    obtain ⟨kx, ex⟩ := x
    simp only [List.map_cons, List.nodup_cons] at nd
    rw [List.filter_cons, List.lookup_cons]
    by_cases hk : k = kx
    · subst hk
      simp only [beq_self_eq_true, Option.filter_some]
      split_ifs with h
      · simp
      · rw [ih nd.2, lookup_none_iff.2 nd.1]; rfl
    · have hb : (k == kx) = false := by simpa using hk
      rw [hb]
      split_ifs with h
      · rw [List.lookup_cons, hb]; exact ih nd.2
      · exact ih nd.2

theorem minimal_restores_aux (C : Conv) (P : Params) (hP : (P.map Prod.fst).Nodup) (r : Dict) (nd : (r.map Prod.fst).Nodup)
    (h : checkConfig C P [] r = .ok r) :
    ∃ r', checkConfig C P [] (minimalConfig P r) = .ok r' ∧
      ∀ k, r'.lookup k = r.lookup k ∨
        (∃ v w, r.lookup k = some (.one v) ∧ r'.lookup k = some (.one w) ∧ pyEq v w = true) ∨
        (r.lookup k = some (.one .none) ∧ r'.lookup k = none) := by
  rw [checkConfig_eq C P r nd] at h
  cases hm : r.mapM (checkItem C P) with
  | error e => rw [hm] at h; cases h
  | ok ys =>
    rw [hm] at h
    simp only [Except.ok.injEq] at h
    have hf := (mapM_ok_iff _ _ _).1 hm
    have hlen : ys.length = r.length := hf.length_eq.symm
    have hdef : ∀ k p, P.lookup k = some p → p.default ≠ .none → (r.lookup k).isSome := by
      intro k p h1 h2
      rw [← h, ← mem_keys_iff, defaults_keys]
      exact .inr ⟨(k, p), lookup_mem h1, rfl, h2⟩
    have hfixed : ∀ x ∈ r, checkItem C P x = .ok x := by
      intro x hx
      rw [← h] at hx
      rcases defaults_mem P ys x hx with hx | ⟨p, h1, h2, h3⟩
      · exact Forall₂_fixed hf x hx
      · have hk : x.1 ∈ ys.map Prod.fst := by
          rw [Forall₂_keys hf, mem_keys_iff]
          exact hdef x.1 p (lookup_of_mem hP h1) h2
        obtain ⟨y, hy, hyx⟩ := List.mem_map.1 hk
        have : y = x := by
          have ndr := nd
          rw [← h] at ndr
          have hy' : y ∈ P.foldl addDefault ys := by
            have : (P.foldl addDefault ys).lookup y.1 = some y.2 := by
              rw [defaults_lookup P hP, if_pos (List.mem_map.2 ⟨y, hy, rfl⟩)]
              exact lookup_of_mem (by rw [Forall₂_keys hf]; exact nd) hy
            exact lookup_mem this
          have e1 := lookup_of_mem ndr (show (y.1, y.2) ∈ _ from hy')
          have e2 := lookup_of_mem ndr (show (x.1, x.2) ∈ _ from hx)
          rw [hyx, e2] at e1
          simp only [Option.some.injEq] at e1
          exact Prod.ext hyx e1.symm
        rw [← this]
        exact Forall₂_fixed hf y hy
    have ndm : ((minimalConfig P r).map Prod.fst).Nodup := by
      unfold minimalConfig
      exact (List.Sublist.map _ List.filter_sublist).nodup nd
    have hmm : (minimalConfig P r).mapM (checkItem C P) = .ok (minimalConfig P r) := by
      rw [mapM_ok_iff]
      refine List.forall₂_same.2 fun y hy => ?_
      exact hfixed y (List.mem_filter.1 hy).1
    rw [checkConfig_eq C P _ ndm, hmm]
    refine ⟨_, rfl, fun k => ?_⟩
    rw [defaults_lookup P hP]
    have hl : (minimalConfig P r).lookup k = _ := filter_lookup _ r nd k
    simp only [mem_keys_iff, hl]
    cases hr : r.lookup k with
    | none =>
      left
      simp only [Option.filter_none, Option.isSome_none, Bool.false_eq_true, if_false]
      cases hp : P.lookup k with
      | none => rfl
      | some p =>
        simp only
        rw [if_neg]
        intro hd
        have := hdef k p hp hd
        rw [hr] at this; cases this
    | some e =>
      have hit := hfixed (k, e) (lookup_mem hr)
      unfold checkItem at hit
      cases hp : P.lookup k with
      | none => simp only [hp] at hit; cases hit
      | some p =>
        simp only [Option.filter_some]
        cases e with
        | list l => left; simp
        | one v =>
          by_cases hv : pyEq v p.default = true
          · simp only [hv, Bool.not_true, Bool.false_eq_true, if_false, Option.isSome_none]
            by_cases hd : p.default = .none
            · right; right
              have : v = .none := by
                rw [hd] at hv
                unfold pyEq at hv
                cases v <;> simp [Val.num] at hv ⊢
              simp [this, hd]
            · right; left
              exact ⟨v, p.default, rfl, by simp [hd], hv⟩
          · left
            simp [hv]

/-! ### One entry -/

theorem filter_pyEq_str (valid : List Val) (nd : valid.Nodup) (s : Str) :
    valid.filter (pyEq (.str s)) = if Val.str s ∈ valid then [.str s] else [] := by
  have : valid.filter (pyEq (.str s)) = valid.filter (· == Val.str s) := by
    apply List.filter_congr
    intro u _
    by_cases h : u = .str s
    · simp [h, pyEq_refl]
    · have : pyEq (.str s) u = false := by
        rw [← Bool.not_eq_true, pyEq_str]; exact h
      rw [this]; simp [h]
  rw [this, List.filter_beq, List.Nodup.count nd]
  split_ifs <;> simp

theorem filter_singleton_iff (f : Val → Bool) (valid : List Val) (nd : valid.Nodup) (m : Val) :
    valid.filter f = [m] ↔ m ∈ valid ∧ f m = true ∧ ∀ u ∈ valid, f u = true → u = m := by
  constructor
  · intro h
    have : m ∈ valid.filter f := by rw [h]; simp
    refine ⟨(List.mem_filter.1 this).1, (List.mem_filter.1 this).2, fun u hu hf => ?_⟩
    have hu' : u ∈ valid.filter f := List.mem_filter.2 ⟨hu, hf⟩
    rw [h] at hu'
    simpa using hu'
  · rintro ⟨h1, h2, h3⟩
    have nd' : (valid.filter f).Nodup := nd.filter _
    have hm : m ∈ valid.filter f := List.mem_filter.2 ⟨h1, h2⟩
    have hall : ∀ u ∈ valid.filter f, u = m := fun u hu => h3 u (List.mem_filter.1 hu).1 (List.mem_filter.1 hu).2
    match hl : valid.filter f with
    | [] => rw [hl] at hm; simp at hm
    | [x] => rw [hl] at hall; rw [hall x (by simp)]
    | x :: y :: tl =>
      rw [hl] at hall nd'
      have := hall x (by simp)
      have := hall y (by simp)
      simp_all

theorem checkValid_iff (p : Param) (nd : ∀ valid, p.valid = some valid → valid.Nodup) (w m : Val) (hw : w.hasTy p.ty) :
    checkValid p (.one w) = .ok (.one m) ↔ Allowed p.ty p.valid w m := by
  unfold checkValid Allowed
  cases hv : p.valid with
  | none => simp [eq_comm]
  | some valid =>
    simp only
    by_cases hs : p.ty = .str
    · rw [if_pos hs, if_pos hs]
      rw [hs] at hw
      obtain ⟨s, rfl⟩ : ∃ s, w = .str s := by cases w <;> first | exact ⟨_, rfl⟩ | exact hw.elim
      have hnd := nd valid hv
      rw [filter_pyEq_str valid hnd]
      by_cases hin : Val.str s ∈ valid
      · simp only [if_pos hin]
        simp only [List.cons_ne_nil, if_false, Except.ok.injEq, Entry.one.injEq, Val.str.injEq]
        constructor
        · rintro rfl
          exact ⟨s, s, rfl, rfl, hin, .inl rfl⟩
        · rintro ⟨s', t, rfl, rfl, h1, h2⟩
          rcases h2 with rfl | h2
          · rfl
          · exact absurd hin h2.1
      · simp only [if_neg hin]
        simp only [if_true]
        have hiff := filter_singleton_iff (startsWith s) valid hnd m
        refine Iff.trans ?_ (hiff.trans ?_)
        · match valid.filter (startsWith s) with
          | [] => simp
          | [x] => simp
          | x :: y :: tl => simp
        constructor
        · rintro ⟨h1, h2, h3⟩
          cases m with
          | str t =>
            have ht : t <+: s := by simpa [startsWith] using h2
            refine ⟨s, t, rfl, rfl, h1, .inr ⟨hin, ht, fun t' ht' hp => ?_⟩⟩
            have := h3 _ ht' (by simpa [startsWith] using hp)
            simpa using this
          | _ => simp [startsWith] at h2
        · rintro ⟨s', t, hs', rfl, h1, h2⟩
          simp only [Val.str.injEq] at hs'
          subst hs'
          rcases h2 with rfl | ⟨-, h2, h3⟩
          · exact absurd h1 hin
          · refine ⟨h1, by simpa [startsWith] using h2, fun u hu hf => ?_⟩
            cases u with
            | str t' => rw [h3 t' hu (by simpa [startsWith] using hf)]
            | _ => simp [startsWith] at hf
    · rw [if_neg hs, if_neg hs]
      split_ifs with ha
      · rw [List.any_eq_true] at ha
        simp only [Except.ok.injEq, Entry.one.injEq]
        exact ⟨fun h => ⟨h.symm, ha⟩, fun h => h.1.symm⟩
      · simp only [reduceCtorEq, false_iff]
        rintro ⟨-, h⟩
        rw [List.any_eq_true] at ha
        exact ha h

theorem checkEntry_one_iff (C : Conv) (p : Param) (nd : ∀ valid, p.valid = some valid → valid.Nodup) (v m : Val) :
    checkEntry C p (.one v) = .ok (.one m) ↔ Becomes C p v m := by
  have hchk : ∀ w, parse C p.ty v = .ok w → w ≠ .none →
      (checkEntry C p (.one v) = .ok (.one m) ↔ Allowed p.ty p.valid w m) := by
    intro w hp hw
    rcases parse_typed hp with ⟨h, -⟩ | hty
    · exact absurd h hw
    · rw [← checkValid_iff p nd w m hty]
      unfold checkEntry
      simp only [hp]
  have hpar : ∀ w, w ≠ Val.none → (parse C p.ty v = .ok w ↔
      (if p.ty = .bool then parseBool v = .ok w else v ≠ .none ∧ C.conv p.ty v = .ok w)) := by
    intro w hw
    unfold parse
    split_ifs with h1 h2
    · rfl
    · simp only [Except.ok.injEq, h2, ne_eq, not_true, false_and, iff_false]
      exact fun h => hw h.symm
    · simp [h2]
  unfold Becomes
  cases hp : parse C p.ty v with
  | error err =>
    have : checkEntry C p (.one v) = .error err := by unfold checkEntry; simp only [hp]
    rw [this]
    simp only [reduceCtorEq, false_iff, not_or, not_exists]
    constructor
    · rintro ⟨rfl, hb, -⟩
      unfold parse at hp
      rw [if_neg hb, if_pos rfl] at hp
      cases hp
    · rintro w ⟨hw, hc, -⟩
      rw [← hpar w hw, hp] at hc
      cases hc
  | ok w =>
    by_cases hw : w = .none
    · subst hw
      rcases parse_typed hp with ⟨-, rfl, hb⟩ | hty
      · have : checkEntry C p (.one .none) = .ok (.one .none) := by unfold checkEntry; simp only [hp]
        rw [this]
        simp only [Except.ok.injEq, Entry.one.injEq, true_and]
        constructor
        · rintro rfl; exact .inl ⟨hb, rfl⟩
        · rintro (⟨-, rfl⟩ | ⟨w, hw, hc, -⟩)
          · rfl
          · rw [if_neg hb] at hc
            exact absurd rfl hc.1
      · exact absurd rfl (hasTy_ne_none hty)
    · rw [hchk w hp hw]
      constructor
      · intro h
        exact .inr ⟨w, hw, (hpar w hw).1 hp, h⟩
      · rintro (⟨rfl, hb, rfl⟩ | ⟨w', hw', hc, h⟩)
        · unfold parse at hp
          rw [if_neg hb, if_pos rfl] at hp
          cases hp
          exact absurd rfl hw
        · rw [← hpar w' hw', hp] at hc
          cases hc
          exact h

/-! ### Strings -/

theorem dropWhile_white (a s : Str) (ha : White a) (hs : ∀ c ∈ s.head?, c.isWhitespace = false) :
    (a ++ s).dropWhile Char.isWhitespace = s := by
  induction a with
  | nil =>
    cases s with
    | nil => rfl
    | cons c s => rw [List.nil_append, List.dropWhile_cons_of_neg]; simp [hs c (by simp)]
  | cons c a ih =>
    rw [List.cons_append, List.dropWhile_cons_of_pos (ha c (by simp))]
    exact ih fun x hx => ha x (List.mem_cons_of_mem _ hx)

theorem White.reverse {a : Str} (h : White a) : White a.reverse := fun c hc => h c (List.mem_reverse.1 hc)

theorem strip_pad (a w b : Str) (ha : White a) (hb : White b) (hw : Trimmed w) : strip (a ++ w ++ b) = w := by
  unfold strip
  by_cases hn : w = []
  · subst hn
    have hab : White (a ++ b) := by
      intro c hc
      rcases List.mem_append.1 hc with h | h
      · exact ha c h
      · exact hb c h
    have : (a ++ [] ++ b).dropWhile Char.isWhitespace = [] := by
      have := dropWhile_white (a ++ b) [] hab (by simp)
      simpa using this
    rw [this]; rfl
  · have h1 : (a ++ w ++ b).dropWhile Char.isWhitespace = w ++ b := by
      rw [List.append_assoc]
      apply dropWhile_white a _ ha
      intro c hc
      apply hw.1
      cases w with
      | nil => exact absurd rfl hn
      | cons x w => simpa using hc
    rw [h1, List.reverse_append, dropWhile_white _ _ hb.reverse, List.reverse_reverse]
    intro c hc
    rw [List.head?_reverse] at hc
    exact hw.2 c hc

theorem strip_decomp (s : Str) : ∃ a b, s = a ++ strip s ++ b ∧ White a ∧ White b ∧ Trimmed (strip s) := by
  have split : ∀ s : Str, ∃ a, s = a ++ s.dropWhile Char.isWhitespace ∧ White a ∧
      ∀ c ∈ (s.dropWhile Char.isWhitespace).head?, c.isWhitespace = false := by
    intro s
    refine ⟨s.takeWhile Char.isWhitespace, (List.takeWhile_append_dropWhile).symm, ?_, ?_⟩
    · intro c hc
      have := List.all_takeWhile (p := Char.isWhitespace) (l := s)
      rw [List.all_eq_true] at this
      exact this c hc
    · intro c hc
      have := List.head?_dropWhile_not Char.isWhitespace s
      rw [Option.mem_def] at hc
      rw [hc] at this
      simpa using this
  obtain ⟨a, h1, h2, h3⟩ := split s
  set t := s.dropWhile Char.isWhitespace with ht
  obtain ⟨b, h4, h5, h6⟩ := split t.reverse
  set u := t.reverse.dropWhile Char.isWhitespace with hu
  have hstrip : strip s = u.reverse := by unfold strip; rw [← ht, ← hu]
  have htu : t = u.reverse ++ b.reverse := by
    rw [← List.reverse_append, ← h4, List.reverse_reverse]
  refine ⟨a, b.reverse, ?_, h2, h5.reverse, ?_⟩
  · rw [hstrip, List.append_assoc, ← htu]; exact h1
  · rw [hstrip]
    constructor
    · intro c hc
      apply h3
      rw [htu]
      cases hur : u.reverse with
      | nil => rw [hur] at hc; simp at hc
      | cons x l => rw [hur] at hc; simpa using hc
    · intro c hc
      rw [List.getLast?_reverse] at hc
      exact h6 c hc

theorem strip_trimmed (s : Str) : Trimmed (strip s) := by
  obtain ⟨a, b, -, -, -, h⟩ := strip_decomp s; exact h

theorem white_toUpper (c : Char) (h : c.isWhitespace = true) : c.toUpper = c := by
  have : c = ' ' ∨ c = '\t' ∨ c = '\r' ∨ c = '\n' := by
    simpa [Char.isWhitespace, or_assoc] using h
  rcases this with rfl | rfl | rfl | rfl <;> rfl

theorem trimmed_of_upper {x w : Str} (h : upper x = w) (hw : ∀ c ∈ w, c.isWhitespace = false) : Trimmed x := by
  have key : ∀ c ∈ x, c.isWhitespace = false := by
    intro c hc
    by_contra hne
    have hwh : c.isWhitespace = true := by simpa using hne
    have hin : c ∈ w := by
      rw [← h, upper]
      exact List.mem_map.2 ⟨c, hc, white_toUpper c hwh⟩
    exact hne (hw c hin)
  exact ⟨fun c hc => key c (List.mem_of_mem_head? hc), fun c hc => key c (List.mem_of_mem_getLast? hc)⟩

theorem spelt_iff (w : Str) (hw : ∀ c ∈ w, c.isWhitespace = false) (s : Str) : upper (strip s) = w ↔ Spelt s w := by
  constructor
  · intro h
    obtain ⟨a, b, h1, h2, h3, -⟩ := strip_decomp s
    exact ⟨a, strip s, b, h1, h2, h3, h⟩
  · rintro ⟨a, x, b, rfl, ha, hb, hx⟩
    rw [strip_pad a x b ha hb (trimmed_of_upper hx hw)]
    exact hx

theorem spelt_mem (ws : List Str) (hw : ∀ w ∈ ws, ∀ c ∈ w, c.isWhitespace = false) (s : Str) :
    upper (strip s) ∈ ws ↔ ∃ w ∈ ws, Spelt s w := by
  constructor
  · intro h
    exact ⟨_, h, (spelt_iff _ (hw _ h) s).1 rfl⟩
  · rintro ⟨w, h1, h2⟩
    rw [(spelt_iff w (hw w h1) s).2 h2]; exact h1

theorem words_disjoint (w : Str) (h : w ∈ trueWords) : w ∉ falseWords := by
  revert w; decide

theorem parseBool_str_true (s : Str) : parseBool (.str s) = .ok (.bool true) ↔ upper (strip s) ∈ trueWords := by
  unfold parseBool
  simp only
  split_ifs with h1 h2
  · simp [h1]
  · simp [h1]
  · cases pyInt s <;> simp [h1]

theorem parseBool_str_false (s : Str) : parseBool (.str s) = .ok (.bool false) ↔ upper (strip s) ∈ falseWords := by
  unfold parseBool
  simp only
  split_ifs with h1 h2
  · simp [words_disjoint _ h1]
  · simp [h2]
  · cases pyInt s <;> simp [h2]

theorem digits_decimal (ds : Str) (h : ∀ c ∈ ds, c.isDigit = true) (acc : ℕ) (us : Bool) (hus : ds = [] → us = true) :
    digits acc us ds = some (ds.foldl (fun n c => 10 * n + (c.toNat - '0'.toNat)) acc) := by
  induction ds generalizing acc us with
  | nil => simp [digits, hus rfl]
  | cons c ds ih =>
    rw [digits, if_pos (h c (by simp)), ih (fun x hx => h x (List.mem_cons_of_mem _ hx)) _ _ (fun _ => rfl)]
    rfl

theorem digit_not_white (c : Char) (h : c.isDigit = true) : c.isWhitespace = false := by
  by_contra hne
  have hw : c.isWhitespace = true := by simpa using hne
  have : c = ' ' ∨ c = '\t' ∨ c = '\r' ∨ c = '\n' := by simpa [Char.isWhitespace, or_assoc] using hw
  rcases this with rfl | rfl | rfl | rfl <;> exact absurd h (by decide)

theorem digit_not_word (x : Str) (c : Char) (hc : c ∈ x) (hnot : c.toUpper ∉ "TRUEYSFALNO".toList) :
    upper x ∉ trueWords ∧ upper x ∉ falseWords := by
  have hin : c.toUpper ∈ upper x := List.mem_map.2 ⟨c, hc, rfl⟩
  have hall : ∀ w ∈ trueWords ++ falseWords, ∀ c ∈ w, c ∈ "TRUEYSFALNO".toList := by decide
  constructor
  · intro h; exact hnot (hall _ (List.mem_append_left _ h) _ hin)
  · intro h; exact hnot (hall _ (List.mem_append_right _ h) _ hin)

theorem digit_toUpper (c : Char) (h : c.isDigit = true) : c.toUpper ∉ "TRUEYSFALNO".toList := by
  have h2 : c.toUpper = c := by
    unfold Char.toUpper
    rw [dif_neg]
    intro hc
    simp only [Char.isDigit, Bool.and_eq_true, decide_eq_true_eq] at h
    have h3 := h.2
    have h4 := hc.1
    rw [UInt32.le_iff_toNat_le] at h4
    rw [UInt32.le_iff_toNat_le] at h3
    have : ('a'.val).toNat = 97 := rfl
    have : ('9'.val).toNat = 57 := rfl
    omega
  rw [h2]
  intro hin
  have : ∀ c ∈ "TRUEYSFALNO".toList, c.isDigit = false := by decide
  rw [this c hin] at h; cases h

theorem trimmed_cons_digits (pre ds : Str) (hd : ds ≠ []) (hds : ∀ c ∈ ds, c.isDigit = true)
    (hpre : ∀ c ∈ pre, c.isWhitespace = false) : Trimmed (pre ++ ds) := by
  have key : ∀ c ∈ pre ++ ds, c.isWhitespace = false := by
    intro c hc
    rcases List.mem_append.1 hc with h | h
    · exact hpre c h
    · exact digit_not_white c (hds c h)
  exact ⟨fun c hc => key c (List.mem_of_mem_head? hc), fun c hc => key c (List.mem_of_mem_getLast? hc)⟩

theorem parseBool_digits (a b ds : Str) (ha : White a) (hb : White b) (hd : ds ≠ []) (hds : ∀ c ∈ ds, c.isDigit = true) :
    parseBool (.str (a ++ ds ++ b)) = .ok (.int (decimal ds)) ∧
    parseBool (.str (a ++ '-' :: ds ++ b)) = .ok (.int (-(decimal ds : ℤ))) ∧
    parseBool (.str (a ++ '+' :: ds ++ b)) = .ok (.int (decimal ds)) := by
  obtain ⟨c, hc⟩ : ∃ c, c ∈ ds := by
    cases ds with
    | nil => exact absurd rfl hd
    | cons c ds => exact ⟨c, by simp⟩
  have hdig := digits_decimal ds hds 0 false (fun h => absurd h hd)
  have main : ∀ x : Str, Trimmed x → c ∈ x → ∀ n : ℤ,
      (match x with
        | '-' :: s => (digits 0 false s).map fun n => -(n : ℤ)
        | '+' :: s => (digits 0 false s).map fun n => (n : ℤ)
        | s => (digits 0 false s).map fun n => (n : ℤ)) = some n →
      parseBool (.str (a ++ x ++ b)) = .ok (.int n) := by
    intro x hx hcx n hn
    have hs := strip_pad a x b ha hb hx
    obtain ⟨h1, h2⟩ := digit_not_word x c hcx (digit_toUpper c (hds c hc))
    unfold parseBool
    simp only [hs, if_neg h1, if_neg h2]
    have : pyInt (a ++ x ++ b) = some n := by unfold pyInt; rw [hs]; exact hn
    rw [this]
  refine ⟨main ds (trimmed_cons_digits [] ds hd hds (by simp)) hc _ ?_,
    main ('-' :: ds) (trimmed_cons_digits ['-'] ds hd hds (by decide)) (List.mem_cons_of_mem _ hc) _ ?_,
    main ('+' :: ds) (trimmed_cons_digits ['+'] ds hd hds (by decide)) (List.mem_cons_of_mem _ hc) _ ?_⟩
  · cases ds with
    | nil => exact absurd rfl hd
    | cons x ds =>
      have hx := hds x (by simp)
      split
      · rename_i heq; cases heq; exact absurd hx (by decide)
      · rename_i heq; cases heq; exact absurd hx (by decide)
      · rw [hdig]; rfl
  · simp only [hdig]; rfl
  · simp only [hdig]; rfl

/-! ### Assignments -/

theorem splitOn1_ne_nil (c : Char) (s : Str) : splitOn1 c s ≠ [] := by
  cases s with
  | nil => simp [splitOn1]
  | cons x s =>
    rw [splitOn1]
    split_ifs
    · simp
    · split <;> simp

theorem splitOn1_no (c : Char) (s : Str) (h : c ∉ s) : splitOn1 c s = [s] := by
  induction s with
  | nil => rfl
  | cons x s ih =>
    simp only [List.mem_cons, not_or] at h
    rw [splitOn1, if_neg (Ne.symm h.1), ih h.2]

theorem splitOn1_append (c : Char) (s t : Str) (h : c ∉ s) : splitOn1 c (s ++ c :: t) = s :: splitOn1 c t := by
  induction s with
  | nil => rw [List.nil_append, splitOn1, if_pos rfl]
  | cons x s ih =>
    simp only [List.mem_cons, not_or] at h
    rw [List.cons_append, splitOn1, if_neg (Ne.symm h.1), ih h.2]

theorem splitOn1_intercalate (c : Char) (toks : List Str) (h : ∀ t ∈ toks, c ∉ t) (hne : toks ≠ []) :
    splitOn1 c ([c].intercalate toks) = toks := by
  induction toks with
  | nil => exact absurd rfl hne
  | cons t toks ih =>
    cases toks with
    | nil => simp only [List.intercalate_singleton]; exact splitOn1_no c t (h t (by simp))
    | cons u toks =>
      rw [List.intercalate_cons_cons, List.append_assoc, List.singleton_append, splitOn1_append c t _ (h t (by simp)),
        ih (fun x hx => h x (List.mem_cons_of_mem _ hx)) (by simp)]

theorem takeWhile_eq_append (p : Char → Bool) (s t : Str) (hs : ∀ c ∈ s, p c = true) (x : Char) (hx : p x = false) :
    (s ++ x :: t).takeWhile p = s ∧ (s ++ x :: t).dropWhile p = x :: t := by
  constructor
  · rw [List.takeWhile_append_of_pos hs, List.takeWhile_cons_of_neg (by simp [hx]), List.append_nil]
  · rw [List.dropWhile_append_of_pos hs, List.dropWhile_cons_of_neg (by simp [hx])]

/-- The two halves of an assignment, with the comment cut off. -/
theorem parse_split (left value comment : Str) (hl : '=' ∉ left) (hv : '#' ∉ value)
    (hcom : comment = [] ∨ ∃ t, comment = '#' :: t) :
    parseVariable (left ++ '=' :: (value ++ comment)) =
      match (strip value).head?, (strip value).getLast? with
      | some first, some last =>
        if first ∈ ['{', '[', '('] then
          if last ∉ ['}', ']', ')'] then .error .valueError
          else
            match (splitOn1 ',' ((strip value).drop 1).dropLast).map strip with
            | [x] => .ok (strip left, .one (.str x))
            | xs => .ok (strip left, .list (xs.map .str))
        else
          match words (strip value) with
          | [x] => .ok (strip left, .one (.str x))
          | xs => .ok (strip left, .list (xs.map .str))
      | _, _ => .error .indexError := by
  obtain ⟨h1, h2⟩ := takeWhile_eq_append (fun c => decide (c ≠ '=')) left (value ++ comment)
    (by intro c hc; simp; rintro rfl; exact hl hc) '=' (by simp)
  have hcut : (if '#' ∈ value ++ comment then (value ++ comment).takeWhile (fun c => decide (c ≠ '#')) else value ++ comment)
      = value := by
    rcases hcom with rfl | ⟨t, rfl⟩
    · rw [List.append_nil, if_neg hv]
    · rw [if_pos (by simp)]
      exact (takeWhile_eq_append (fun c => decide (c ≠ '#')) value t
        (by intro c hc; simp; rintro rfl; exact hv hc) '#' (by simp)).1
  unfold parseVariable
  rw [if_neg (by simp)]
  simp only [h1, h2, List.drop_succ_cons, List.drop_zero, hcut]
  rfl

theorem not_mem_white {a : Str} (h : White a) (c : Char) (hc : c.isWhitespace = false) : c ∉ a := by
  intro hin; rw [h c hin] at hc; cases hc

theorem not_mem_intercalate (c d : Char) (hcd : c ≠ d) (toks : List Str) (h : ∀ t ∈ toks, c ∉ t) :
    c ∉ [d].intercalate toks := by
  induction toks with
  | nil => simp
  | cons t toks ih =>
    cases toks with
    | nil => simpa using h t (by simp)
    | cons u toks =>
      rw [List.intercalate_cons_cons]
      simp only [List.mem_append, List.mem_singleton, not_or]
      exact ⟨⟨h t (by simp), hcd⟩, ih fun x hx => h x (List.mem_cons_of_mem _ hx)⟩

theorem parseVariable_list (key a b c d : Str) (o cl : Char) (toks : List Str) (comment : Str)
    (hkey : '=' ∉ key) (ha : White a) (hb : White b) (ho : o ∈ ['{', '[', '(']) (hcl : cl ∈ ['}', ']', ')'])
    (htok : ∀ t ∈ toks, ',' ∉ t ∧ '#' ∉ t) (hne : toks ≠ []) (hcom : comment = [] ∨ ∃ t, comment = '#' :: t)
    (hc : White c) (hd : White d) (hk : Trimmed key) :
    parseVariable (c ++ key ++ d ++ '=' :: (a ++ o :: ([','].intercalate toks ++ [cl]) ++ b ++ comment)) =
      .ok (key, match toks.map strip with
        | [x] => .one (.str x)
        | xs => .list (xs.map .str)) := by
  have how : o.isWhitespace = false ∧ o ≠ '#' := by
    simp only [List.mem_cons, List.not_mem_nil, or_false] at ho
    rcases ho with rfl | rfl | rfl <;> decide
  have hclw : cl.isWhitespace = false ∧ cl ≠ '#' := by
    simp only [List.mem_cons, List.not_mem_nil, or_false] at hcl
    rcases hcl with rfl | rfl | rfl <;> decide
  have hl : '=' ∉ c ++ key ++ d := by
    simp only [List.mem_append, not_or]
    exact ⟨⟨not_mem_white hc _ (by decide), hkey⟩, not_mem_white hd _ (by decide)⟩
  have hv : '#' ∉ a ++ o :: ([','].intercalate toks ++ [cl]) ++ b := by
    simp only [List.mem_append, List.mem_cons, List.not_mem_nil, or_false, not_or]
    exact ⟨⟨not_mem_white ha _ (by decide), how.2.symm, not_mem_intercalate _ _ (by decide) _ fun t ht => (htok t ht).2,
      hclw.2.symm⟩, not_mem_white hb _ (by decide)⟩
  have hs : strip (a ++ o :: ([','].intercalate toks ++ [cl]) ++ b) = o :: ([','].intercalate toks ++ [cl]) := by
    apply strip_pad _ _ _ ha hb
    constructor
    · intro x hx
      simp at hx; rw [← hx]; exact how.1
    · intro x hx
      rw [← List.cons_append, List.getLast?_concat] at hx
      simp at hx; rw [← hx]; exact hclw.1
  rw [parse_split _ _ comment hl hv hcom, hs, strip_pad c key d hc hd hk]
  have hlast : (o :: ([','].intercalate toks ++ [cl])).getLast? = some cl := by
    rw [← List.cons_append, List.getLast?_concat]
  simp only [List.head?_cons, hlast, if_pos ho, List.drop_succ_cons, List.drop_zero, List.dropLast_concat]
  rw [if_neg (not_not.2 hcl), splitOn1_intercalate ',' toks (fun t ht => (htok t ht).1) hne]
  match toks.map strip with
  | [] => rfl
  | [x] => rfl
  | x :: y :: tl => rfl

theorem wordsAux_white (s t : Str) (hs : White s) : wordsAux [] (s ++ t) = wordsAux [] t := by
  induction s with
  | nil => rfl
  | cons x s ih =>
    rw [List.cons_append, wordsAux, if_pos (hs x (by simp)), if_pos rfl]
    exact ih fun c hc => hs c (List.mem_cons_of_mem _ hc)

theorem wordsAux_word (w x t : Str) (hx : ∀ c ∈ x, c.isWhitespace = false) : wordsAux w (x ++ t) = wordsAux (w ++ x) t := by
  induction x generalizing w with
  | nil => simp
  | cons c x ih =>
    rw [List.cons_append, wordsAux, if_neg (by simp [hx c (by simp)]), ih _ fun y hy => hx y (List.mem_cons_of_mem _ hy)]
    simp

theorem words_flatMap (toks : List (Str × Str))
    (htok : ∀ t ∈ toks, t.1 ≠ [] ∧ (∀ x ∈ t.1, x.isWhitespace = false) ∧ White t.2 ∧ t.2 ≠ []) :
    words (toks.flatMap fun t => t.1 ++ t.2) = toks.map Prod.fst := by
  unfold words
  induction toks with
  | nil => rfl
  | cons t toks ih =>
    obtain ⟨h1, h2, h3, h4⟩ := htok t (by simp)
    rw [List.flatMap_cons, List.append_assoc, wordsAux_word _ _ _ h2, List.nil_append]
    obtain ⟨w, ws⟩ := t
    cases ws with
    | nil => exact absurd rfl h4
    | cons y ws =>
      simp only [List.cons_append]
      rw [wordsAux, if_pos (h3 y (by simp)), if_neg h1, wordsAux_white ws _ fun c hc => h3 c (List.mem_cons_of_mem _ hc),
        ih fun x hx => htok x (List.mem_cons_of_mem _ hx)]
      rfl

theorem wordsAux_trailing (w s b : Str) (hb : White b) : wordsAux w (s ++ b) = wordsAux w s := by
  induction s generalizing w with
  | nil =>
    cases b with
    | nil => rfl
    | cons x b =>
      have := wordsAux_white b [] fun c hc => hb c (List.mem_cons_of_mem _ hc)
      rw [List.append_nil] at this
      by_cases hw : w = []
      · subst hw
        simp [wordsAux, hb x (by simp), this]
      · simp [wordsAux, hw, hb x (by simp), this]
  | cons x s ih =>
    rw [List.cons_append, wordsAux, wordsAux, ih, ih]

theorem words_strip (s : Str) : words (strip s) = words s := by
  obtain ⟨a, b, h1, h2, h3, -⟩ := strip_decomp s
  conv_rhs => rw [h1]
  unfold words
  rw [wordsAux_trailing _ _ _ h3, wordsAux_white _ _ h2]

theorem parseVariable_words (key a c d : Str) (toks : List (Str × Str)) (comment : Str) (hkey : '=' ∉ key) (ha : White a)
    (htok : ∀ t ∈ toks, t.1 ≠ [] ∧ (∀ x ∈ t.1, x.isWhitespace = false) ∧ '#' ∉ t.1 ∧ White t.2 ∧ t.2 ≠ [])
    (hne : toks ≠ []) (hbr : ∀ t ∈ toks.head?, ∀ x ∈ t.1.head?, x ∉ ['{', '[', '('])
    (hcom : comment = [] ∨ ∃ t, comment = '#' :: t) (hc : White c) (hd : White d) (hk : Trimmed key) :
    parseVariable (c ++ key ++ d ++ '=' :: (a ++ (toks.flatMap fun t => t.1 ++ t.2) ++ comment)) =
      .ok (key, match toks.map Prod.fst with
        | [x] => .one (.str x)
        | xs => .list (xs.map .str)) := by
  have hl : '=' ∉ c ++ key ++ d := by
    simp only [List.mem_append, not_or]
    exact ⟨⟨not_mem_white hc _ (by decide), hkey⟩, not_mem_white hd _ (by decide)⟩
  have hv : '#' ∉ a ++ (toks.flatMap fun t => t.1 ++ t.2) := by
    simp only [List.mem_append, List.mem_flatMap, not_or, not_exists, not_and]
    refine ⟨not_mem_white ha _ (by decide), fun t ht => ⟨(htok t ht).2.2.1, not_mem_white (htok t ht).2.2.2.1 _ (by decide)⟩⟩
  have hw : words (strip (a ++ (toks.flatMap fun t => t.1 ++ t.2))) = toks.map Prod.fst := by
    rw [words_strip]
    unfold words
    rw [wordsAux_white _ _ ha]
    exact words_flatMap toks fun t ht => ⟨(htok t ht).1, (htok t ht).2.1, (htok t ht).2.2.2⟩
  obtain ⟨x, hx, hxb⟩ : ∃ x, (strip (a ++ (toks.flatMap fun t => t.1 ++ t.2))).head? = some x ∧ x ∉ ['{', '[', '('] := by
    cases toks with
    | nil => exact absurd rfl hne
    | cons t toks =>
      obtain ⟨h1, h2, -⟩ := htok t (by simp)
      obtain ⟨w, ws⟩ := t
      cases w with
      | nil => exact absurd rfl h1
      | cons x w =>
        refine ⟨x, ?_, hbr (x :: w, ws) (by simp) x (by simp)⟩
        have hdw : (a ++ (((x :: w, ws) :: toks).flatMap fun t => t.1 ++ t.2)).dropWhile Char.isWhitespace =
            x :: (w ++ ws ++ toks.flatMap fun t => t.1 ++ t.2) := by
          rw [dropWhile_white a _ ha]
          · simp
          · intro y hy
            simp at hy; rw [← hy]; exact h2 x (by simp)
        obtain ⟨b, hb⟩ : ∃ b, x :: (w ++ ws ++ toks.flatMap fun t => t.1 ++ t.2) =
            strip (a ++ (((x :: w, ws) :: toks).flatMap fun t => t.1 ++ t.2)) ++ b := by
          unfold strip
          rw [hdw]
          refine ⟨((x :: (w ++ ws ++ toks.flatMap fun t => t.1 ++ t.2)).reverse.takeWhile Char.isWhitespace).reverse, ?_⟩
          rw [← List.reverse_append, List.takeWhile_append_dropWhile, List.reverse_reverse]
        cases hst : strip (a ++ (((x :: w, ws) :: toks).flatMap fun t => t.1 ++ t.2)) with
        | nil => rw [hst] at hw; simp [words, wordsAux] at hw
        | cons y l =>
          rw [hst] at hb
          simp only [List.cons_append, List.cons.injEq] at hb
          rw [List.head?_cons, hb.1]
  have hlast : ∃ y, (strip (a ++ (toks.flatMap fun t => t.1 ++ t.2))).getLast? = some y := by
    cases hst : strip (a ++ (toks.flatMap fun t => t.1 ++ t.2)) with
    | nil => rw [hst] at hx; simp at hx
    | cons y l => exact ⟨_, List.getLast?_eq_some_getLast (by simp)⟩
  obtain ⟨y, hy⟩ := hlast
  rw [parse_split _ _ comment hl hv hcom, strip_pad c key d hc hd hk]
  simp only [hx, hy, if_neg hxb, hw]
  match toks.map Prod.fst with
  | [] => rfl
  | [x] => rfl
  | x :: y :: tl => rfl

end Config
end TreeCorr
