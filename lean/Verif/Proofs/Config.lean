import Verif.Model.Config
import Mathlib.Data.List.Nodup
import Mathlib.Tactic.Linarith

/-! Helper lemmas on configurations. -/

namespace TreeCorr
namespace Config

theorem lookup_mem {α : Type} {d : List (Str × α)} {k : Str} {e : α} (h : d.lookup k = some e) : (k, e) ∈ d := by
  induction d with
  | nil => simp at h
  | cons x d ih =>
    obtain ⟨k', e'⟩ := x
    rw [List.lookup_cons] at h
    by_cases hk : k = k'
    · subst hk
      simp at h; simp [h]
    · have : (k == k') = false := by simpa using hk
      rw [this] at h
      exact List.mem_cons_of_mem _ (ih h)

theorem lookup_of_mem {α : Type} {d : List (Str × α)} (nd : (d.map Prod.fst).Nodup) {k : Str} {e : α}
    (h : (k, e) ∈ d) : d.lookup k = some e := by
  induction d with
  | nil => simp at h
  | cons x d ih =>
    obtain ⟨k', e'⟩ := x
    simp only [List.map_cons, List.nodup_cons] at nd
    rw [List.lookup_cons]
    rcases List.mem_cons.1 h with e | e
    · cases e; simp
    · have : k ≠ k' := by
        rintro rfl
        exact nd.1 (List.mem_map.2 ⟨_, e, rfl⟩)
      have : (k == k') = false := by simpa using this
      rw [this]
      exact ih nd.2 e

theorem lookup_none_iff {α : Type} {d : List (Str × α)} {k : Str} : d.lookup k = none ↔ k ∉ d.map Prod.fst := by
  induction d with
  | nil => simp
  | cons x d ih =>
    obtain ⟨k', i'⟩ := x
    rw [List.lookup_cons]
    by_cases e : k = k'
    · simp [e]
    · have : (k == k') = false := by simpa using e
      rw [this]
      simp only [List.map_cons, List.mem_cons, not_or]
      exact ⟨fun h => ⟨e, ih.1 h⟩, fun h => ih.2 h.2⟩

theorem lookup_append_none {α : Type} {d d' : List (Str × α)} {k : Str} (h : k ∉ d.map Prod.fst) :
    (d ++ d').lookup k = d'.lookup k := by
  induction d with
  | nil => rfl
  | cons x d ih =>
    obtain ⟨k', i'⟩ := x
    simp only [List.map_cons, List.mem_cons, not_or] at h
    have : (k == k') = false := by simpa using h.1
    rw [List.cons_append, List.lookup_cons, this]
    exact ih h.2

theorem lookup_append_some {α : Type} {d d' : List (Str × α)} {k : Str} (h : k ∈ d.map Prod.fst) :
    (d ++ d').lookup k = d.lookup k := by
  induction d with
  | nil => simp at h
  | cons x d ih =>
    obtain ⟨k', i'⟩ := x
    rw [List.cons_append, List.lookup_cons, List.lookup_cons]
    by_cases e : k = k'
    · simp [e]
    · have h2 : (k == k') = false := by simpa using e
      rw [h2]
      simp only [List.map_cons, List.mem_cons] at h
      exact ih (h.resolve_left e)

theorem dset_lookup (d : Dict) (k j : Str) (e : Entry) :
    (dset d k e).lookup j = if j = k then some e else d.lookup j := by
  unfold dset
  split_ifs with h1 h2 h2
  · subst h2
    induction d with
    | nil => simp at h1
    | cons x d ih =>
      obtain ⟨k', i'⟩ := x
      by_cases hk : k' = j
      · simp [hk]
      · have h3 : (j == k') = false := by simpa using (Ne.symm hk)
        have h4 : j ∈ d.map Prod.fst := by
          simp only [List.map_cons, List.mem_cons] at h1
          exact h1.resolve_left (Ne.symm hk)
        simp only [List.map_cons, if_neg hk, List.lookup_cons, h3]
        exact ih h4
  · clear h1
    induction d with
    | nil => rfl
    | cons x d ih =>
      obtain ⟨k', i'⟩ := x
      rw [List.map_cons]
      by_cases hk : k' = k
      · have h3 : (j == k) = false := by simpa using h2
        simp only [hk, if_true, List.lookup_cons, h3]
        exact ih
      · simp only [if_neg hk, List.lookup_cons]
        split
        · rfl
        · exact ih
  · subst h2
    rw [lookup_append_none h1]; simp
  · have h3 : (j == k) = false := by simpa using h2
    by_cases hj : j ∈ d.map Prod.fst
    · rw [lookup_append_some hj]
    · rw [lookup_append_none hj, List.lookup_cons, h3, (lookup_none_iff).2 hj]; rfl

theorem dset_keys (d : Dict) (k : Str) (e : Entry) :
    (dset d k e).map Prod.fst = if k ∈ d.map Prod.fst then d.map Prod.fst else d.map Prod.fst ++ [k] := by
  unfold dset
  split_ifs with h
  · rw [List.map_map]
    apply List.map_congr_left
    intro x _
    simp only [Function.comp]
    split_ifs with h2
    · exact h2.symm
    · rfl
  · simp

/-- The loop body on one item. -/
def checkItem (C : Conv) (P : Params) (x : Str × Entry) : Except PyErr (Str × Entry) :=
  match P.lookup x.1 with
  | none => .error .typeError
  | some p =>
    match checkEntry C p x.2 with
    | .ok e => .ok (x.1, e)
    | .error err => .error err

theorem rename_nil (d : Dict) (k : Str) : rename [] d k = (d, k) := rfl

theorem checkKey_at (C : Conv) (P : Params) (pre suf : Dict) (x : Str × Entry)
    (nd : ((pre ++ x :: suf).map Prod.fst).Nodup) :
    checkKey C P [] (pre ++ x :: suf) x.1 =
      match checkItem C P x with
      | .ok y => .ok (pre ++ y :: suf)
      | .error e => .error e := by
  obtain ⟨k, e⟩ := x
  have hl : (pre ++ (k, e) :: suf).lookup k = some e := lookup_of_mem nd (by simp)
  unfold checkKey checkItem
  rw [rename_nil]
  simp only [hl]
  cases P.lookup k with
  | none => rfl
  | some p =>
    simp only
    cases checkEntry C p e with
    | error err => rfl
    | ok e' =>
      simp only
      congr 1
      unfold dset
      rw [if_pos (by simp)]
      rw [List.map_append, List.map_cons, List.nodup_append, List.nodup_cons] at nd
      have h1 : pre.map (fun x => if x.1 = k then (k, e') else x) = pre := by
        conv_rhs => rw [← List.map_id pre]
        apply List.map_congr_left
        intro y hy
        rw [if_neg]; rfl
        intro h
        exact nd.2.2 y.1 (List.mem_map.2 ⟨y, hy, rfl⟩) k (by simp) h
      have h2 : suf.map (fun x => if x.1 = k then (k, e') else x) = suf := by
        conv_rhs => rw [← List.map_id suf]
        apply List.map_congr_left
        intro y hy
        rw [if_neg]; rfl
        intro h
        exact nd.2.1.1 (List.mem_map.2 ⟨y, hy, h⟩)
      rw [List.map_append, List.map_cons, h1, h2]
      simp

theorem checkItem_fst {C : Conv} {P : Params} {x y : Str × Entry} (h : checkItem C P x = .ok y) : y.1 = x.1 := by
  unfold checkItem at h
  cases hp : P.lookup x.1 with
  | none => rw [hp] at h; cases h
  | some p =>
    rw [hp] at h
    simp only at h
    cases he : checkEntry C p x.2 with
    | error e => rw [he] at h; cases h
    | ok e => rw [he] at h; cases h; rfl

theorem checkLoop (C : Conv) (P : Params) (suf pre : Dict) (nd : ((pre ++ suf).map Prod.fst).Nodup) :
    (suf.map Prod.fst).foldlM (checkKey C P []) (pre ++ suf) =
      match suf.mapM (checkItem C P) with
      | .ok ys => .ok (pre ++ ys)
      | .error e => .error e := by
  induction suf generalizing pre with
  | nil => simp [pure, Except.pure]
  | cons x suf ih =>
    rw [List.map_cons, List.foldlM_cons, checkKey_at C P pre suf x nd, List.mapM_cons]
    cases h : checkItem C P x with
    | error e => rfl
    | ok y =>
      have hy := checkItem_fst h
      have e1 : pre ++ y :: suf = (pre ++ [y]) ++ suf := by simp
      have nd' : (((pre ++ [y]) ++ suf).map Prod.fst).Nodup := by
        simpa [hy] using nd
      show (suf.map Prod.fst).foldlM (checkKey C P []) (pre ++ y :: suf) = _
      rw [e1, ih _ nd']
      cases suf.mapM (checkItem C P) with
      | error e => rfl
      | ok ys => simp [bind, Except.bind, pure, Except.pure]

/-- The check without aliases: every item is checked, then the defaults are added. -/
theorem checkConfig_eq (C : Conv) (P : Params) (d : Dict) (nd : (d.map Prod.fst).Nodup) :
    checkConfig C P [] d =
      match d.mapM (checkItem C P) with
      | .ok ys => .ok (P.foldl addDefault ys)
      | .error e => .error e := by
  have := checkLoop C P d [] (by simpa using nd)
  rw [List.nil_append] at this
  unfold checkConfig
  rw [this]
  cases d.mapM (checkItem C P) <;> rfl

theorem mapM_ok_iff {α β : Type} (f : α → Except PyErr β) (l : List α) (r : List β) :
    l.mapM f = .ok r ↔ List.Forall₂ (fun a b => f a = .ok b) l r := by
  induction l generalizing r with
  | nil => cases r <;> simp [pure, Except.pure]
  | cons a l ih =>
    rw [List.mapM_cons]
    cases h : f a with
    | error e =>
      constructor
      · intro h'; cases h'
      · intro h'; cases h' with | cons h1 h2 => rw [h] at h1; cases h1
    | ok b =>
      cases h2 : l.mapM f with
      | error e =>
        constructor
        · intro h'; cases h'
        · intro h'
          cases h' with
          | cons h3 h4 => rw [(ih _).2 h4] at h2; cases h2
      | ok bs =>
        have e1 : ((do let b ← Except.ok b; let bs ← Except.ok bs; pure (b :: bs)) : Except PyErr (List β)) = .ok (b :: bs) := rfl
        constructor
        · intro h'
          have : r = b :: bs := by
            have h'' : (Except.ok (b :: bs) : Except PyErr (List β)) = .ok r := h'
            cases h''; rfl
          subst this
          exact .cons h ((ih bs).1 h2)
        · intro h'
          cases h' with
          | cons h3 h4 =>
            rw [h] at h3; cases h3
            have := (ih _).2 h4
            rw [h2] at this; cases this
            rfl

theorem mapM_isOk_iff {α β : Type} (f : α → Except PyErr β) (l : List α) :
    (∃ r, l.mapM f = .ok r) ↔ ∀ a ∈ l, ∃ b, f a = .ok b := by
  constructor
  · rintro ⟨r, h⟩ a ha
    rw [mapM_ok_iff] at h
    induction h with
    | nil => simp at ha
    | cons h1 h2 ih =>
      rcases List.mem_cons.1 ha with rfl | h
      · exact ⟨_, h1⟩
      · exact ih h
  · intro h
    induction l with
    | nil => exact ⟨[], rfl⟩
    | cons a l ih =>
      obtain ⟨b, hb⟩ := h a (by simp)
      obtain ⟨r, hr⟩ := ih fun x hx => h x (List.mem_cons_of_mem _ hx)
      exact ⟨b :: r, (mapM_ok_iff _ _ _).2 (.cons hb ((mapM_ok_iff _ _ _).1 hr))⟩

theorem addDefault_keys (d : Dict) (x : Str × Param) (k : Str) :
    k ∈ (addDefault d x).map Prod.fst ↔ k ∈ d.map Prod.fst ∨ (k = x.1 ∧ x.2.default ≠ .none) := by
  unfold addDefault
  split_ifs with h1 h2
  · constructor
    · exact .inl
    · rintro (h | ⟨rfl, _⟩); exact h; exact h1
  · simp [h2]
  · rw [dset_keys, if_neg h1]; simp [h2]

theorem addDefault_lookup (d : Dict) (x : Str × Param) (k : Str) :
    (addDefault d x).lookup k =
      if k ∈ d.map Prod.fst then d.lookup k
      else if k = x.1 ∧ x.2.default ≠ .none then some (.one x.2.default) else none := by
  unfold addDefault
  by_cases h1 : x.1 ∈ d.map Prod.fst
  · rw [if_pos h1]
    split_ifs with h2 h3
    · rfl
    · exact absurd (h3.1 ▸ h1) h2
    · exact lookup_none_iff.2 h2
  · rw [if_neg h1]
    by_cases h2 : x.2.default = .none
    · rw [if_pos h2]
      split_ifs with h3 h4
      · rfl
      · exact absurd h2 h4.2
      · exact lookup_none_iff.2 h3
    · rw [if_neg h2, dset_lookup]
      split_ifs with h3 h4 h5 h6
      · exact absurd (h3 ▸ h4) h1
      · rfl
      · exact absurd ⟨h3, h2⟩ h5
      · rfl
      · exact absurd ‹_ ∧ _›.1 h3
      · exact lookup_none_iff.2 h6

theorem defaults_lookup (P : Params) (nd : (P.map Prod.fst).Nodup) (d : Dict) (k : Str) :
    (P.foldl addDefault d).lookup k =
      if k ∈ d.map Prod.fst then d.lookup k
      else match P.lookup k with
        | some p => if p.default ≠ .none then some (.one p.default) else none
        | none => none := by
  induction P generalizing d with
  | nil =>
    simp only [List.foldl_nil, List.lookup_nil]
    split_ifs with h
    · rfl
    · exact lookup_none_iff.2 h
  | cons x P ih =>
    obtain ⟨kx, p⟩ := x
    simp only [List.map_cons, List.nodup_cons] at nd
    rw [List.foldl_cons, ih nd.2]
    by_cases h1 : k ∈ d.map Prod.fst
    · rw [if_pos h1, if_pos ((addDefault_keys _ _ _).2 (.inl h1)), addDefault_lookup, if_pos h1]
    · rw [if_neg h1, List.lookup_cons]
      by_cases hk : k = kx
      · subst hk
        simp only [beq_self_eq_true]
        by_cases hd : p.default = .none
        · rw [if_neg (by rw [addDefault_keys]; simp [h1, hd]), lookup_none_iff.2 nd.1]
          simp [hd]
        · rw [if_pos (by rw [addDefault_keys]; simp [hd]), addDefault_lookup, if_neg h1, if_pos ⟨rfl, hd⟩, if_pos hd]
      · have hb : (k == kx) = false := by simpa using hk
        rw [hb]
        rw [if_neg (by rw [addDefault_keys]; simp [h1, hk])]

theorem defaults_keys (P : Params) (d : Dict) (k : Str) :
    k ∈ (P.foldl addDefault d).map Prod.fst ↔
      k ∈ d.map Prod.fst ∨ ∃ x ∈ P, x.1 = k ∧ x.2.default ≠ .none := by
  induction P generalizing d with
  | nil => simp
  | cons x P ih =>
    rw [List.foldl_cons, ih, addDefault_keys]
    simp only [List.mem_cons, exists_eq_or_imp]
    constructor
    · rintro ((h | h) | h)
      · exact .inl h
      · exact .inr (.inl ⟨h.1.symm, h.2⟩)
      · exact .inr (.inr h)
    · rintro (h | h | h)
      · exact .inl (.inl h)
      · exact .inl (.inr ⟨h.1.symm, h.2⟩)
      · exact .inr h

theorem addDefault_nodup (d : Dict) (x : Str × Param) (nd : (d.map Prod.fst).Nodup) :
    ((addDefault d x).map Prod.fst).Nodup := by
  unfold addDefault
  split_ifs with h1 h2
  · exact nd
  · exact nd
  · rw [dset_keys, if_neg h1]
    refine List.nodup_append.2 ⟨nd, by simp, ?_⟩
    rintro a ha b hb rfl
    simp at hb
    exact h1 (hb ▸ ha)

theorem defaults_nodup (P : Params) (d : Dict) (nd : (d.map Prod.fst).Nodup) :
    ((P.foldl addDefault d).map Prod.fst).Nodup := by
  induction P generalizing d with
  | nil => exact nd
  | cons x P ih => exact ih _ (addDefault_nodup d x nd)

theorem defaults_mem (P : Params) (d : Dict) (y : Str × Entry) :
    y ∈ P.foldl addDefault d → y ∈ d ∨ ∃ p, (y.1, p) ∈ P ∧ p.default ≠ .none ∧ y.2 = .one p.default := by
  induction P generalizing d with
  | nil => exact .inl
  | cons x P ih =>
    intro h
    rcases ih _ h with h | ⟨p, h1, h2⟩
    · unfold addDefault at h
      split_ifs at h with h1 h2
      · exact .inl h
      · exact .inl h
      · unfold dset at h
        rw [if_neg h1] at h
        rcases List.mem_append.1 h with h | h
        · exact .inl h
        · rw [List.mem_singleton] at h
          subst h
          exact .inr ⟨x.2, by simp, h2, rfl⟩
    · exact .inr ⟨p, List.mem_cons_of_mem _ h1, h2⟩

theorem defaults_id (P : Params) (d : Dict) (h : ∀ x ∈ P, x.2.default ≠ .none → x.1 ∈ d.map Prod.fst) :
    P.foldl addDefault d = d := by
  induction P with
  | nil => rfl
  | cons x P ih =>
    rw [List.foldl_cons]
    have : addDefault d x = d := by
      unfold addDefault
      split_ifs with h1 h2
      · rfl
      · rfl
      · exact absurd (h x (by simp) h2) h1
    rw [this]
    exact ih fun y hy => h y (List.mem_cons_of_mem _ hy)

theorem Forall₂_keys {C : Conv} {P : Params} {d r : Dict}
    (h : List.Forall₂ (fun a b => checkItem C P a = .ok b) d r) : r.map Prod.fst = d.map Prod.fst := by
  induction h with
  | nil => rfl
  | cons h1 h2 ih => rw [List.map_cons, List.map_cons, ih, checkItem_fst h1]

theorem Forall₂_lookup {C : Conv} {P : Params} {d r : Dict}
    (h : List.Forall₂ (fun a b => checkItem C P a = .ok b) d r) (k : Str) (e : Entry) (hk : d.lookup k = some e) :
    ∃ p e', P.lookup k = some p ∧ checkEntry C p e = .ok e' ∧ r.lookup k = some e' := by
  induction h with
  | nil => simp at hk
  | @cons a b d r h1 h2 ih =>
    obtain ⟨ka, ea⟩ := a
    have hb := checkItem_fst h1
    obtain ⟨kb, eb⟩ := b
    simp only at hb
    subst hb
    rw [List.lookup_cons] at hk ⊢
    by_cases hkk : k = kb
    · subst hkk
      simp only [beq_self_eq_true, Option.some.injEq] at hk ⊢
      subst hk
      unfold checkItem at h1
      cases hp : P.lookup k with
      | none => simp only [hp] at h1; cases h1
      | some p =>
        simp only [hp] at h1
        cases he : checkEntry C p ea with
        | error e => rw [he] at h1; cases h1
        | ok e =>
          rw [he] at h1
          simp only [Except.ok.injEq, Prod.mk.injEq, true_and] at h1
          exact ⟨p, e, rfl, he, by rw [h1]⟩
    · have hb : (k == kb) = false := by simpa using hkk
      rw [hb] at hk ⊢
      exact ih hk

theorem parseBool_typed {v w : Val} (h : parseBool v = .ok w) : w.hasTy .bool ∧ parseBool w = .ok w := by
  cases v with
  | none => cases h
  | bool b => cases h; exact ⟨trivial, rfl⟩
  | int n => cases h; exact ⟨trivial, rfl⟩
  | float x => cases h
  | str s =>
    unfold parseBool at h
    simp only at h
    split_ifs at h
    · cases h; exact ⟨trivial, rfl⟩
    · cases h; exact ⟨trivial, rfl⟩
    · cases hp : pyInt s with
      | none => simp only [hp] at h; cases h
      | some n => simp only [hp] at h; cases h; exact ⟨trivial, rfl⟩

theorem hasTy_ne_none {v : Val} {t : Ty} (h : v.hasTy t) : v ≠ .none := by
  rintro rfl; cases t <;> exact h

theorem parse_typed {C : Conv} {t : Ty} {v w : Val} (h : parse C t v = .ok w) :
    (w = .none ∧ v = .none ∧ t ≠ .bool) ∨ w.hasTy t := by
  unfold parse at h
  split_ifs at h with h1 h2
  · subst h1; exact .inr (parseBool_typed h).1
  · cases h; exact .inl ⟨rfl, h2, h1⟩
  · exact .inr (C.typed t v w h1 h)

theorem parse_hasTy {C : Conv} {t : Ty} {v : Val} (h : v.hasTy t) : parse C t v = .ok v := by
  unfold parse
  split_ifs with h1 h2
  · subst h1
    cases v <;> first | rfl | exact h.elim
  · exact absurd h2 (hasTy_ne_none h)
  · exact C.fixed t v h1 h

theorem parse_idem {C : Conv} {t : Ty} {v w : Val} (h : parse C t v = .ok w) : parse C t w = .ok w := by
  rcases parse_typed h with ⟨rfl, _, hb⟩ | h
  · unfold parse; rw [if_neg hb, if_pos rfl]
  · exact parse_hasTy h

theorem pyEq_refl (v : Val) : pyEq v v = true := by
  unfold pyEq; cases v <;> simp [Val.num]

theorem pyEq_str {s : Str} {v : Val} : pyEq (.str s) v = true ↔ v = .str s := by
  unfold pyEq
  cases v <;> simp [Val.num, eq_comm]

/-- The result of the check against the allowed values passes the check unchanged, and is a typed value. -/
theorem checkValid_one {p : Param} {v : Val} {e : Entry} (hv : v.hasTy p.ty) (h : checkValid p (.one v) = .ok e) :
    ∃ w, e = .one w ∧ w.hasTy p.ty ∧ checkValid p (.one w) = .ok (.one w) ∧
      ∀ valid, p.valid = some valid → ∃ u ∈ valid, pyEq w u = true := by
  unfold checkValid at h
  cases hval : p.valid with
  | none =>
    simp only [hval] at h
    cases h
    exact ⟨v, rfl, hv, by unfold checkValid; simp only [hval], by simp⟩
  | some valid =>
    simp only [hval] at h
    by_cases hs : p.ty = .str
    · rw [if_pos hs] at h
      rw [hs] at hv
      obtain ⟨s, rfl⟩ : ∃ s, v = .str s := by cases v <;> first | exact ⟨_, rfl⟩ | exact hv.elim
      simp only at h
      set matching := if valid.filter (pyEq (.str s)) = [] then valid.filter (startsWith s)
        else valid.filter (pyEq (.str s)) with hm
      have hsub : ∀ m, matching = [m] → (∃ t, m = .str t) ∧ m ∈ valid ∧ (valid.filter (pyEq m)) = [m] := by
        intro m hmm
        have hin : m ∈ matching := by rw [hmm]; simp
        have key : ∃ t, m = .str t ∧ m ∈ valid ∧ ∀ u ∈ valid, pyEq m u = true → u ∈ matching := by
          rw [hm] at hin ⊢
          split_ifs at hin ⊢ with he
          · obtain ⟨h1, h2⟩ := List.mem_filter.1 hin
            cases m with
            | str t =>
              refine ⟨t, rfl, h1, fun u hu he => ?_⟩
              rw [pyEq_str] at he
              rw [he]; exact hin
            | _ => simp [startsWith] at h2
          · obtain ⟨h1, h2⟩ := List.mem_filter.1 hin
            rw [pyEq_str] at h2
            subst h2
            exact ⟨s, rfl, h1, fun u hu he => List.mem_filter.2 ⟨hu, he⟩⟩
        obtain ⟨t, rfl, hv', hall⟩ := key
        refine ⟨⟨t, rfl⟩, hv', ?_⟩
        have hsubl : (valid.filter (pyEq (.str t))).Sublist matching := by
          rw [hm] at hall ⊢
          split_ifs at hall ⊢ with he
          · have : valid.filter (pyEq (.str t)) = (valid.filter (startsWith s)).filter (pyEq (.str t)) := by
              rw [List.filter_filter]
              apply List.filter_congr
              intro u hu
              by_cases hp : pyEq (.str t) u = true
              · have := (List.mem_filter.1 (hall u hu hp)).2
                simp [hp, this]
              · simp [hp]
            rw [this]; exact List.filter_sublist
          · have : valid.filter (pyEq (.str t)) = (valid.filter (pyEq (.str s))).filter (pyEq (.str t)) := by
              rw [List.filter_filter]
              apply List.filter_congr
              intro u hu
              by_cases hp : pyEq (.str t) u = true
              · have := (List.mem_filter.1 (hall u hu hp)).2
                simp [hp, this]
              · simp [hp]
            rw [this]; exact List.filter_sublist
        rw [hmm] at hsubl
        have hmem : Val.str t ∈ valid.filter (pyEq (.str t)) := List.mem_filter.2 ⟨hv', pyEq_refl _⟩
        rcases List.sublist_singleton.1 hsubl with h | h
        · rw [h] at hmem; simp at hmem
        · exact h
      cases hmm : matching with
      | nil => rw [hmm] at h; cases h
      | cons m tl =>
        cases tl with
        | cons _ _ => rw [hmm] at h; cases h
        | nil =>
        rw [hmm] at h
        cases h
        obtain ⟨⟨t, rfl⟩, h2, h3⟩ := hsub m hmm
        refine ⟨_, rfl, by rw [hs]; trivial, ?_, ?_⟩
        · unfold checkValid
          simp only [hval, if_pos hs, h3]
          simp
        · intro valid' he
          cases he
          exact ⟨_, h2, pyEq_refl _⟩
    · rw [if_neg hs] at h
      split_ifs at h with ha
      cases h
      refine ⟨v, rfl, hv, ?_, ?_⟩
      · unfold checkValid
        simp only [hval, if_neg hs, if_pos ha]
      · intro valid' he
        cases he
        simpa using ha

/-- Checking a checked value changes nothing. -/
theorem checkEntry_idem {C : Conv} {p : Param} {e e' : Entry} (h : checkEntry C p e = .ok e') :
    checkEntry C p e' = .ok e' := by
  have one : ∀ v w, v.hasTy p.ty → checkValid p (.one v) = .ok w → checkEntry C p w = .ok w := by
    intro v w hv hc
    obtain ⟨u, rfl, hu, hf, -⟩ := checkValid_one hv hc
    unfold checkEntry
    simp only [parse_hasTy hu]
    cases u with
    | none => exact absurd rfl (hasTy_ne_none hu)
    | _ => exact hf
  unfold checkEntry at h
  cases e with
  | list l =>
    simp only at h
    split_ifs at h with hm
    · cases hl : l.mapM (parse C p.ty) with
      | error err => rw [hl] at h; cases h
      | ok vs =>
        rw [hl] at h
        simp only at h
        have he' : e' = .list vs ∧ checkValid p (.list vs) = .ok (.list vs) := by
          unfold checkValid at h ⊢
          cases hv : p.valid with
          | none => simp only [hv] at h; cases h; exact ⟨rfl, rfl⟩
          | some valid =>
            simp only [hv] at h
            split_ifs at h <;> cases h
        obtain ⟨rfl, hc⟩ := he'
        unfold checkEntry
        simp only [if_pos hm]
        have : vs.mapM (parse C p.ty) = .ok vs := by
          rw [mapM_ok_iff] at hl ⊢
          clear h hc
          induction hl with
          | nil => exact .nil
          | cons h1 h2 ih => exact .cons (parse_idem h1) ih
        rw [this]
        exact hc
    · cases hl : parseList C p.ty l with
      | error err => rw [hl] at h; cases h
      | ok v =>
        rw [hl] at h
        unfold parseList at hl
        split_ifs at hl with hb
        exact one v e' (C.listTyped _ _ _ hb hl) h
  | one v =>
    simp only at h
    cases hp : parse C p.ty v with
    | error err => rw [hp] at h; cases h
    | ok w =>
      rw [hp] at h
      rcases parse_typed hp with ⟨rfl, rfl, hb⟩ | hw
      · simp only at h
        cases h
        unfold checkEntry
        simp only [hp]
      · cases w with
        | none => exact absurd rfl (hasTy_ne_none hw)
        | _ => exact one _ e' hw h

end Config
end TreeCorr
