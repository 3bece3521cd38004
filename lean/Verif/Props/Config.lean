import Verif.Spec.Config
import Verif.Proofs.Config
import Verif.Proofs.ConfigParse

/-!
C28: merging and checking of configurations; C29: parsing.

The alias tables of all classes are empty (`_aliases = {}`), so the theorems take `aliases = []`.
-/

namespace TreeCorr
namespace Config

/-- The conversions `int`, `float` and `str` on the values which already have the type, and nothing else. -/
def exConv : Conv where
  conv t v := match t, v with
    | .int, .int n => .ok (.int n)
    | .float, .float x => .ok (.float x)
    | .float, .int n => .ok (.float n)
    | .str, .str s => .ok (.str s)
    | _, _ => .error .valueError
  list _ _ := .error .typeError
  typed t v w ht h := by cases t <;> cases v <;> first | exact absurd rfl ht | (cases h; trivial) | cases h
  fixed t v ht h := by cases t <;> cases v <;> first | exact absurd rfl ht | rfl | exact h.elim
  listTyped t l w ht h := by cases h

/-- A part of the table of corr2base.py:234-290. -/
def exTable : Params :=
  [("nbins".toList, ⟨.int, false, .none, none⟩),
   ("brute".toList, ⟨.bool, false, .bool false, some [.bool false, .bool true, .int 1, .int 2]⟩),
   ("sep_units".toList, ⟨.str, false, .none, some [.str "arcsec".toList, .str "deg".toList]⟩),
   ("bin_type".toList, ⟨.str, false, .str "Log".toList, some [.str "Log".toList, .str "Linear".toList, .str "TwoD".toList]⟩)]

theorem exTable_good : exTable.Good exConv := by
  refine ⟨by decide, ?_⟩
  intro x hx
  simp only [exTable, List.mem_cons, List.not_mem_nil, or_false] at hx
  rcases hx with rfl | rfl | rfl | rfl <;> intro h
  · exact absurd rfl h
  · rfl
  · exact absurd rfl h
  · rfl

/-- C28.  A single entry is accepted exactly if it converts to the type of the parameter and is one of the allowed values
(or a longer form of exactly one allowed string), and it becomes that allowed value. -/
theorem entry_becomes (C : Conv) (p : Param) (nd : ∀ valid, p.valid = some valid → valid.Nodup) (v m : Val) :
    checkEntry C p (.one v) = .ok (.one m) ↔ Becomes C p v m :=
  checkEntry_one_iff C p nd v m

example : Becomes exConv ⟨.str, false, .none, some [.str "arcsec".toList, .str "deg".toList]⟩
    (.str "degrees".toList) (.str "deg".toList) := by
  refine .inr ⟨.str "degrees".toList, by simp, by simp [exConv], ?_⟩
  refine ⟨"degrees".toList, "deg".toList, rfl, rfl, by simp, .inr ⟨by simp, ⟨"rees".toList, rfl⟩, ?_⟩⟩
  intro t' ht' hp
  simp only [List.mem_cons, Val.str.injEq, List.not_mem_nil, or_false] at ht'
  rcases ht' with rfl | rfl
  · exact absurd hp (by decide)
  · rfl

/-- C28.  A list for a parameter that may be one and has no allowed values: every item is converted.  (With allowed values
see `string_list_rejected`.) -/
theorem entry_list_partial (C : Conv) (p : Param) (l l' : List Val) (hm : p.mayList = true) (hv : p.valid = none) :
    checkEntry C p (.list l) = .ok (.list l') ↔ List.Forall₂ (fun v w => parse C p.ty v = .ok w) l l' := by
  rw [← mapM_ok_iff]
  unfold checkEntry checkValid
  simp only [hm, if_true, hv]
  cases l.mapM (parse C p.ty) <;> simp

example : checkEntry exConv ⟨.int, true, .int 1, none⟩ (.list [.int 3, .none]) = .ok (.list [.int 3, .none]) :=
  (entry_list_partial exConv _ _ _ rfl rfl).2 (.cons rfl (.cons rfl .nil))

/-- C28.  A configuration is accepted exactly if every key is a known parameter and every entry is accepted. -/
theorem check_ok_iff (C : Conv) (P : Params) (d : Dict) (nd : (d.map Prod.fst).Nodup) :
    (∃ r, checkConfig C P [] d = .ok r) ↔
      ∀ k e, d.lookup k = some e → ∃ p e', P.lookup k = some p ∧ checkEntry C p e = .ok e' := by
  rw [checkConfig_eq C P d nd]
  refine Iff.trans (b := ∃ ys, d.mapM (checkItem C P) = .ok ys) ?_ ?_
  · cases d.mapM (checkItem C P) <;> simp
  rw [mapM_isOk_iff]
  constructor
  · intro h k e hk
    obtain ⟨b, hb⟩ := h _ (lookup_mem hk)
    unfold checkItem at hb
    cases hp : P.lookup k with
    | none => simp only [hp] at hb; cases hb
    | some p =>
      simp only [hp] at hb
      cases he : checkEntry C p e with
      | error err => simp only [he] at hb; cases hb
      | ok e' => exact ⟨p, e', rfl, he⟩
  · rintro h ⟨k, e⟩ hx
    obtain ⟨p, e', hp, he⟩ := h k e (lookup_of_mem nd hx)
    exact ⟨(k, e'), by unfold checkItem; simp only [hp, he]⟩

/-- C28.  What a checked configuration holds: for a key that was given, the checked entry; for one that was not, the default
of the parameter, if it has one. -/
theorem check_lookup (C : Conv) (P : Params) (hP : (P.map Prod.fst).Nodup) (d r : Dict) (nd : (d.map Prod.fst).Nodup)
    (h : checkConfig C P [] d = .ok r) (k : Str) :
    (∀ e, d.lookup k = some e → ∃ p e', P.lookup k = some p ∧ checkEntry C p e = .ok e' ∧ r.lookup k = some e') ∧
    (d.lookup k = none → r.lookup k = defaultOf P k) := by
  rw [checkConfig_eq C P d nd] at h
  cases hm : d.mapM (checkItem C P) with
  | error e => rw [hm] at h; cases h
  | ok ys =>
    rw [hm] at h
    cases h
    have hf := (mapM_ok_iff _ _ _).1 hm
    rw [defaults_lookup P hP, Forall₂_keys hf]
    constructor
    · intro e he
      obtain ⟨p, e', h1, h2, h3⟩ := Forall₂_lookup hf k e he
      rw [if_pos]
      · exact ⟨p, e', h1, h2, h3⟩
      · by_contra hc
        rw [lookup_none_iff.2 hc] at he; cases he
    · intro hn
      rw [if_neg (lookup_none_iff.1 hn)]
      rfl

/-- C28.  A checked configuration has only known parameters. -/
theorem check_keys_known (C : Conv) (P : Params) (hP : (P.map Prod.fst).Nodup) (d r : Dict) (nd : (d.map Prod.fst).Nodup)
    (h : checkConfig C P [] d = .ok r) (k : Str) (hk : (r.lookup k).isSome) : (P.lookup k).isSome := by
  obtain ⟨h1, h2⟩ := check_lookup C P hP d r nd h k
  cases hd : d.lookup k with
  | some e => obtain ⟨p, e', hp, -, -⟩ := h1 e hd; rw [hp]; rfl
  | none =>
    rw [h2 hd] at hk
    unfold defaultOf at hk
    cases hp : P.lookup k with
    | none => rw [hp] at hk; cases hk
    | some p => rfl

/-- C28.  Checking a checked configuration changes nothing. -/
theorem check_idempotent (C : Conv) (P : Params) (hP : P.Good C) (d r : Dict) (nd : (d.map Prod.fst).Nodup)
    (h : checkConfig C P [] d = .ok r) : checkConfig C P [] r = .ok r := by
  rw [checkConfig_eq C P d nd] at h
  cases hm : d.mapM (checkItem C P) with
  | error e => rw [hm] at h; cases h
  | ok ys =>
    rw [hm] at h
    cases h
    have hf := (mapM_ok_iff _ _ _).1 hm
    have ndy : (ys.map Prod.fst).Nodup := by rw [Forall₂_keys hf]; exact nd
    rw [checkConfig_eq C P _ (defaults_nodup P ys ndy)]
    have hfix : (P.foldl addDefault ys).mapM (checkItem C P) = .ok (P.foldl addDefault ys) := by
      rw [mapM_ok_iff]
      refine List.forall₂_same.2 fun y hy => ?_
      rcases defaults_mem P ys y hy with hy | ⟨p, h1, h2, h3⟩
      · exact Forall₂_fixed hf y hy
      · unfold checkItem
        rw [lookup_of_mem hP.1 h1]
        simp only
        rw [h3, hP.2 _ h1 h2]
        simp only [← h3]
    rw [hfix]
    simp only [Except.ok.injEq]
    apply defaults_id
    intro x hx hd
    rw [defaults_keys]
    exact .inr ⟨x, hx, rfl, hd⟩

/-- C28.  A key which is not a parameter is rejected; if it is the only fault, with a TypeError. -/
theorem unknown_key_rejected (C : Conv) (P : Params) (d : Dict) (nd : (d.map Prod.fst).Nodup)
    (k : Str) (hk : (d.lookup k).isSome) (hP : P.lookup k = none) :
    (∃ err, checkConfig C P [] d = .error err) ∧
    ((∀ j e p, d.lookup j = some e → P.lookup j = some p → ∃ e', checkEntry C p e = .ok e') →
      checkConfig C P [] d = .error .typeError) := by
  have hnot : ∀ r, checkConfig C P [] d ≠ .ok r := by
    intro r h
    obtain ⟨e, he⟩ := Option.isSome_iff_exists.1 hk
    obtain ⟨p, e', h1, -⟩ := (check_ok_iff C P d nd).1 ⟨r, h⟩ k e he
    rw [hP] at h1; cases h1
  have herr : ∃ err, checkConfig C P [] d = .error err := by
    cases h : checkConfig C P [] d with
    | ok r => exact absurd h (hnot r)
    | error err => exact ⟨err, rfl⟩
  refine ⟨herr, fun hall => ?_⟩
  obtain ⟨err, he⟩ := herr
  rw [he]
  rw [checkConfig_eq C P d nd] at he
  cases hm : d.mapM (checkItem C P) with
  | ok ys => rw [hm] at he; cases he
  | error err' =>
    rw [hm] at he
    cases he
    obtain ⟨x, hx, hxe⟩ := mapM_error hm
    unfold checkItem at hxe
    cases hp : P.lookup x.1 with
    | none => simp only [hp] at hxe; cases hxe; rfl
    | some p =>
      obtain ⟨e', he'⟩ := hall x.1 x.2 p (lookup_of_mem nd hx) hp
      simp only [hp, he'] at hxe
      cases hxe

/-- C28.  Merging: a keyword argument overrides the entry of the config; entries of the config that are not parameters are
ignored; every keyword argument must be a parameter; what is not given gets its default. -/
theorem merge_lookup (C : Conv) (P : Params) (hP : (P.map Prod.fst).Nodup) (config kwargs : Dict)
    (hc : (config.map Prod.fst).Nodup) (hk : (kwargs.map Prod.fst).Nodup) :
    ((∃ r, mergeConfig C P [] config kwargs = .ok r) ↔
      ∀ k e, given P config kwargs k = some e → ∃ p e', P.lookup k = some p ∧ checkEntry C p e = .ok e') ∧
    ∀ r, mergeConfig C P [] config kwargs = .ok r → ∀ k,
      (∀ e, given P config kwargs k = some e →
        ∃ p e', P.lookup k = some p ∧ checkEntry C p e = .ok e' ∧ r.lookup k = some e') ∧
      (given P config kwargs k = none → r.lookup k = defaultOf P k) := by
  obtain ⟨h1, h2⟩ := mergeLoop P config kwargs hc hk
  constructor
  · unfold mergeConfig
    rw [check_ok_iff C P _ h1]
    simp only [h2]
  · intro r hr k
    have := check_lookup C P hP _ r h1 hr k
    rwa [h2] at this

/-- C28.  Unknown keyword arguments are rejected, whatever the config holds. -/
theorem merge_unknown_rejected (C : Conv) (P : Params) (hP : (P.map Prod.fst).Nodup) (config kwargs : Dict)
    (hc : (config.map Prod.fst).Nodup) (hk : (kwargs.map Prod.fst).Nodup) (k : Str) (hin : (kwargs.lookup k).isSome)
    (hun : P.lookup k = none) : ∃ err, mergeConfig C P [] config kwargs = .error err := by
  cases h : mergeConfig C P [] config kwargs with
  | error err => exact ⟨err, rfl⟩
  | ok r =>
    obtain ⟨e, he⟩ := Option.isSome_iff_exists.1 hin
    obtain ⟨p, e', h1, -⟩ := (merge_lookup C P hP config kwargs hc hk).1.1 ⟨r, h⟩ k e (by unfold given; rw [he])
    rw [hun] at h1; cases h1

/-- An example: the config's `nbins` is overridden, its unknown key `x_col` is ignored, `brute` and `bin_type` get values. -/
example : mergeConfig exConv exTable []
    [("nbins".toList, .one (.int 10)), ("x_col".toList, .one (.str "RA".toList)), ("brute".toList, .one (.str "yes".toList))]
    [("nbins".toList, .one (.int 20)), ("sep_units".toList, .one (.str "degrees".toList))] =
    .ok [("nbins".toList, .one (.int 20)), ("sep_units".toList, .one (.str "deg".toList)),
      ("brute".toList, .one (.bool true)), ("bin_type".toList, .one (.str "Log".toList))] := by rfl

example : mergeConfig exConv exTable [] [] [("nbin".toList, .one (.int 20))] = .error .typeError := by rfl

/-- C28.  The minimal configuration is accepted, and checking it restores the configuration: every key has the same entry,
or one which is equal in Python to it (`False` for `0`), and an entry `None` may be missing. -/
theorem minimal_restores (C : Conv) (P : Params) (hP : P.Good C) (d r : Dict) (nd : (d.map Prod.fst).Nodup)
    (h : checkConfig C P [] d = .ok r) :
    ∃ r', checkConfig C P [] (minimalConfig P r) = .ok r' ∧
      ∀ k, r'.lookup k = r.lookup k ∨
        (∃ v w, r.lookup k = some (.one v) ∧ r'.lookup k = some (.one w) ∧ pyEq v w = true) ∨
        (r.lookup k = some (.one .none) ∧ r'.lookup k = none) :=
  minimal_restores_aux C P hP.1 r (check_nodup nd h) (check_idempotent C P hP d r nd h)

/-- C28 fails for lists of strings: a parameter for strings that may be a list (as documented for `x_units`, `y_units`,
`ra_units`, `dec_units` and `file_type`, catalog.py:531, 556-562) and has allowed strings rejects every list, with an
AttributeError (unless an item does not convert). -/
theorem string_list_rejected (C : Conv) (p : Param) (l : List Val) (valid : List Val) (s : Str) (h1 : p.ty = .str)
    (h2 : p.valid = some valid) (h3 : Val.str s ∈ valid) (h4 : p.mayList = true) (hl : ∀ v ∈ l, ∃ t, v = .str t) :
    checkEntry C p (.list l) = .error .attributeError := by
  unfold checkEntry
  have hm : l.mapM (parse C p.ty) = .ok l := by
    rw [mapM_ok_iff]
    refine List.forall₂_same.2 fun v hv => ?_
    obtain ⟨t, rfl⟩ := hl v hv
    exact parse_hasTy (by rw [h1]; trivial)
  simp only [h4, if_true, hm]
  unfold checkValid
  simp only [h2, if_pos h1]
  rw [if_pos]
  rw [List.any_eq_true]
  exact ⟨_, h3, rfl⟩

/-- The table entry of `ra_units` (catalog.py:560) and the value `['deg', 'arcsec']`, one unit for each file. -/
example : checkEntry exConv ⟨.str, true, .none, some [.str "arcsec".toList, .str "deg".toList]⟩
    (.list [.str "deg".toList, .str "arcsec".toList]) = .error .attributeError :=
  string_list_rejected exConv _ _ _ "deg".toList rfl rfl (by simp) rfl
    (by intro v hv; simp at hv; rcases hv with rfl | rfl <;> exact ⟨_, rfl⟩)

/-! ### Parsing -/

/-- C29.  A string is true exactly if it spells true, yes, t or y, in any capitals, with white space around. -/
theorem parse_bool_true (s : Str) :
    parseBool (.str s) = .ok (.bool true) ↔
      Spelt s "TRUE".toList ∨ Spelt s "YES".toList ∨ Spelt s "T".toList ∨ Spelt s "Y".toList := by
  rw [parseBool_str_true, spelt_mem trueWords (by decide)]
  simp [trueWords]

/-- C29.  A string is false exactly if it spells false, no, f, n or none. -/
theorem parse_bool_false (s : Str) :
    parseBool (.str s) = .ok (.bool false) ↔
      Spelt s "FALSE".toList ∨ Spelt s "NO".toList ∨ Spelt s "F".toList ∨ Spelt s "N".toList ∨ Spelt s "NONE".toList := by
  rw [parseBool_str_false, spelt_mem falseWords (by decide)]
  simp [falseWords]

example : parseBool (.str " Yes ".toList) = .ok (.bool true) :=
  (parse_bool_true _).2 (.inr (.inl ⟨" ".toList, "Yes".toList, " ".toList, rfl, by simp [White], by simp [White], rfl⟩))

/-- C29.  A string of decimal digits with an optional sign gives the integer. -/
theorem parse_bool_int (a b ds : Str) (ha : White a) (hb : White b) (hd : ds ≠ []) (hds : ∀ c ∈ ds, c.isDigit = true) :
    parseBool (.str (a ++ ds ++ b)) = .ok (.int (decimal ds)) ∧
    parseBool (.str (a ++ '-' :: ds ++ b)) = .ok (.int (-(decimal ds : ℤ))) ∧
    parseBool (.str (a ++ '+' :: ds ++ b)) = .ok (.int (decimal ds)) :=
  parseBool_digits a b ds ha hb hd hds

example : parseBool (.str "-12".toList) = .ok (.int (-12)) :=
  (parse_bool_int [] [] "12".toList (by simp [White]) (by simp [White]) (by simp) (by decide)).2.1

/-- C29.  Anything else is a ValueError: a string which does not spell a word and is no integer, `None`, and any float.
(The documentation says that a number is converted in the usual way; floats are not, and integers stay integers.) -/
theorem parse_bool_other (v : Val) :
    (∃ err, parseBool v = .error err) ↔
      v = .none ∨ (∃ x, v = .float x) ∨
        ∃ s, v = .str s ∧ (∀ w ∈ trueWords ++ falseWords, ¬ Spelt s w) ∧ pyInt s = none := by
  cases v with
  | none => simp [parseBool]
  | bool b => simp [parseBool]
  | int n => simp [parseBool]
  | float x => simp [parseBool]
  | str s =>
    have ht := spelt_mem trueWords (by decide) s
    have hf := spelt_mem falseWords (by decide) s
    simp only [reduceCtorEq, exists_false, Val.str.injEq, false_or, exists_eq_left', List.mem_append]
    unfold parseBool
    simp only
    split_ifs with h1 h2
    · simp only [reduceCtorEq, exists_false, false_iff, not_and]
      intro h
      obtain ⟨w, hw, hs⟩ := ht.1 h1
      exact absurd hs (h w (.inl hw))
    · simp only [reduceCtorEq, exists_false, false_iff, not_and]
      intro h
      obtain ⟨w, hw, hs⟩ := hf.1 h2
      exact absurd hs (h w (.inr hw))
    · cases hp : pyInt s with
      | some n => simp
      | none =>
        simp only [Except.error.injEq, exists_eq', and_true, true_iff]
        rintro w (hw | hw) hs
        · exact h1 (ht.2 ⟨w, hw, hs⟩)
        · exact h2 (hf.2 ⟨w, hw, hs⟩)

/-- C29.  The value in list brackets: `key = [a, b, c] # comment` gives the list of the items, without white space around
them; one item gives that item and not a list.  (All three kinds of brackets; open and close may differ.) -/
theorem parse_list (key a b c d : Str) (o cl : Char) (toks : List Str) (comment : Str)
    (hkey : '=' ∉ key) (ha : White a) (hb : White b) (ho : o ∈ ['{', '[', '(']) (hcl : cl ∈ ['}', ']', ')'])
    (htok : ∀ t ∈ toks, ',' ∉ t ∧ '#' ∉ t) (hne : toks ≠ []) (hcom : comment = [] ∨ ∃ t, comment = '#' :: t)
    (hc : White c) (hd : White d) (hk : Trimmed key) :
    parseVariable (c ++ key ++ d ++ '=' :: (a ++ o :: ([','].intercalate toks ++ [cl]) ++ b ++ comment)) =
      .ok (key, match toks.map strip with
        | [x] => .one (.str x)
        | xs => .list (xs.map .str)) :=
  parseVariable_list key a b c d o cl toks comment hkey ha hb ho hcl htok hne hcom hc hd hk

example : parseVariable "file_name = [a.dat, b.dat]  # two files".toList =
    .ok ("file_name".toList, .list [.str "a.dat".toList, .str "b.dat".toList]) := by rfl

/-- C29.  A value without brackets is split at white space: one word is one value, several are a list. -/
theorem parse_words (key a c d : Str) (toks : List (Str × Str)) (comment : Str) (hkey : '=' ∉ key) (ha : White a)
    (htok : ∀ t ∈ toks, t.1 ≠ [] ∧ (∀ x ∈ t.1, x.isWhitespace = false) ∧ '#' ∉ t.1 ∧ White t.2 ∧ t.2 ≠ [])
    (hne : toks ≠ []) (hbr : ∀ t ∈ toks.head?, ∀ x ∈ t.1.head?, x ∉ ['{', '[', '('])
    (hcom : comment = [] ∨ ∃ t, comment = '#' :: t) (hc : White c) (hd : White d) (hk : Trimmed key) :
    parseVariable (c ++ key ++ d ++ '=' :: (a ++ (toks.flatMap fun t => t.1 ++ t.2) ++ comment)) =
      .ok (key, match toks.map Prod.fst with
        | [x] => .one (.str x)
        | xs => .list (xs.map .str)) :=
  parseVariable_words key a c d toks comment hkey ha htok hne hbr hcom hc hd hk

example : parseVariable "verbose = 2 # quiet".toList = .ok ("verbose".toList, .one (.str "2".toList)) := by rfl

/-- C29.  A string without `=` is rejected with a ValueError. -/
theorem parse_no_equals (v : Str) (h : '=' ∉ v) : parseVariable v = .error .valueError := by
  unfold parseVariable; rw [if_pos h]

/-- An assignment without a value is an IndexError, not a ValueError; an empty list is the empty string. -/
theorem parse_empty_wrong :
    parseVariable "file_name =".toList = .error .indexError ∧
    parseVariable "file_name = []".toList = .ok ("file_name".toList, .one (.str [])) ∧
    parseVariable "file_name = [a)".toList = .ok ("file_name".toList, .one (.str "a".toList)) := ⟨rfl, rfl, rfl⟩

/-- C29.  `get_from_list`: item `num` of a list, the value itself otherwise, and the default if there is none. -/
theorem get_from_list_spec (cv : Val → Except PyErr Val) (d : Dict) (k : Str) (default : Val) :
    (∀ (l : List Val) (n : ℕ) (v : Val), d.lookup k = some (.list l) → l[n]? = some v → v ≠ .none →
      getFromList cv d k n default = cv v) ∧
    (∀ (l : List Val) (n : ℕ), d.lookup k = some (.list l) → l.length ≤ n → getFromList cv d k n default = .error .indexError) ∧
    (∀ (v : Val) (n : ℤ), d.lookup k = some (.one v) → v ≠ .none → getFromList cv d k n default = cv v) ∧
    (∀ (n : ℤ), (d.lookup k = none ∨ d.lookup k = some (.one .none) ∨
        ∃ (l : List Val) (m : ℕ), d.lookup k = some (.list l) ∧ n = m ∧ l[m]? = some .none) →
      getFromList cv d k n default = if default ≠ .none then cv default else .ok .none) := by
  refine ⟨?_, ?_, ?_, ?_⟩
  · intro l n v h h1 h2
    unfold getFromList pyIndex
    simp [h, h1, h2]
  · intro l n h h1
    unfold getFromList pyIndex
    simp [h, List.getElem?_eq_none h1]
  · intro v n h h1
    unfold getFromList
    simp [h, h1]
  · rintro n (h | h | ⟨l, m, h, rfl, h1⟩)
    · unfold getFromList; simp [h]
    · unfold getFromList; simp [h]
    · unfold getFromList pyIndex; simp [h, h1]

/-- C29.  A negative number is out of range only below minus the length: others count from the end of the list. -/
theorem get_from_list_negative (cv : Val → Except PyErr Val) (d : Dict) (k : Str) (default : Val) (l : List Val) (v : Val)
    (j : ℕ) (h : d.lookup k = some (.list l)) (hj : 1 ≤ j) :
    (j ≤ l.length → l[l.length - j]? = some v → v ≠ .none → getFromList cv d k (-(j : ℤ)) default = cv v) ∧
    (l.length < j → getFromList cv d k (-(j : ℤ)) default = .error .indexError) := by
  have hneg : ¬ (0 : ℤ) ≤ -(j : ℤ) := by omega
  constructor
  · intro hl hv hn
    have h2 : (0 : ℤ) ≤ (l.length : ℤ) + -(j : ℤ) := by omega
    have h3 : ((l.length : ℤ) + -(j : ℤ)).toNat = l.length - j := by omega
    unfold getFromList pyIndex
    simp only [h, if_neg hneg, if_pos h2, h3, hv]
    simp [hn]
  · intro hl
    have h2 : ¬ (0 : ℤ) ≤ (l.length : ℤ) + -(j : ℤ) := by omega
    unfold getFromList pyIndex
    simp only [h, if_neg hneg, if_neg h2]

example : getFromList .ok [("k".toList, .list [.int 4, .int 5])] "k".toList (1 : ℕ) .none = .ok (.int 5) :=
  (get_from_list_spec .ok _ _ .none).1 [.int 4, .int 5] 1 (.int 5) rfl rfl (by simp)

end Config
end TreeCorr
