import Verif.Proofs.FileNames

/-!
# C94: every file that is named is read once, in order
-/

namespace TreeCorr
namespace Config

/-- What the user names in `c`: a list or a string for `key`, or a list file for `list_key`, not both. -/
inductive Call.Means (c : Call) : List Str → Prop
  | list {k l} : c.key = some k → c.config k = some (.list l) → c.listKey.bind c.config = none → c.Means l
  | str {k s l} : c.key = some k → c.config k = some (.str s) → c.listKey.bind c.config = none → Separated s l → c.Means l
  | listFile {k f t l} : c.key.bind c.config = none → c.listKey = some k → c.config k = some (.str f) →
      c.files f = some t → Listed t l → c.Means l
  | nothing : (c.key ≠ none ∨ c.listKey ≠ none) → c.key.bind c.config = none → c.listKey.bind c.config = none → c.Means []

theorem Call.Means.names {c : Call} {l : List Str} (h : c.Means l) : fileNames c = .ok l := by
  cases h with
  | list h1 h2 h3 => simp [fileNames, h1, h2, h3]
  | str h1 h2 h3 h4 => simp [fileNames, h1, h2, h3, splitWords_separated h4]
  | listFile h1 h2 h3 h4 h5 => simp [fileNames, h1, h2, h3, h4, listNames_listed h5]
  | nothing h1 h2 h3 =>
    have : ¬ (c.key = none ∧ c.listKey = none) := by tauto
    simp [fileNames, this, h2, h3]

/-- **C94**: if the files can be read, the result has the patches of each file that is named, in the order of the
names; names in a string have no white space, and a list file has no blank lines.
Missing: blank lines and names with white space, `blank_line_wrong`, `space_wrong`. -/
theorem files_read_partial {C : Type} {cat : Str → Bool → Except FileErr (List C)} {c : Call} {l : List Str} (h : c.Means l)
    (f : Str → List C) (hf : ∀ n ∈ l, cat n (randFlag c) = .ok (f n)) : readCatalogs cat c = .ok (l.flatMap f) := by
  exact readCatalogs_names h.names f hf

/-- **C94**: naming files in both ways, or in none, is a TypeError. -/
theorem both_refused {C : Type} (cat : Str → Bool → Except FileErr (List C)) (c : Call) :
    ((c.key.bind c.config).isSome → (c.listKey.bind c.config).isSome → readCatalogs cat c = .error (.py .typeError)) ∧
    (c.key = none → c.listKey = none → readCatalogs cat c = .error (.py .typeError)) := by
  constructor
  · intro h1 h2
    obtain ⟨v, hv⟩ := Option.isSome_iff_exists.1 h1
    have : ¬ (c.key = none ∧ c.listKey = none) := by
      rintro ⟨h, -⟩
      rw [h] at hv
      cases hv
    simp [readCatalogs, fileNames, this, hv, h2]
  · intro h1 h2
    simp [readCatalogs, fileNames, h1, h2]

/-- **C94**: with the keys of the programs, the files are taken as randoms exactly if the keys say so. -/
theorem rand_keys (c : Call) (h : c.isRand = none) (s : String) (hs : s ∈ ["file_name", "file_name2", "rand_file_name", "rand_file_name2"])
    (hk : c.key = some s.toList) : randFlag c = true ↔ s ∈ ["rand_file_name", "rand_file_name2"] := by
  have h1 : hasRand "file_name".toList = false := by decide +kernel
  have h2 : hasRand "file_name2".toList = false := by decide +kernel
  have h3 : hasRand "rand_file_name".toList = true := by decide +kernel
  have h4 : hasRand "rand_file_name2".toList = true := by decide +kernel
  simp only [List.mem_cons, List.not_mem_nil, or_false] at hs
  simp only [randFlag, h, hk]
  rcases hs with rfl | rfl | rfl | rfl
  · rw [h1]; decide
  · rw [h2]; decide
  · rw [h3]; decide
  · rw [h4]; decide

/-- **C94**: the same if only the key of a list file is given. -/
theorem rand_list_keys (c : Call) (h : c.isRand = none) (s : String) (hs : s ∈ ["file_list", "file_list2", "rand_file_list", "rand_file_list2"])
    (hn : c.key = none) (hk : c.listKey = some s.toList) : randFlag c = true ↔ s ∈ ["rand_file_list", "rand_file_list2"] := by
  have h1 : hasRand "file_list".toList = false := by decide +kernel
  have h2 : hasRand "file_list2".toList = false := by decide +kernel
  have h3 : hasRand "rand_file_list".toList = true := by decide +kernel
  have h4 : hasRand "rand_file_list2".toList = true := by decide +kernel
  simp only [List.mem_cons, List.not_mem_nil, or_false] at hs
  simp only [randFlag, h, hn, hk]
  rcases hs with rfl | rfl | rfl | rfl
  · rw [h1]; decide
  · rw [h2]; decide
  · rw [h3]; decide
  · rw [h4]; decide

/-- **C94**: nothing is left out silently: a list file that is not there, or a named file that can not be read, is an error. -/
theorem missing_refused {C : Type} (cat : Str → Bool → Except FileErr (List C)) (c : Call) :
    (∀ k f, c.key.bind c.config = none → c.listKey = some k → c.config k = some (.str f) → c.files f = none →
      readCatalogs cat c = .error .open) ∧
    ∀ l, c.Means l → ∀ n ∈ l, (∃ e, cat n (randFlag c) = .error e) → ∃ e, readCatalogs cat c = .error e := by
  constructor
  · intro k f h1 h2 h3 h4
    simp [readCatalogs, fileNames, h1, h2, h3, h4]
  · intro l hl n hn ⟨e, he⟩
    unfold readCatalogs
    simp only [hl.names]
    have : ∃ e, (l.mapM fun f => cat f (randFlag c)) = .error e := by
      clear hl
      induction l with
      | nil => cases hn
      | cons m l ih =>
        rw [List.mapM_cons]
        cases hm : cat m (randFlag c) with
        | error e' => exact ⟨e', rfl⟩
        | ok x =>
          rcases List.mem_cons.1 hn with rfl | hn
          · rw [he] at hm; cases hm
          · obtain ⟨e', h'⟩ := ih hn
            rw [h']
            exact ⟨e', rfl⟩
    obtain ⟨e', h'⟩ := this
    rw [h']
    exact ⟨e', rfl⟩

/-- **C94**: what the caller says about randoms counts. -/
theorem rand_given (c : Call) (r : Bool) (h : c.isRand = some r) : randFlag c = r := by simp [randFlag, h]

def keyName : Str := "file_name".toList
def listKeyName : Str := "file_list".toList
def textName : Str := "list.txt".toList
def nameA : Str := "a b.fits".toList
def nameB : Str := "c.fits".toList

/-- A call with `file_name` a string or a list, or with a list file that has this text. -/
def withNames (v : Names) : Call := ⟨some keyName, some listKeyName, none, fun k => if k = keyName then some v else none, fun _ => none⟩
def withText (t : String) : Call :=
  ⟨some keyName, some listKeyName, none, fun k => if k = listKeyName then some (.str textName) else none,
    fun f => if f = textName then some t.toList else none⟩

theorem withNames_config (v : Names) : (withNames v).config keyName = some v := by
  show (if keyName = keyName then some v else none) = some v
  rw [if_pos (Eq.refl keyName)]

theorem withText_config (t : String) : (withText t).config listKeyName = some (.str textName) := by
  show (if listKeyName = listKeyName then some (Names.str textName) else none) = some (Names.str textName)
  rw [if_pos (Eq.refl listKeyName)]

theorem withText_file (t : String) : (withText t).files textName = some t.toList := by
  show (if textName = textName then some t.toList else none) = some t.toList
  rw [if_pos (Eq.refl textName)]

theorem white_one : Whites [' '] := by
  intro c hc
  rw [List.mem_singleton.1 hc]
  decide

/-- A list file with a name that has a space. -/
example : (withText "a b.fits \nc.fits\n").Means [nameA, nameB] := by
  refine .listFile (k := listKeyName) (f := textName) (t := "a b.fits \nc.fits\n".toList) (by decide +kernel) rfl
    (withText_config _) (withText_file _) ?_
  refine Listed.cons (w := []) (n := nameA) (w' := [' ']) (s := "c.fits\n".toList) (by simp [Whites]) white_one (by decide) (by decide)
    ⟨'a', 's', by decide +kernel, by decide +kernel, by decide, by decide, by decide +kernel⟩ ?_
  exact Listed.cons (w := []) (n := nameB) (w' := []) (s := []) (by simp [Whites]) (by simp [Whites]) (by decide) (by decide)
    ⟨'c', 's', by decide +kernel, by decide +kernel, by decide, by decide, by decide +kernel⟩ .nil

/-- A string with two names. -/
example : (withNames (.str "c.fits  c.fits".toList)).Means [nameB, nameB] := by
  refine .str (k := keyName) (s := "c.fits  c.fits".toList) rfl (withNames_config _) (by decide +kernel) ?_
  exact Separated.cons (w := []) (n := nameB) (c := ' ') (s := " c.fits".toList) (by simp [Whites])
    ⟨by decide +kernel, by decide +kernel⟩ (by decide) (Separated.last (w := [' ']) (n := nameB) white_one ⟨by decide +kernel, by decide +kernel⟩)

/-- A blank line at the end of a list file is taken as the name of a file: nothing is read, though all files are there. -/
theorem blank_line_wrong {C : Type} (cat : Str → Bool → Except FileErr (List C)) (x : List C) (h : cat nameB false = .ok x)
    (h0 : cat [] false = .error .open) :
    readCatalogs cat (withText "c.fits\n") = .ok x ∧ readCatalogs cat (withText "c.fits\n\n") = .error .open := by
  have e1 : fileNames (withText "c.fits\n") = .ok [nameB] := by decide +kernel
  have e2 : fileNames (withText "c.fits\n\n") = .ok [nameB, []] := by decide +kernel
  have r : ∀ t, randFlag (withText t) = false := fun t => by
    show hasRand keyName = false
    decide +kernel
  constructor
  · simp only [readCatalogs, e1, r, List.mapM_cons, List.mapM_nil, h]
    simp [bind, Except.bind, pure, Except.pure, Except.map]
  · simp only [readCatalogs, e2, r, List.mapM_cons, List.mapM_nil, h, h0]
    simp [bind, Except.bind, Except.map]

/-- A file whose name has a space is read if the name is in a list, but a string with that name is taken as two names. -/
theorem space_wrong : fileNames (withNames (.list [nameA])) = .ok [nameA] ∧
    fileNames (withNames (.str nameA)) = .ok ["a".toList, "b.fits".toList] := by decide +kernel

end Config
end TreeCorr
