import Verif.Proofs.ConfigFile

/-!
# C89: configuration files and variables on the command line
-/

namespace TreeCorr
namespace Config

/-- **C89, which files can be read**: those that say something, by the rules of the specification (for Python's limit of calls large enough).  What a file
says is unique. -/
theorem read_config_iff (F : Files) (hF : F.Dicts) (t : FType) (name : Str) :
    ((∃ n d, readConfig F n t name = .ok d) ↔ ∃ as, Says F t name as) ∧
    (∀ as bs, Says F t name as → Says F t name bs → as = bs) := by
  refine ⟨⟨fun ⟨n, d, h⟩ => ?_, fun ⟨as, h⟩ => ?_⟩, fun as bs h1 h2 => says_unique h1 h2⟩
  · obtain ⟨as, h1, -⟩ := read_sound F hF n t name d h
    exact ⟨as, h1⟩
  · obtain ⟨n, h1⟩ := says_read hF h
    obtain ⟨d, h2, -⟩ := h1 n (Nat.le_refl n)
    exact ⟨n, d, h2⟩

/-- **C89, the last assignment counts**, where included files stand for their lines. -/
theorem read_config_values (F : Files) (hF : F.Dicts) (n : ℕ) (t : FType) (name : Str) (d : Dict) (h : readConfig F n t name = .ok d)
    (as : List (Str × Entry)) (ha : Says F t name as) (k : Str) : d.lookup k = lastValue as k := by
  obtain ⟨bs, h1, h2⟩ := read_sound F hF n t name d h
  rw [says_unique ha h1]
  exact h2.2 k

/-- **C89, the depth of calls decides only whether there is an answer.** -/
theorem read_config_depth (F : Files) (hF : F.Dicts) (n n' : ℕ) (t : FType) (name : Str) (d d' : Dict) (h : readConfig F n t name = .ok d)
    (h' : readConfig F n' t name = .ok d') (k : Str) : d.lookup k = d'.lookup k := by
  obtain ⟨as, h1, h2⟩ := read_sound F hF n t name d h
  rw [h2.2, read_config_values F hF n' t name d' h' as h1]

/-- **C89, the kinds of files**: by the ending of the name, unless the kind is given. -/
theorem file_kind (base : Str) :
    FType.of (base ++ ".yaml".toList) .auto = .ok .yaml ∧ FType.of (base ++ ".json".toList) .auto = .ok .json ∧
    FType.of (base ++ ".params".toList) .auto = .ok .params ∧
    (∀ name, ¬ ".yaml".toList <:+ name → ¬ ".json".toList <:+ name → ¬ ".params".toList <:+ name →
      FType.of name .auto = .error (.py .valueError)) ∧
    ∀ t name, t ≠ .auto → FType.of name t = .ok t := by
  have h1 : ".yaml".toList = ['.', 'y', 'a', 'm', 'l'] := rfl
  have h2 : ".json".toList = ['.', 'j', 's', 'o', 'n'] := rfl
  have h3 : ".params".toList = ['.', 'p', 'a', 'r', 'a', 'm', 's'] := rfl
  refine ⟨?_, ?_, ?_, ?_, ?_⟩
  · simp [FType.of, endsWith, List.isSuffixOf, h1]
  · simp [FType.of, endsWith, List.isSuffixOf, h1, h2]
  · simp [FType.of, endsWith, List.isSuffixOf, h1, h2, h3]
  · intro name a b c
    simp only [FType.of, endsWith, List.isSuffixOf_iff_suffix, if_neg a, if_neg b, if_neg c]
  · intro t name ht
    cases t <;> first | rfl | exact absurd rfl ht

/-- **C89, files that include one another in a circle** are an error, at any depth. -/
theorem include_circle (F : Files) (S : Str → Prop)
    (hS : ∀ name, S name → endsWith name ".params".toList = true ∧ ∃ ls, F.lines name = some ls ∧ ∃ v ∈ ls, ∃ name', Includes v name' ∧ S name')
    (n : ℕ) (name : Str) (h : S name) (d : Dict) : readConfig F n .params name ≠ .ok d ∧ readConfig F n .auto name ≠ .ok d := by
  have hk : ∀ name, endsWith name ".params".toList = true → FType.of name .auto = .ok .params := by
    intro name hn
    obtain ⟨base, rfl⟩ : ∃ base, base ++ ".params".toList = name := by
      rw [endsWith, List.isSuffixOf_iff_suffix] at hn
      exact hn
    exact (file_kind base).2.2.1
  induction n generalizing name d with
  | zero => simp [readConfig]
  | succ n ih =>
    obtain ⟨he, ls, hl, v, hv, name', hi, hs⟩ := hS name h
    have key : ∀ d, ls.foldlM (readLine (readConfig F n .auto)) [] ≠ .ok d := by
      intro d hd
      obtain ⟨b, c, hbc⟩ := foldlM_mem _ ls _ _ hd v hv
      rw [readLine_incl _ _ hi] at hbc
      cases hr : readConfig F n .auto name' with
      | error e => simp [hr] at hbc
      | ok d1 => exact (ih name' hs d1).2 hr
    constructor
    · simp only [readConfig, FType.of, hl]
      exact key d
    · simp only [readConfig, hk name he, hl]
      exact key d

/-- **C89, variables on the command line** count after the file, the last one first. -/
theorem program_config_values (F : Files) (hF : F.Dicts) (n : ℕ) (t : FType) (name : Str) (vars : List Str) (d : Dict)
    (h : programConfig F n t name vars = .ok d) (as : List (Str × Entry)) (ha : Says F t name as) :
    ∃ xs, List.Forall₂ (fun v x => parseVariable v = .ok x) vars xs ∧ ∀ k, d.lookup k = (lastValue xs k).or (lastValue as k) := by
  unfold programConfig at h
  cases hr : readConfig F n t name with
  | error e => simp [hr] at h
  | ok d0 =>
    rw [hr] at h
    obtain ⟨bs, h1, h2⟩ := read_sound F hF n t name d0 hr
    obtain rfl := says_unique ha h1
    obtain ⟨xs, hx, hh⟩ := addVariables_ok vars d0 d as h2 h
    exact ⟨xs, hx, fun k => by rw [hh.2, lastValue_append]⟩

/-- Every list of proper variables is accepted. -/
theorem program_config_total (F : Files) (n : ℕ) (t : FType) (name : Str) (vars : List Str) (d0 : Dict)
    (h : readConfig F n t name = .ok d0) (xs : List (Str × Entry)) (hx : List.Forall₂ (fun v x => parseVariable v = .ok x) vars xs) :
    ∃ d, programConfig F n t name vars = .ok d := by
  simp only [programConfig, h]
  exact addVariables_total vars xs d0 hx

/-- **C89, the option `-v`** counts, if no variable begins with `verbose` or `log_file`; without it the file counts. -/
theorem verbosity_option_partial (int : Entry → Except FileErr ℤ) (v : ℤ) (d0 d : Dict) (vars : List Str)
    (hv : ∀ x ∈ vars, ¬ verboseKey <+: x ∧ ¬ logKey <+: x) :
    verbosity int (some v) d0 d vars = .ok v ∧
    (∀ e, d0.lookup verboseKey = some e → verbosity int none d0 d vars = int e) ∧
    (d0.lookup verboseKey = none → verbosity int none d0 d vars = .ok 1) := by
  have hn : redoLogger vars = false := by
    rw [redoLogger, List.any_eq_false]
    intro x hx
    have := hv x hx
    simp only [Bool.or_eq_true, List.isPrefixOf_iff_prefix]
    tauto
  refine ⟨?_, fun e he => ?_, fun he => ?_⟩
  · simp [verbosity, hn]
  · simp only [verbosity, hn, he]
    cases int e <;> simp
  · simp [verbosity, hn, he]

/-- **C89, a variable `verbose=…`** counts before the option and the file, when these can be read. -/
theorem verbosity_variable (int : Entry → Except FileErr ℤ) (v : Option ℤ) (d0 d : Dict) (vars : List Str) (x : Str) (hx : x ∈ vars)
    (hp : verboseKey <+: x) (e : Entry) (he : d.lookup verboseKey = some e)
    (h0 : v = none → ∀ e0, d0.lookup verboseKey = some e0 → ∃ i, int e0 = .ok i) : verbosity int v d0 d vars = int e := by
  have hn : redoLogger vars = true :=
    List.any_eq_true.2 ⟨x, hx, by simp [List.isPrefixOf_iff_prefix.2 hp]⟩
  cases v with
  | some v => simp [verbosity, hn, he]
  | none =>
    cases h1 : d0.lookup verboseKey with
    | none => simp [verbosity, hn, he, h1]
    | some e0 =>
      obtain ⟨i, hi⟩ := h0 rfl e0 h1
      simp [verbosity, hn, he, h1, hi]

/-- **C89, the option `-l`** counts, if no variable begins with `verbose` or `log_file`; without it the file counts. -/
theorem log_file_option_partial (l : Str) (d0 d : Dict) (vars : List Str) (hv : ∀ x ∈ vars, ¬ verboseKey <+: x ∧ ¬ logKey <+: x) :
    logFile (some l) d0 d vars = some (.one (.str l)) ∧ logFile none d0 d vars = d0.lookup logKey := by
  have hn : redoLogger vars = false := by
    rw [redoLogger, List.any_eq_false]
    intro x hx
    have := hv x hx
    simp only [Bool.or_eq_true, List.isPrefixOf_iff_prefix]
    tauto
  constructor <;> simp [logFile, hn]

/-- **C89, a variable `log_file=…`** counts before the option and the file. -/
theorem log_file_variable (l : Option Str) (d0 d : Dict) (vars : List Str) (x : Str) (hx : x ∈ vars) (hp : logKey <+: x) (e : Entry)
    (he : d.lookup logKey = some e) : logFile l d0 d vars = some e := by
  have hn : redoLogger vars = true :=
    List.any_eq_true.2 ⟨x, hx, by simp [List.isPrefixOf_iff_prefix.2 hp]⟩
  simp [logFile, hn, he]

/-! ### Examples, and what fails -/

/-- `int` of strings. -/
def exInt : Entry → Except FileErr ℤ
  | .one (.str s) => match pyInt s with
    | some n => .ok n
    | none => .error (.py .valueError)
  | .one (.int n) => .ok n
  | _ => .error (.py .typeError)

/-- A file `a.params` that includes `b.params` and `c.yaml`, and two files that include one another. -/
def exFiles : Files where
  lines := fun s =>
    if s = "a.params".toList then some (["# first".toList, "nbins = 5".toList, "+b.params".toList, "".toList, " min_sep=1 # arcmin".toList,
      "+c.yaml".toList, "metric = Arc".toList])
    else if s = "b.params".toList then some (["nbins = 10".toList, "min_sep = 3".toList, "verbose = 1".toList])
    else if s = "d.params".toList then some ["+e.params".toList]
    else if s = "e.params".toList then some ["x_col = 1".toList, "+d.params".toList]
    else if s = "f.params".toList then some ["+b.params # the common part".toList]
    else none
  yaml := fun s => if s = "c.yaml".toList then some [("max_sep".toList, .one (.int 50)), ("metric".toList, .one (.str "Euclidean".toList))] else none
  json := fun _ => none

theorem exFiles_dicts : exFiles.Dicts := by
  refine ⟨fun n d h => ?_, fun n d h => absurd h (by unfold exFiles; exact fun h => nomatch h)⟩
  unfold exFiles at h
  dsimp only at h
  split at h
  · obtain rfl := Option.some.inj h
    decide
  · exact absurd h (by simp)

/-- What the reader gives for one key. -/
def ask (r : Except FileErr Dict) (k : String) : FileErr ⊕ Option Entry :=
  match r with
  | .ok d => .inr (d.lookup k.toList)
  | .error e => .inl e

/-- The model runs: `nbins` is that of the included file, `min_sep` that after it, `metric` that after the YAML file. -/
theorem exFiles_read : ask (readConfig exFiles 2 .auto "a.params".toList) "nbins" = .inr (some (.one (.str "10".toList))) ∧
    ask (readConfig exFiles 2 .auto "a.params".toList) "min_sep" = .inr (some (.one (.str "1".toList))) ∧
    ask (readConfig exFiles 2 .auto "a.params".toList) "max_sep" = .inr (some (.one (.int 50))) ∧
    ask (readConfig exFiles 2 .auto "a.params".toList) "metric" = .inr (some (.one (.str "Arc".toList))) ∧
    ask (readConfig exFiles 1 .auto "a.params".toList) "metric" = .inl .recursion := by decide +kernel

/-- `read_config_iff`, `read_config_values`: the file above says something, and this is what it says of `nbins`. -/
example : ∃ as, Says exFiles .auto "a.params".toList as ∧ lastValue as "nbins".toList = some (.one (.str "10".toList)) := by
  have h := exFiles_read.1
  cases hr : readConfig exFiles 2 .auto "a.params".toList with
  | error e => rw [hr] at h; exact nomatch h
  | ok d =>
    rw [hr] at h
    obtain ⟨as, ha⟩ := (read_config_iff exFiles exFiles_dicts .auto "a.params".toList).1.1 ⟨2, d, hr⟩
    refine ⟨as, ha, ?_⟩
    rw [← read_config_values exFiles exFiles_dicts 2 _ _ d hr as ha]
    exact Sum.inr.inj h

/-- `include_circle`. -/
example (n : ℕ) (d : Dict) : readConfig exFiles n .auto "d.params".toList ≠ .ok d :=
  (include_circle exFiles (fun s => s = "d.params".toList ∨ s = "e.params".toList) (by
    rintro name (rfl | rfl)
    · exact ⟨by decide, ["+e.params".toList], by decide +kernel, _, List.mem_singleton.2 rfl, "e.params".toList, by unfold Includes; decide +kernel, Or.inr rfl⟩
    · exact ⟨by decide, ["x_col = 1".toList, "+d.params".toList], by decide +kernel, "+d.params".toList, by simp, "d.params".toList,
        by unfold Includes; decide +kernel, Or.inl rfl⟩) n _ (Or.inl rfl) d).2

/-- `program_config_values`: variables. -/
example : ask (programConfig exFiles 2 .auto "a.params".toList ["nbins=7".toList, "nbins=8".toList]) "nbins" =
      .inr (some (.one (.str "8".toList))) ∧
    ask (programConfig exFiles 2 .auto "a.params".toList ["nbins=7".toList]) "metric" = .inr (some (.one (.str "Arc".toList))) := by
  decide +kernel

/-- **A comment after the name of an included file is taken as part of the name**, although it is cut off after values. -/
theorem include_comment_wrong : ask (readConfig exFiles 9 .auto "b.params".toList) "nbins" = .inr (some (.one (.str "10".toList))) ∧
    ask (readConfig exFiles 9 .auto "f.params".toList) "nbins" = .inl (.py .valueError) := by decide +kernel

/-- **With a variable `log_file=…` the option `-v` is forgotten**, if the file sets `verbose`: `corr2 b.params -v 3 log_file=x` runs with
verbosity 1. -/
theorem verbosity_option_wrong : ∃ d, programConfig exFiles 2 .auto "b.params".toList ["log_file=x".toList] = .ok d ∧
    (∀ d0, readConfig exFiles 2 .auto "b.params".toList = .ok d0 → verbosity exInt (some 3) d0 d ["log_file=x".toList] = .ok 1) := by
  refine ⟨[("nbins".toList, .one (.str "10".toList)), ("min_sep".toList, .one (.str "3".toList)), ("verbose".toList, .one (.str "1".toList)),
    ("log_file".toList, .one (.str "x".toList))], by decide +kernel, fun d0 _ => ?_⟩
  have h1 : redoLogger ["log_file=x".toList] = true := by decide +kernel
  simp only [verbosity, h1, if_true]
  decide +kernel

/-- **With a variable `verbose=…` the option `-l` is forgotten**, if the file sets `log_file`. -/
theorem log_file_option_wrong : ∃ (F : Files) (name : Str) (d : Dict), programConfig F 2 .auto name ["verbose=3".toList] = .ok d ∧
    ∀ d0, readConfig F 2 .auto name = .ok d0 →
      logFile (some "mine.log".toList) d0 d ["verbose=3".toList] = some (.one (.str "file.log".toList)) := by
  refine ⟨⟨fun _ => some ["log_file = file.log".toList], fun _ => none, fun _ => none⟩, "a.params".toList,
    [("log_file".toList, .one (.str "file.log".toList)), ("verbose".toList, .one (.str "3".toList))], by decide +kernel, fun d0 _ => ?_⟩
  have h1 : redoLogger ["verbose=3".toList] = true := by decide +kernel
  simp only [logFile, h1, if_true]
  decide +kernel

/-- `log_file_variable`: the variable counts before both. -/
example (l : Option Str) (d0 : Dict) : logFile l d0 [(logKey, .one (.str "x".toList))] ["log_file=x".toList] = some (.one (.str "x".toList)) :=
  log_file_variable l d0 _ _ _ (List.mem_singleton.2 rfl) (by decide +kernel) _ (by decide +kernel)

/-- `log_file_option_partial` -/
example (d0 d : Dict) : logFile (some "x".toList) d0 d ["nbins=7".toList] = some (.one (.str "x".toList)) :=
  (log_file_option_partial _ d0 d _ (by decide +kernel)).1

/-- `verbosity_option_partial`: without the variable it is 3. -/
example (d0 d : Dict) : verbosity exInt (some 3) d0 d ["nbins=7".toList] = .ok 3 :=
  (verbosity_option_partial exInt 3 d0 d _ (by decide +kernel)).1

end Config
end TreeCorr
