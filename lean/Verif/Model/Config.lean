import Mathlib.Data.Rat.Defs
import Mathlib.Data.List.Basic
import Verif.Model.Binning

/-!
Model of `/repo/treecorr/config.py`: parsing of assignments and booleans, checking and merging of configurations.

Strings are lists of characters.  White space and capitals are those of Lean's `Char`, which are the ASCII ones.
-/

namespace TreeCorr
namespace Config

abbrev Str := List Char

/-- A value in a configuration that is not a list.  Floats are rationals (no NaN, no infinities). -/
inductive Val where
  | none
  | bool (b : Bool)
  | int (n : ℤ)
  | float (x : ℚ)
  | str (s : Str)
deriving DecidableEq

/-- A value of the configuration: one value or a list. -/
inductive Entry where
  | one (v : Val)
  | list (l : List Val)
deriving DecidableEq

/-- `s.strip()` -/
def strip (s : Str) : Str := ((s.dropWhile Char.isWhitespace).reverse.dropWhile Char.isWhitespace).reverse

/-- `s.upper()` -/
def upper (s : Str) : Str := s.map Char.toUpper

/-- The digits of a Python integer, with single underscores between digits allowed: the value so far is `acc`, and `us` says that
an underscore may come now. -/
def digits : ℕ → Bool → Str → Option ℕ
  | acc, us, [] => if us then some acc else none
  | acc, us, c :: s =>
    if c.isDigit then digits (10 * acc + (c.toNat - '0'.toNat)) true s
    else if c = '_' ∧ us then digits acc false s
    else none

/-- `int(s)` for a string; `none` is a ValueError. -/
def pyInt (s : Str) : Option ℤ :=
  match strip s with
  | '-' :: s => (digits 0 false s).map fun n => -(n : ℤ)
  | '+' :: s => (digits 0 false s).map fun n => (n : ℤ)
  | s => (digits 0 false s).map fun n => (n : ℤ)

/-- The spellings of true, config.py:68. -/
def trueWords : List Str := ["TRUE".toList, "YES".toList, "T".toList, "Y".toList]
/-- The spellings of false, config.py:70. -/
def falseWords : List Str := ["FALSE".toList, "NO".toList, "F".toList, "N".toList, "NONE".toList]

/-- `parse_bool`, config.py:54-85. -/
def parseBool : Val → Except PyErr Val
  | .str s =>
    if upper (strip s) ∈ trueWords then .ok (.bool true)
    else if upper (strip s) ∈ falseWords then .ok (.bool false)
    else match pyInt s with
      | some n => .ok (.int n)
      | none => .error .valueError
  | .bool b => .ok (.bool b)
  | .int n => .ok (.int n)
  | _ => .error .valueError

/-- `s.split(c)` -/
def splitOn1 (c : Char) : Str → List Str
  | [] => [[]]
  | x :: l =>
    if x = c then [] :: splitOn1 c l
    else match splitOn1 c l with
      | h :: t => (x :: h) :: t
      | [] => [[x]]

/-- `s.split()`: the words between white space; `w` is the word being read. -/
def wordsAux : Str → Str → List Str
  | w, [] => if w = [] then [] else [w]
  | w, x :: l => if x.isWhitespace then (if w = [] then wordsAux [] l else w :: wordsAux [] l) else wordsAux (w ++ [x]) l

/-- `s.split()` -/
def words (s : Str) : List Str := wordsAux [] s

/-- `parse_variable`, config.py:26-51: the key and the value it is given. -/
def parseVariable (v : Str) : Except PyErr (Str × Entry) :=
  if '=' ∉ v then .error .valueError
  else
    let key := strip (v.takeWhile (· ≠ '='))
    let value := (v.dropWhile (· ≠ '=')).drop 1
    let value := if '#' ∈ value then value.takeWhile (· ≠ '#') else value
    let value := strip value
    match value.head?, value.getLast? with
    | some first, some last =>
      if first ∈ ['{', '[', '('] then
        if last ∉ ['}', ']', ')'] then .error .valueError
        else
          match (splitOn1 ',' (value.drop 1).dropLast).map strip with
          | [x] => .ok (key, .one (.str x))
          | xs => .ok (key, .list (xs.map .str))
      else
        match words value with
        | [x] => .ok (key, .one (.str x))
        | xs => .ok (key, .list (xs.map .str))
    | _, _ => .error .indexError

/-- The types of parameters. -/
inductive Ty where
  | bool | int | float | str
deriving DecidableEq

/-- Does a value have this type?  (`parse_bool` may return integers.) -/
def Val.hasTy : Val → Ty → Prop
  | .bool _, .bool => True
  | .int _, .bool => True
  | .int _, .int => True
  | .float _, .float => True
  | .str _, .str => True
  | _, _ => False

/-- The constructors `int`, `float`, `str` of Python, of which only this is used: the result has the type, and converting a
value which has the type changes nothing.  `list` is what they do with a list. -/
structure Conv where
  conv : Ty → Val → Except PyErr Val
  list : Ty → List Val → Except PyErr Val
  typed : ∀ t v w, t ≠ .bool → conv t v = .ok w → w.hasTy t
  fixed : ∀ t v, t ≠ .bool → v.hasTy t → conv t v = .ok v
  listTyped : ∀ t l w, t ≠ .bool → list t l = .ok w → w.hasTy t

/-- `parse`, config.py:195-212, of a value that is not a list. -/
def parse (C : Conv) (t : Ty) (v : Val) : Except PyErr Val :=
  if t = .bool then parseBool v
  else if v = .none then .ok .none
  else C.conv t v

/-- `parse` of a list. -/
def parseList (C : Conv) (t : Ty) (l : List Val) : Except PyErr Val :=
  if t = .bool then .error .valueError else C.list t l

/-- A parameter: type, may it be a list, default value (`none` for no default), allowed values. -/
structure Param where
  ty : Ty
  mayList : Bool
  default : Val
  valid : Option (List Val)

/-- Python's `==` between values that are not lists: booleans and numbers compare by value. -/
def Val.num : Val → Option ℚ
  | .bool b => some (if b then 1 else 0)
  | .int n => some n
  | .float x => some x
  | _ => Option.none

/-- Python's `==`. -/
def pyEq (a b : Val) : Bool :=
  match a.num, b.num with
  | some x, some y => x = y
  | _, _ => a = b

/-- `v is a string with which s starts` -/
def startsWith (s : Str) : Val → Bool
  | .str v => v.isPrefixOf s
  | _ => false

/-- `isinstance(v,str)` -/
def Val.isStr : Val → Bool
  | .str _ => true
  | _ => false

/-- The check against the allowed values, config.py:265-281. -/
def checkValid (p : Param) (e : Entry) : Except PyErr Entry :=
  match p.valid with
  | none => .ok e
  | some valid =>
    if p.ty = .str then
      match e with
      | .list _ => if valid.any Val.isStr then .error .attributeError else .error .valueError
      | .one v =>
        let exact := valid.filter (pyEq v)
        let matching := match v with
          | .str s => if exact = [] then valid.filter (startsWith s) else exact
          | _ => exact
        match matching with
        | [m] => .ok (.one m)
        | _ => .error .valueError
    else
      match e with
      | .list _ => .error .valueError
      | .one v => if valid.any (pyEq v) then .ok e else .error .valueError

/-- What the loop of `check_config` does with one value, config.py:255-284; the `continue` for `None` leaves the value. -/
def checkEntry (C : Conv) (p : Param) (e : Entry) : Except PyErr Entry :=
  match e with
  | .list l =>
    if p.mayList then
      match l.mapM (parse C p.ty) with
      | .ok vs => checkValid p (.list vs)
      | .error err => .error err
    else
      match parseList C p.ty l with
      | .ok v => checkValid p (.one v)
      | .error err => .error err
  | .one v =>
    match parse C p.ty v with
    | .ok .none => .ok (.one v)
    | .ok w => checkValid p (.one w)
    | .error err => .error err

abbrev Dict := List (Str × Entry)
abbrev Params := List (Str × Param)

/-- `d[k] = e` -/
def dset (d : Dict) (k : Str) (e : Entry) : Dict :=
  if k ∈ d.map Prod.fst then d.map (fun x => if x.1 = k then (k, e) else x) else d ++ [(k, e)]

/-- `del d[k]` -/
def ddel (d : Dict) (k : Str) : Dict := d.filter (fun x => x.1 ≠ k)

/-- The renaming of a deprecated key, config.py:239-249: the new dictionary and the new key. -/
def rename (aliases : List (Str × Str)) (d : Dict) (k : Str) : Dict × Str :=
  match aliases.lookup k, d.lookup k with
  | some k', some e => (ddel (dset d k' e) k, k')
  | _, _ => (d, k)

/-- One round of the loop of `check_config`, config.py:237-284. -/
def checkKey (C : Conv) (P : Params) (aliases : List (Str × Str)) (d : Dict) (k : Str) : Except PyErr Dict :=
  let x := rename aliases d k
  match P.lookup x.2, x.1.lookup x.2 with
  | none, _ => .error .typeError
  | some _, none => .error .keyError
  | some p, some e =>
    match checkEntry C p e with
    | .ok e' => .ok (dset x.1 x.2 e')
    | .error err => .error err

/-- The default of one parameter, config.py:287-292. -/
def addDefault (d : Dict) (x : Str × Param) : Dict :=
  if x.1 ∈ d.map Prod.fst then d
  else if x.2.default = .none then d
  else dset d x.1 (.one x.2.default)

/-- `check_config`, config.py:215-294. -/
def checkConfig (C : Conv) (P : Params) (aliases : List (Str × Str)) (d : Dict) : Except PyErr Dict :=
  match (d.map Prod.fst).foldlM (checkKey C P aliases) d with
  | .ok d => .ok (P.foldl addDefault d)
  | .error e => .error e

/-- `merge_config`, config.py:399-420. -/
def mergeConfig (C : Conv) (P : Params) (aliases : List (Str × Str)) (config kwargs : Dict) : Except PyErr Dict :=
  checkConfig C P aliases
    (config.foldl (fun kw x => if x.1 ∈ P.map Prod.fst ∧ x.1 ∉ kw.map Prod.fst then dset kw x.1 x.2 else kw) kwargs)

/-- `make_minimal_config`, config.py:422-432. -/
def minimalConfig (P : Params) (d : Dict) : Dict :=
  d.filter fun x => match P.lookup x.1 with
    | some p => match x.2 with
      | .one v => !(pyEq v p.default)
      | .list _ => true
    | none => false

/-- `convert`, config.py:325-345; `unit` says that `'unit' in key`, and `parseUnit` is the table of angle units. -/
def convert (C : Conv) (parseUnit : Val → Except PyErr Val) (unit : Bool) (t : Ty) (v : Val) : Except PyErr Val :=
  if v = .none then .ok .none
  else if unit then parseUnit v
  else if t = .bool then parseBool v
  else C.conv t v

/-- `l[num]` for a Python list: negative numbers count from the end. -/
def pyIndex {α : Type} (l : List α) (num : ℤ) : Option α :=
  if 0 ≤ num then l[num.toNat]?
  else if 0 ≤ (l.length : ℤ) + num then l[((l.length : ℤ) + num).toNat]?
  else none

/-- `get_from_list`, config.py:347-378.  `cv` is `convert` for the key and the type. -/
def getFromList (cv : Val → Except PyErr Val) (d : Dict) (k : Str) (num : ℤ) (default : Val) : Except PyErr Val :=
  match d.lookup k with
  | some (.list l) =>
    match pyIndex l num with
    | none => .error .indexError
    | some v =>
      if v ≠ .none then cv v
      else if default ≠ .none then cv default
      else .ok .none
  | some (.one v) =>
    if v ≠ .none then cv v
    else if default ≠ .none then cv default
    else .ok .none
  | none => if default ≠ .none then cv default else .ok .none

end Config
end TreeCorr
