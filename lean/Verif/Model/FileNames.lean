import Verif.Model.ConfigFile

/-!
# Which files are read: `read_catalogs`

The lines of a text file end with a newline; carriage returns are left out.
-/

namespace TreeCorr
namespace Config

/-- `config[key]`: a string or a list of strings. -/
inductive Names where
  | str (s : Str)
  | list (l : List Str)

/-- Python's `s.split()`; the first argument is the word so far. -/
def splitWords : Str → Str → List Str
  | cur, [] => if cur = [] then [] else [cur]
  | cur, c :: s =>
    if c.isWhitespace then (if cur = [] then splitWords [] s else cur :: splitWords [] s)
    else splitWords (cur ++ [c]) s

/-- The lines of a file, without the newlines; the first argument is the line so far. -/
def fileLines : Str → Str → List Str
  | cur, [] => if cur = [] then [] else [cur]
  | cur, c :: s => if c = '\n' then cur :: fileLines [] s else fileLines (cur ++ [c]) s

/-- `file_names = [ f.strip() for f in fin ]`, catalog.py:3256-3257. -/
def listNames (text : Str) : List Str := (fileLines [] text).map strip

/-- `'rand' in key`. -/
def hasRand (key : Str) : Bool := key.tails.any fun t => "rand".toList.isPrefixOf t

/-- What `read_catalogs` is given: the keys, the configuration, and the contents of text files (`none` if a file is
not there). -/
structure Call where
  key : Option Str
  listKey : Option Str
  isRand : Option Bool
  config : Str → Option Names
  files : Str → Option Str

/-- The names of the files, catalog.py:3248-3260 and 3266-3267; the list file is given by one name. -/
def fileNames (c : Call) : Except FileErr (List Str) :=
  if c.key = none ∧ c.listKey = none then .error (.py .typeError)
  else match c.key.bind c.config with
    | some v =>
      if (c.listKey.bind c.config).isSome then .error (.py .typeError)
      else match v with
        | .list l => .ok l
        | .str s => .ok (splitWords [] s)
    | none => match c.listKey.bind c.config with
      | none => .ok []
      | some (.list _) => .error (.py .typeError)
      | some (.str f) => match c.files f with
        | none => .error .open
        | some t => .ok (listNames t)

/-- `is_rand`, catalog.py:3261-3265. -/
def randFlag (c : Call) : Bool :=
  match c.isRand with
  | some r => r
  | none => match c.key with
    | some k => hasRand k
    | none => match c.listKey with
      | some k => hasRand k
      | none => false

/-- `read_catalogs`, catalog.py:3215-3271; `cat name is_rand` are the patches of the catalogue. -/
def readCatalogs {C : Type} (cat : Str → Bool → Except FileErr (List C)) (c : Call) : Except FileErr (List C) :=
  match fileNames c with
  | .error e => .error e
  | .ok l => (l.mapM fun f => cat f (randFlag c)).map List.flatten

end Config
end TreeCorr
