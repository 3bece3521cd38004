import Verif.Model.Config

/-!
Model of reading configuration files (`read_config`, `_read_params_file` of /repo/treecorr/config.py) and of the variables on the command line
of the programs corr2 and corr3 (/repo/scripts/corr2, /repo/scripts/corr3).  What the libraries for YAML and JSON make of a file is a parameter.
-/

namespace TreeCorr
namespace Config

/-- Errors: those of the parser, a file that can not be opened or decoded, and Python's RecursionError. -/
inductive FileErr where
  | py (e : PyErr)
  | open
  | recursion
deriving DecidableEq

/-- The kinds of files. -/
inductive FType where
  | auto | yaml | json | params
deriving DecidableEq

/-- The files: the lines of the text, and what the libraries read from it. -/
structure Files where
  lines : Str → Option (List Str)
  yaml : Str → Option Dict
  json : Str → Option Dict

/-- `s.endswith(t)` -/
def endsWith (s t : Str) : Bool := t.isSuffixOf s

/-- The kind of file, config.py:115-123. -/
def FType.of (name : Str) : FType → Except FileErr FType
  | .auto =>
    if endsWith name ".yaml".toList then .ok .yaml
    else if endsWith name ".json".toList then .ok .json
    else if endsWith name ".params".toList then .ok .params
    else .error (.py .valueError)
  | t => .ok t

/-- `config.update(config1)` -/
def dupdate (d d1 : Dict) : Dict := d1.foldl (fun d x => dset d x.1 x.2) d

/-- One line, config.py:149-157; `incl` is `read_config` of a name. -/
def readLine (incl : Str → Except FileErr Dict) (d : Dict) (v : Str) : Except FileErr Dict :=
  match strip v with
  | [] => .ok d
  | '#' :: _ => .ok d
  | '+' :: name => match incl name with
    | .ok d1 => .ok (dupdate d d1)
    | .error e => .error e
  | v => match parseVariable v with
    | .ok x => .ok (dset d x.1 x.2)
    | .error e => .error (.py e)

/-- `read_config`, config.py:106-131, with `_read_params_file`, config.py:145-158.  The first argument is the depth of calls that Python allows. -/
def readConfig (F : Files) : ℕ → FType → Str → Except FileErr Dict
  | 0, _, _ => .error .recursion
  | n + 1, t, name =>
    match t.of name with
    | .error e => .error e
    | .ok .yaml => match F.yaml name with
      | some d => .ok d
      | none => .error .open
    | .ok .json => match F.json name with
      | some d => .ok d
      | none => .error .open
    | .ok _ => match F.lines name with
      | none => .error .open
      | some ls => ls.foldlM (readLine (readConfig F n .auto)) []

/-- The variables of the command line, scripts/corr2:93-96. -/
def addVariables (d : Dict) (vars : List Str) : Except FileErr Dict :=
  vars.foldlM (fun d v => match parseVariable v with
    | .ok x => .ok (dset d x.1 x.2)
    | .error e => .error (.py e)) d

/-- The configuration that corr2 and corr3 use, scripts/corr2:78-98. -/
def programConfig (F : Files) (n : ℕ) (t : FType) (name : Str) (vars : List Str) : Except FileErr Dict :=
  match readConfig F n t name with
  | .ok d => addVariables d vars
  | .error e => .error e

/-- The names `verbose` and `log_file`. -/
def verboseKey : Str := "verbose".toList
def logKey : Str := "log_file".toList

/-- `redo_logger`, scripts/corr2:97-98. -/
def redoLogger (vars : List Str) : Bool := vars.any fun x => verboseKey.isPrefixOf x || logKey.isPrefixOf x

/-- The verbosity of the program, scripts/corr2:80-104: `v` is the option `-v`, `d0` the configuration of the file, `d` that with the variables.  `int`
is Python's `int` of a value. -/
def verbosity (int : Entry → Except FileErr ℤ) (v : Option ℤ) (d0 d : Dict) (vars : List Str) : Except FileErr ℤ :=
  let first : Except FileErr ℤ := match v with
    | some v => .ok v
    | none => match d0.lookup verboseKey with
      | some e => int e
      | none => .ok 1
  match first with
  | .error e => .error e
  | .ok first =>
    if redoLogger vars then
      match d.lookup verboseKey with
      | some e => int e
      | none => .ok first
    else .ok first

/-- The log file of the program, scripts/corr2:82-103: `l` is the option `-l`. -/
def logFile (l : Option Str) (d0 d : Dict) (vars : List Str) : Option Entry :=
  let first : Option Entry := match l with
    | some s => some (.one (.str s))
    | none => d0.lookup logKey
  if redoLogger vars then
    match d.lookup logKey with
    | some e => some e
    | none => first
  else first

end Config
end TreeCorr
