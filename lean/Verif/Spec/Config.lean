import Verif.Model.Config

/-! What the documentation of the configuration functions says. -/

namespace TreeCorr
namespace Config

/-- The allowed value `m` stands for the converted value `w` of a parameter with allowed values `valid`: a string is itself
allowed, or it is longer than exactly one allowed string; any other value is allowed if it equals an allowed value. -/
def Allowed (ty : Ty) (valid : Option (List Val)) (w m : Val) : Prop :=
  match valid with
  | none => m = w
  | some valid =>
    if ty = .str then
      ∃ s t, w = .str s ∧ m = .str t ∧ m ∈ valid ∧
        (t = s ∨ (Val.str s ∉ valid ∧ t <+: s ∧ ∀ t', Val.str t' ∈ valid → t' <+: s → t' = t))
    else m = w ∧ ∃ u ∈ valid, pyEq w u = true

/-- The value that a single entry `v` of a parameter becomes: `None` stays for all but booleans; otherwise the value is
converted to the type and must be allowed. -/
def Becomes (C : Conv) (p : Param) (v m : Val) : Prop :=
  (v = .none ∧ p.ty ≠ .bool ∧ m = .none) ∨
  ∃ w, w ≠ .none ∧ (if p.ty = .bool then parseBool v = .ok w else v ≠ .none ∧ C.conv p.ty v = .ok w) ∧ Allowed p.ty p.valid w m

/-- What a dictionary gives for a key: the value passed, else the value of the parameter's default. -/
def defaultOf (P : Params) (k : Str) : Option Entry :=
  match P.lookup k with
  | some p => if p.default ≠ .none then some (.one p.default) else none
  | none => none

/-- The given entry of a merge: the keyword argument if there is one, else the entry of the config for a known parameter. -/
def given (P : Params) (config kwargs : Dict) (k : Str) : Option Entry :=
  match kwargs.lookup k with
  | some e => some e
  | none => if (P.lookup k).isSome then config.lookup k else none

/-- A parameter table whose defaults are themselves proper values. -/
def Params.Good (C : Conv) (P : Params) : Prop :=
  (P.map Prod.fst).Nodup ∧ ∀ x ∈ P, x.2.default ≠ .none → checkEntry C x.2 (.one x.2.default) = .ok (.one x.2.default)

/-- All characters are white space. -/
def White (s : Str) : Prop := ∀ c ∈ s, c.isWhitespace = true

/-- No white space at either end. -/
def Trimmed (s : Str) : Prop := (∀ c ∈ s.head?, c.isWhitespace = false) ∧ ∀ c ∈ s.getLast?, c.isWhitespace = false

/-- `s` is the word `w` in any capitalisation with white space around it. -/
def Spelt (s w : Str) : Prop := ∃ a x b, s = a ++ x ++ b ∧ White a ∧ White b ∧ x.map Char.toUpper = w

/-- The number written with these decimal digits. -/
def decimal (ds : Str) : ℕ := ds.foldl (fun n c => 10 * n + (c.toNat - '0'.toNat)) 0

end Config
end TreeCorr
