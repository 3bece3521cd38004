import Verif.Model.FileNames

/-!
Names as a user writes them.
-/

namespace TreeCorr
namespace Config

/-- A name without white space. -/
def Word (s : Str) : Prop := s ≠ [] ∧ ∀ c ∈ s, c.isWhitespace = false

/-- A name that may have white space inside, but not at the ends and no newline. -/
def Name (s : Str) : Prop :=
  ∃ c d, s.head? = some c ∧ s.getLast? = some d ∧ c.isWhitespace = false ∧ d.isWhitespace = false ∧ '\n' ∉ s

/-- Whites space. -/
def Whites (s : Str) : Prop := ∀ c ∈ s, c.isWhitespace = true

/-- The names in a string, each followed by white space; none is needed after the last. -/
inductive Separated : Str → List Str → Prop
  | nil {w} : Whites w → Separated w []
  | last {w n} : Whites w → Word n → Separated (w ++ n) [n]
  | cons {w n c s l} : Whites w → Word n → c.isWhitespace = true → Separated s l → Separated (w ++ n ++ c :: s) (n :: l)

/-- The text of a list file: each name on a line, with white space around it; the last newline may be missing. -/
inductive Listed : Str → List Str → Prop
  | nil : Listed [] []
  | last {w n w'} : Whites w → Whites w' → '\n' ∉ w → '\n' ∉ w' → Name n → Listed (w ++ n ++ w') [n]
  | cons {w n w' s l} : Whites w → Whites w' → '\n' ∉ w → '\n' ∉ w' → Name n → Listed s l →
      Listed (w ++ n ++ w' ++ '\n' :: s) (n :: l)

end Config
end TreeCorr
