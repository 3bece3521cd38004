import Verif.Model.ReadCols

/-! Specification vocabulary for the columns of a catalogue read from a file. -/

namespace TreeCorr
namespace ReadCols
variable {D : Type}

/-- The quantities which random catalogues do not have. -/
def isValue : Key → Bool
  | .k | .z1 | .z2 | .v1 | .v2 | .g1 | .g2 | .t1 | .t2 | .q1 | .q2 => true
  | _ => false

/-- What the documentation promises for a quantity: the column `x_col` of the extension `x_ext`, if it is given. -/
def wanted (c : Conf D) (f : File D) (isRand : Bool) (key : Key) : Option D :=
  if isRand && isValue key then none else if c.given key then f (c.ext key) (c.col key) else none

/-- Columns only, no two quantities under the same name in different extensions, extra columns in one extension only, and of the pairs
that are given both or none in the file; `"0"` is not the name of a column. -/
structure Plain (c : Conf D) (f : File D) : Prop where
  noEval : ∀ key, c.eval key = none
  sameExt : ∀ a b, c.given a = true → c.col a = c.col b → c.ext a = c.ext b
  extraOk : ∀ a, c.given a = true → c.col a ∈ c.extra → ∀ e ∈ allExts c, f.names e (c.col a) = true → e = c.ext a
  halves : ∀ q ∈ pairs, c.given q.1 = true → c.bad f q.1 = c.bad f q.2
  zero : ∀ key, f.names (c.ext key) "0" = false

/-- Extra columns are each in one of the extensions only. -/
def OneExt (c : Conf D) (f : File D) : Prop :=
  ∀ n ∈ c.extra, ∀ e ∈ allExts c, ∀ e' ∈ allExts c, f.names e n = true → f.names e' n = true → e = e'

end ReadCols
end TreeCorr
