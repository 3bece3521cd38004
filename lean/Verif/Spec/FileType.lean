import Verif.Model.FileType

/-!
# The extension of a file name
-/

namespace TreeCorr
namespace FileType

/-- `name` is `dir/stem.e`, with or without a directory; the stem is more than dots. -/
def HasExt (name e : List Char) : Prop :=
  ∃ dir stem, name = dir ++ stem ++ '.' :: e ∧ (dir = [] ∨ ∃ d, dir = d ++ ['/']) ∧ '/' ∉ stem ∧ (∃ c ∈ stem, c ≠ '.') ∧ '.' ∉ e ∧ '/' ∉ e

/-- The extension begins with `s`, in capital or small letters. -/
def ExtBegins (name : List Char) (s : String) : Prop := ∃ e, HasExt name e ∧ s.toList <+: e.map Char.toLower

/-- The names of the kinds. -/
def Kind.name : Kind → List Char
  | .fits => "FITS".toList
  | .hdf => "HDF".toList
  | .ascii => "ASCII".toList
  | .parquet => "PARQUET".toList

end FileType
end TreeCorr
