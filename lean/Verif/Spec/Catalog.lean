import Verif.Model.Catalog

/-!
What a table of input rows means: rows are numbered, each present column gives one value per row.
-/

namespace TreeCorr
namespace Catalog

variable {R : Type} [Field R] [DecidableEq R]

/-- An input table by rows: `S.col c = some f` says that column `c` is present with value `f i` (`none` is NaN) in row `i`. -/
structure Src (R : Type) where
  col : Col → Option (ℕ → Option R)
  w : Option (ℕ → Option R)
  wpos : Option (ℕ → Option R)
  flag : Option (ℕ → ℤ)
  patch : Option (ℕ → ℤ)

/-- The first `n` items of a column. -/
def arr {α : Type} (n : ℕ) (f : ℕ → α) : List α := (List.range n).map f

/-- The arrays of the first `n` rows. -/
def Src.tab (n : ℕ) (S : Src R) : Tab R where
  col c := (S.col c).map (arr n)
  w := S.w.map (arr n)
  wpos := S.wpos.map (arr n)
  flag := S.flag.map (arr n)
  patch := S.patch.map (arr n)

/-- The weight of a row, 1 if no weights are given. -/
def Src.weight (S : Src R) (i : ℕ) : Option R := S.w.elim (some 1) (· i)

/-- Some column that is used has NaN in this row. -/
def Src.NaN (S : Src R) (i : ℕ) : Prop :=
  (∃ c f, S.col c = some f ∧ f i = none) ∨ (∃ f, S.w = some f ∧ f i = none) ∨ ∃ f, S.wpos = some f ∧ f i = none

/-- The flag of the row is to be ignored. -/
def Src.Flagged (s : Settings R) (S : Src R) (i : ℕ) : Prop := ∃ f, S.flag = some f ∧ s.flagged (f i) = true

/-- The value of a column after the flips. -/
def flipped (s : Settings R) (c : Col) (a : Option R) : Option R :=
  if c ∈ Col.flippable ∧ s.flip c = true then a.map (- ·) else a

/-- The positions made from `ra`, `dec`, `r` of a row. -/
def Src.xyzRow (s : Settings R) (S : Src R) (i : ℕ) : Option R × Option R × Option R :=
  s.xyz ((S.col .ra).elim none (· i)) ((S.col .dec).elim none (· i)) ((S.col .r).map (· i))

/-- The value of a column that the user expects in row `i`: as given, with the sign flipped on request, and positions made from
`ra` and `dec` if no `x` is given. -/
def Src.out (s : Settings R) (S : Src R) (c : Col) : Option (ℕ → Option R) :=
  if S.col .x = none then
    match c with
    | .x => some fun i => (S.xyzRow s i).1
    | .y => some fun i => (S.xyzRow s i).2.1
    | .z => some fun i => (S.xyzRow s i).2.2
    | c => (S.col c).map fun f i => flipped s c (f i)
  else (S.col c).map fun f i => flipped s c (f i)

/-- Positions are given in one of the two ways, and flips are asked only for columns that are there. -/
structure Src.Ok (s : Settings R) (S : Src R) : Prop where
  pos : (S.col .x).isSome ∨ (S.col .y = none ∧ S.col .z = none ∧ (S.col .ra).isSome ∧ (S.col .dec).isSome)
  flips : ∀ c ∈ Col.flippable, s.flip c = true → (S.col c).isSome

/-- A good row: no NaN, not flagged, weight not zero. -/
def Src.Good (s : Settings R) (S : Src R) (i : ℕ) : Prop := ¬ S.NaN i ∧ ¬ S.Flagged s i ∧ S.weight i ≠ some 0

end Catalog
end TreeCorr

namespace TreeCorr
namespace Catalog

/-- The items of a column in the rows where the patch number is `p`, in order. -/
def rowsIn {α : Type} (P : List ℤ) (p : ℤ) (l : List α) : List α := ((P.zip l).filter fun x => x.1 = p).map Prod.snd

end Catalog
end TreeCorr
