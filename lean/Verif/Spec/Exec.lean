import Verif.Model.Exec

/-!
Specification of the programs `corr2` and `corr3`: which output is to be computed from what (docs/params.rst, "Parameters about the output
file(s)"), and when the input is sufficient.
-/

namespace TreeCorr
namespace Exec
open ReadCols (OutKey Fld)

/-- The kinds of the two catalogues that are correlated for an output. -/
def kinds : OutKey → Letter × Letter
  | .nn => (none, none)
  | .nk => (none, some .K) | .nz => (none, some .Z) | .nv => (none, some .V)
  | .ng | .nm | .norm => (none, some .G)
  | .nt => (none, some .T) | .nq => (none, some .Q)
  | .kk => (some .K, some .K) | .kz => (some .K, some .Z) | .kv => (some .K, some .V) | .kg => (some .K, some .G)
  | .kt => (some .K, some .T) | .kq => (some .K, some .Q)
  | .zz => (some .Z, some .Z) | .vv => (some .V, some .V)
  | .gg | .m2 => (some .G, some .G)
  | .tt => (some .T, some .T) | .qq => (some .Q, some .Q)

/-- The correlation of the data for an output: the first file with the second, or the first with itself. -/
def data (i : In) (key : OutKey) : Corr :=
  ⟨(kinds key).1, (kinds key).2, .cat1, if i.there .cat2 then some .cat2 else none⟩

/-- The statistic for counts with values of kind `F`: as asked for, and if it is not given, compensated if there are randoms.  (A value
`None` counts as asking for the simple one; see `statistic_none_wrong`.) -/
def compensates (i : In) (F : Fld) : Prop := i.there .rand1 = true ∧ i.stat F ≠ some none ∧ i.stat F ≠ some (some .simple)

instance (i : In) (F : Fld) : Decidable (compensates i F) := inferInstanceAs (Decidable (_ ∧ _ ∧ _))

/-- The correlation of the randoms with the second file, for the compensated statistic. -/
def randoms (i : In) (F : Fld) : Option Corr := if compensates i F then some ⟨none, some F, .rand1, some .cat2⟩ else none

/-- Where the data are, and where the randoms that go with them are. -/
def Src.random : Src → Src
  | .cat1 => .rand1
  | .cat2 => .rand2
  | s => s

/-- Counts: the data, and if there are randoms their counts, and with the compensated statistic data with randoms both ways; for a single
catalogue one way. -/
def countsOf (i : In) : Out :=
  let dd := data i .nn
  if i.there .rand1 = true then
    .counts dd (some { dd with c1 := .rand1, c2 := dd.c2.map Src.random })
      (if i.nnStat = .compensated then some ⟨none, none, .cat1, some ((dd.c2.getD .cat1).random)⟩ else none)
      (if i.nnStat = .compensated then dd.c2.map fun c => ⟨none, none, .rand1, some c⟩ else none)
  else .counts dd none none none

/-- What is to be written for an output. -/
def documented (i : In) (key : OutKey) : Out :=
  match key with
  | .nn => countsOf i
  | .m2 => .mapSq (data i .m2)
  | .nm => .nmap (data i .nm) (randoms i .G)
  | .norm => .norm (data i .norm) ⟨some .G, some .G, .cat2, none⟩ ⟨none, none, .cat1, none⟩ ⟨none, none, .rand1, none⟩
      (if i.nnStat = .compensated then some ⟨none, none, .cat1, some .rand1⟩ else none) (randoms i .G)
  | key => match kinds key with
    | (none, some F) => .cross (data i key) (randoms i F)
    | _ => .plain (data i key)

/-- The input suffices for the outputs asked for. -/
structure Sufficient (i : In) : Prop where
  /-- there are data -/
  cat1 : i.there .cat1 = true
  /-- second randoms go with second data -/
  rand2 : i.there .rand2 = true → i.there .cat2 = true
  /-- correlations of different kinds are between two files -/
  cat2 : ∀ key, i.has key = true → (kinds key).1 ≠ (kinds key).2 → i.there .cat2 = true
  /-- counts of two files need randoms for both or none -/
  both : i.has .nn = true → i.there .rand1 = true → i.there .cat2 = true → i.there .rand2 = true
  /-- the compensated statistic needs randoms -/
  rand1 : ∀ key F, i.has key = true → kinds key = (none, some F) → i.stat F = some (some .compensated) → i.there .rand1 = true
  /-- so does the normalised aperture mass -/
  norm : i.has .norm = true → i.there .rand1 = true

/-- The order in which the outputs are written. -/
def order : List OutKey :=
  [.nn, .nk, .kk, .ng, .nm, .norm, .kg, .gg, .m2, .nz, .kz, .zz, .nv, .kv, .vv, .nt, .kt, .tt, .nq, .kq, .qq]

/-- The catalogues that go into a correlation, and the kind of values that is used of each. -/
def Corr.uses (c : Corr) : List (Src × Letter) :=
  (c.c1, c.l1) :: (c.c2.map fun s => (s, c.l2)).toList

/-- The same for an output. -/
def Out.uses : Out → List (Src × Letter)
  | .counts dd rr dr rd => (dd :: (rr.toList ++ dr.toList ++ rd.toList)).flatMap Corr.uses
  | .cross nk rk => (nk :: rk.toList).flatMap Corr.uses
  | .plain kk => kk.uses
  | .nmap ng rg => (ng :: rg.toList).flatMap Corr.uses
  | .norm ng gg dd rr dr rg => (ng :: gg :: dd :: rr :: (dr.toList ++ rg.toList)).flatMap Corr.uses
  | .mapSq gg => gg.uses

/-- What `corr3` is to write for an output: the counts of data, of randoms, and with the compensated statistic of one of the data with two
randoms and of one random with two of the data. -/
def documented3 (i : In3) : OutKey3 → Out3
  | .nnn =>
    if i.rand = true then
      .counts ⟨none, .cat1, none⟩ (some ⟨none, .rand1, none⟩)
        (if i.nnnStat = .compensated then some ⟨none, .cat1, some .rand1⟩ else none)
        (if i.nnnStat = .compensated then some ⟨none, .rand1, some .cat1⟩ else none)
    else .counts ⟨none, .cat1, none⟩ none none none
  | .kkk => .plain ⟨some .K, .cat1, none⟩
  | .ggg => .plain ⟨some .G, .cat1, none⟩
  | .m3 => .map3 ⟨some .G, .cat1, none⟩

end Exec
end TreeCorr
