import Verif.Model.Saved

/-!
What is meant by a catalogue whose file can be read back, and by a directory that holds the patches of a catalogue.
-/

namespace TreeCorr
namespace Catalog

variable {R : Type} [Field R] [DecidableEq R]

/-- Either `x`, `y` are given and no `ra`, `dec`, `r`, or `x`, `y`, `z` are those of the rows of `ra`, `dec`, `r`. -/
def Positions (xyz : Option R → Option R → Option (Option R) → Option R × Option R × Option R) (t : Tab R) : Prop :=
  match t.col .ra with
  | none => t.col .dec = none ∧ t.col .r = none ∧ (t.col .x).isSome ∧ (t.col .y).isSome
  | some ra => ∃ dec, t.col .dec = some dec ∧ ∃ rows : List (Option R × Option R × Option R),
      rows = (List.range ra.length).map (fun i => xyz (ra[i]?.getD none) (dec[i]?.getD none) ((t.col .r).map fun r => r[i]?.getD none)) ∧
      t.col .x = some (rows.map fun v => v.1) ∧ t.col .y = some (rows.map fun v => v.2.1) ∧ t.col .z = some (rows.map fun v => v.2.2)

/-- The columns of a file, with or without the patch numbers. -/
def Want.ofFile (patch : Bool) (d : Tab R) : Want := ⟨fun c => (d.col c).isSome, d.w.isSome, d.wpos.isSome, patch⟩

/-- The catalogue without flags, and without patch numbers unless `patch`. -/
def Cat.bare (patch : Bool) (C : Cat R) : Cat R :=
  { C with tab := { C.tab with flag := none, patch := if patch then C.tab.patch else none } }

/-- The configuration names no columns that the catalogue lacks, and all that it has unless it is in memory. -/
structure Obj.Named (o : Obj R) : Prop where
  col : ∀ c, o.cfg.col c = true → (o.cat.tab.col c).isSome
  w : o.cfg.w = true → o.cat.nontrivial = true
  wpos : o.cfg.wpos = true → o.cat.tab.wpos.isSome
  all : o.loaded = true ∨ (∀ c, ((o.cat.toFile .one).col c).isSome → o.cfg.col c = true) ∧ (o.cat.nontrivial = true → o.cfg.w = true) ∧
    (o.cat.tab.wpos.isSome → o.cfg.wpos = true)

/-- The files hold these patches. -/
def Holds (o : Obj R) (disk : Disk R) (Ds : List (Cat R)) : Prop :=
  Ds.length = o.npatch ∧ ∀ i D, Ds[i]? = some D → disk (o.name i) = some (D.toFile .one)

end Catalog
end TreeCorr
