import Verif.Model.CatState

/-!
What a catalogue should answer, whatever was asked before.
-/

namespace TreeCorr
namespace CatState

variable {R E K F : Type} [Field R] [DecidableEq R] [AddCommGroup E] [Module R E]

/-- The sum of the weights. -/
def Data.total (D : Data R E) : R := (D.rows.map Row.w).sum

/-- The centre of some rows: the weighted mean of their positions, on the sphere its direction; there is none if the weights add up to
zero. -/
def centre (e : Env R E K F) (l : List (Row R E)) : Option E :=
  if (l.map Row.w).sum = 0 then none else e.unit ((l.map Row.w).sum⁻¹ • (l.map fun r => r.w • r.pos).sum)

/-- The rows of a patch. -/
def Data.inPatch (D : Data R E) (p : ℕ) : List (Row R E) := D.rows.filter fun r => r.patch = p

/-- The number of patches. -/
def Data.count (D : Data R E) : How E → ℕ
  | .none => 1
  | .column _ => (D.rows.map Row.patch).foldr max 0 + 1
  | .centers c => c.length
  | .kmeans c => c.length

/-- The numbers that occur, in order. -/
def Data.numbers (D : Data R E) (n : ℕ) : List ℕ := (List.range n).filter fun p => ∃ r ∈ D.rows, r.patch = p

/-- The centres of the patches: those given or found by k-means, otherwise the centres of their rows; there is none of a patch without
rows. -/
def Data.centres (e : Env R E K F) (D : Data R E) : How E → Option (List (Option E))
  | .none => some [centre e D.rows]
  | .column n =>
    if ∃ p < D.count (.column n), D.inPatch p = [] then none
    else some ((List.range (D.count (.column n))).map fun p => centre e (D.inPatch p))
  | .centers c => some (c.map some)
  | .kmeans c => some (c.map some)

/-- The answers for the rows `D`. -/
def Data.truth (e : Env R E K F) (D : Data R E) (h : How E) : Op K → Ans R E F
  | .rows => .rows D.rows
  | .npatch => .nat (D.count h)
  | .sumw => .num D.total
  | .nobj => .nat (D.rows.filter fun r => r.w ≠ 0).length
  | .sumw2 => .num (D.rows.map fun r => r.w ^ 2).sum
  | .centers => .centers (D.centres e h)
  | .patches => .patches (if D.count h = 1 then [D.rows] else (D.numbers (D.count h)).map D.inPatch)
  | .field key => .field (e.build key D.rows)
  | _ => .nothing

/-- The rows of a catalogue: without weights they are all 1; patch numbers are below the number of patches; there are patches if it was
said where they come from. -/
structure Data.Ok (D : Data R E) (h : How E) : Prop where
  w : D.weighted = false → ∀ r ∈ D.rows, r.w = 1
  patched : D.patched = true ↔ h ≠ .none
  patch : h ≠ .none → ∀ r ∈ D.rows, r.patch < D.count h

end CatState
end TreeCorr
