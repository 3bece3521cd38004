import Mathlib.Data.Multiset.Bind
import Verif.Model.Corr2

/-! The pairs of rows that a run has counted. -/

namespace TreeCorr
open Classical
variable {P : Type}

/-- The object pairs covered by one `finishProcess` call. -/
def Emit.pairs (e : Emit P) : Multiset (Obj P × Obj P) :=
  (e.c1.objs : Multiset (Obj P)) ×ˢ (e.c2.objs : Multiset (Obj P))

/-- The object pairs covered by a list of calls, with multiplicity. -/
def pairsOf (es : List (Emit P)) : Multiset (Obj P × Obj P) := (es.map Emit.pairs).sum

/-- The pairs covered by the calls for bin `k` in the forward direction. -/
noncomputable def pairsAt (es : List (Emit P)) (k : ℤ) : Multiset (Obj P × Obj P) :=
  pairsOf (es.filter (fun e => e.k = k))

/-- The pairs covered by the calls that also count the reversed pair in bin `k`. -/
noncomputable def pairsAtRev (es : List (Emit P)) (k : ℤ) : Multiset (Obj P × Obj P) :=
  pairsOf (es.filter (fun e => e.k2 = some k))

end TreeCorr
