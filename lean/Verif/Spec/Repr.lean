import Verif.Model.Repr

/-!
What it means for two catalogues to be the same.
-/

namespace TreeCorr
namespace Catalog

variable {R : Type} [Field R] [DecidableEq R]

/-- The same columns, weights and patches. -/
structure Same (C D : LCat R) : Prop where
  col : ∀ c, C.cat.tab.col c = D.cat.tab.col c
  w : C.cat.tab.w = D.cat.tab.w
  wpos : C.cat.tab.wpos = D.cat.tab.wpos
  patch : C.patch = D.patch

end Catalog
end TreeCorr
