import Verif.Model.Local3
import Verif.Model.Parallel3

/-!
Model of `process` with patches for `bin_type='LogMultipole'`, which is also what `process` with `LogSAS` does by default: always
`patch_method='local'`, /repo/treecorr/corr3base.py:1749-1756.  The loops are those of Model/Local3, the runs those of Model/Multipole
and Model/MultipoleG.
-/

namespace TreeCorr
open Classical
noncomputable section

/-- The arrays of a cleared object after a run.  A failure (null pointer) would appear as an empty result; the theorems that use it show
that none happens. -/
def mpRunArr {W : Type} (add : W → W → W) (zero : W) : Option (List (ℤ × ℤ × W)) → MpArr W
  | some out => out.foldl (mpPut add) fun _ _ => zero
  | none => fun _ _ => zero

/-- `nonzero`: `np.any(self.ntri)`, /repo/treecorr/corr3base.py:1103-1107. -/
def mpNonzero {W : Type} (p : Params) (ntri : W → ℝ) (a : MpArr W) : Prop :=
  ∃ k2 k3, (0 ≤ k2 ∧ k2 < p.nbins) ∧ (0 ≤ k3 ∧ k3 < p.nbins) ∧ ntri (a k2 k3) ≠ 0

variable {d : ℕ} (A : StdAlg (EuclideanSpace ℝ (Fin d))) (g : Geom (EuclideanSpace ℝ (Fin d))) (fp : FieldParams)
  (p : Params) (maxn : ℕ) (ph : EuclideanSpace ℝ (Fin d) → EuclideanSpace ℝ (Fin d) → ℂ)
  (same : List (Obj (EuclideanSpace ℝ (Fin d))) → List (Obj (EuclideanSpace ℝ (Fin d))) → Prop) (nn : Bool)

/-- Counts and scalars: `process_auto`, `process_cross12`, `process_cross` of `NNNCorrelation` and `KKKCorrelation` with `LogMultipole`
bins, /repo/treecorr/corr3base.py:1556-1661, on trees built by `A`, `g`, `fp`; `_trivially_zero`, :1113-1122. -/
def mpKit : Kit3 (MpArr MpVals) (List (Obj (EuclideanSpace ℝ (Fin d)))) where
  nz := mpNonzero p MpVals.ntri
  auto := fun l => mpRunArr MpVals.add MpVals.zero (multipoleAuto p maxn ph (buildField A g fp l).cells)
  cross12 := fun o l1 l2 => mpRunArr MpVals.add MpVals.zero
    (multipoleCross12 p maxn ph o (buildField A g fp l1).cells (buildField A g fp l2).cells)
  cross := fun O l1 l2 l3 => mpRunArr MpVals.add MpVals.zero
    (multipoleCross123 p maxn ph O (buildField A g fp l1).cells (buildField A g fp l2).cells (buildField A g fp l3).cells)
  triv := trivZero3 p.maxsep
  sumw := fun l => (l.map Obj.w).sum
  same := same
  nn := nn

/-- The same for shears (`GGGCorrelation`). -/
def mpKitG (fac : EuclideanSpace ℝ (Fin d) → EuclideanSpace ℝ (Fin d) → ℂ) (wg : Cell (EuclideanSpace ℝ (Fin d)) → ℂ) :
    Kit3 (MpArr GVals) (List (Obj (EuclideanSpace ℝ (Fin d)))) where
  nz := mpNonzero p fun v => v.base.ntri
  auto := fun l => mpRunArr GVals.add GVals.zero (multipoleAutoG p maxn ph fac wg (buildField A g fp l).cells)
  cross12 := fun o l1 l2 => mpRunArr GVals.add GVals.zero
    (multipoleCross12G p maxn ph fac wg o (buildField A g fp l1).cells (buildField A g fp l2).cells)
  cross := fun O l1 l2 l3 => mpRunArr GVals.add GVals.zero
    (multipoleCross123G p maxn ph fac wg O (buildField A g fp l1).cells (buildField A g fp l2).cells (buildField A g fp l3).cells)
  triv := trivZero3 p.maxsep
  sumw := fun l => (l.map Obj.w).sum
  same := same
  nn := false

end
end TreeCorr
