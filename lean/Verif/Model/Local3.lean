import Verif.Model.Patch3
import Verif.Model.Local

/-!
Model of `patch_method='local'` for three-point objects: the local loops of `_process_all_auto`, `_process_all_cross12`,
`_process_all_cross`, /repo/treecorr/corr3base.py:1224-1234, 1350-1373, 1468-1502.

Expanded patches are those of Model/Local (`_make_expanded_patch = Corr2._make_expanded_patch`, corr3base.py:1124).
`.any`, `.first`, `.fixed` are the values `False`, 1, `True` of `ordered`.  Unloading and names are left out.
-/

namespace TreeCorr
open Classical
noncomputable section
variable {V C : Type} [Zero V] [Add V]

/-- `temp` in `_single_process12` for an expanded patch (`none` is `None`), always with `ordered=1`, corr3base.py:1126-1136, 1231, 1356;
`w2` is the sum of weights an expanded patch is given, that of its whole catalogue (corr2base.py:769-772). -/
def Kit3.localRes12 (K : Kit3 V C) (w2 : ℝ) (c1 : C) : Option C → Res3 V
  | none => Res3.zero
  | some c2 => if K.triv c1 c2 c2 then Res3.zero else ⟨K.cross12 true c1 c2, if K.nn then 0.5 * K.sumw c1 * w2 ^ 2 else 0⟩

/-- `temp` in `_single_process123` for two expanded patches, corr3base.py:1146-1156. -/
def Kit3.localRes123 (K : Kit3 V C) (O : Ord3) (w2 w3 : ℝ) (c1 : C) : Option C → Option C → Res3 V
  | some c2, some c3 => if K.triv c1 c2 c3 then Res3.zero else ⟨K.cross O c1 c2 c3, if K.nn then K.sumw c1 * w2 * w3 else 0⟩
  | _, _ => Res3.zero

/-- One local loop: `force_write` is always true and the key is always `(i,i,i)`. -/
def Kit3.localPass (K : Kit3 V C) (mine : ℕ → ℕ → ℕ → Prop) (res : C → Res3 V) (cats : List (ℕ × C)) (S : TriCorr V) : TriCorr V :=
  cats.foldl (fun S c => if mine c.1 c.1 c.1 then K.keep (c.1, c.1, c.1) (res c.2) S else S) S

section
variable {d : ℕ} (K : Kit3 V (List (Obj (EuclideanSpace ℝ (Fin d))))) (mine : ℕ → ℕ → ℕ → Prop) (threeD : Bool) (maxsep : ℝ)

/-- The sum of weights of all the patches. -/
def Kit3.allSumw (cats : List (ℕ × List (Obj (EuclideanSpace ℝ (Fin d))))) : ℝ := (cats.map fun c => K.sumw c.2).sum

/-- The local loop over one catalogue with its surroundings in another, corr3base.py:1224-1234, 1350-1359. -/
def Kit3.localPass12 (cats1 cats2 : List (ℕ × List (Obj (EuclideanSpace ℝ (Fin d))))) (S : TriCorr V) : TriCorr V :=
  K.localPass mine (fun c => K.localRes12 (K.allSumw cats2) c (expandPatch threeD maxsep c (cats2.map Prod.snd))) cats1 S

/-- The local loop over one catalogue with its surroundings in two others, corr3base.py:1364-1373, 1469-1480, 1485-1502. -/
def Kit3.localPass123 (O : Ord3) (cats1 cats2 cats3 : List (ℕ × List (Obj (EuclideanSpace ℝ (Fin d))))) (S : TriCorr V) : TriCorr V :=
  K.localPass mine (fun c => K.localRes123 O (K.allSumw cats2) (K.allSumw cats3) c (expandPatch threeD maxsep c (cats2.map Prod.snd))
    (expandPatch threeD maxsep c (cats3.map Prod.snd))) cats1 S

/-- `_process_all_auto` with `local`, corr3base.py:1224-1234. -/
def Kit3.allLocalAuto (cats : List (ℕ × List (Obj (EuclideanSpace ℝ (Fin d))))) (S : TriCorr V) : TriCorr V :=
  K.localPass12 mine threeD maxsep cats cats S

/-- `_process_all_cross12` with `local`, corr3base.py:1350-1373. -/
def Kit3.allLocalCross12 (o : Bool) (cats1 cats2 : List (ℕ × List (Obj (EuclideanSpace ℝ (Fin d))))) (S : TriCorr V) : TriCorr V :=
  let S := K.localPass12 mine threeD maxsep cats1 cats2 S
  if o then S else K.localPass123 mine threeD maxsep .first cats2 cats1 cats2 S

/-- `_process_all_cross` with `local`, corr3base.py:1468-1502. -/
def Kit3.allLocalCross (O : Ord3) (cats1 cats2 cats3 : List (ℕ × List (Obj (EuclideanSpace ℝ (Fin d))))) (S : TriCorr V) : TriCorr V :=
  match O with
  | .any => K.localPass123 mine threeD maxsep .first cats3 cats1 cats2 (K.localPass123 mine threeD maxsep .first cats2 cats1 cats3
      (K.localPass123 mine threeD maxsep .first cats1 cats2 cats3 S))
  | O => K.localPass123 mine threeD maxsep O cats1 cats2 cats3 S

end

section
variable {d : ℕ} (K : Kit3 V (List (Obj (EuclideanSpace ℝ (Fin d))))) (threeD : Bool) (maxsep : ℝ) (init : Bool)

/-- `process(cat, patch_method='local', initialize=init)` without MPI, with patches. -/
def Kit3.localAuto (cats : List (ℕ × List (Obj (EuclideanSpace ℝ (Fin d))))) (S : TriCorr V) : TriCorr V :=
  K.allLocalAuto (fun _ _ _ => True) threeD maxsep cats (if init then TriCorr.clear else S)

/-- `process(cat1, cat2, ordered=o, patch_method='local', initialize=init)`. -/
def Kit3.localCross12 (o : Bool) (cats1 cats2 : List (ℕ × List (Obj (EuclideanSpace ℝ (Fin d))))) (S : TriCorr V) : TriCorr V :=
  K.allLocalCross12 (fun _ _ _ => True) threeD maxsep o cats1 cats2 (if init then TriCorr.clear else S)

/-- `process(cat1, cat2, cat3, ordered=O, patch_method='local', initialize=init)`. -/
def Kit3.localCross (O : Ord3) (cats1 cats2 cats3 : List (ℕ × List (Obj (EuclideanSpace ℝ (Fin d))))) (S : TriCorr V) : TriCorr V :=
  K.allLocalCross (fun _ _ _ => True) threeD maxsep O cats1 cats2 cats3 (if init then TriCorr.clear else S)

/-- `process(cat, patch_method='local', comm=comm)` with `size` processes: what the root holds. -/
def Kit3.mpiLocalAuto (size : ℕ) (cats : List (ℕ × List (Obj (EuclideanSpace ℝ (Fin d))))) (S : TriCorr V) : Option (TriCorr V) :=
  K.gather ((List.range size).map fun rank =>
    K.allLocalAuto (myAutoJob3 cats.length size rank) threeD maxsep cats (if init then TriCorr.clear else S))

/-- `process(cat1, cat2, ordered=o, patch_method='local', comm=comm)`. -/
def Kit3.mpiLocalCross12 (size : ℕ) (o : Bool) (cats1 cats2 : List (ℕ × List (Obj (EuclideanSpace ℝ (Fin d))))) (S : TriCorr V) :
    Option (TriCorr V) :=
  K.gather ((List.range size).map fun rank =>
    K.allLocalCross12 (myCross12Job cats1.length cats2.length size rank) threeD maxsep o cats1 cats2 (if init then TriCorr.clear else S))

/-- `process(cat1, cat2, cat3, ordered=O, patch_method='local', comm=comm)`. -/
def Kit3.mpiLocalCross (size : ℕ) (O : Ord3) (cats1 cats2 cats3 : List (ℕ × List (Obj (EuclideanSpace ℝ (Fin d))))) (S : TriCorr V) :
    Option (TriCorr V) :=
  K.gather ((List.range size).map fun rank =>
    K.allLocalCross (myCross123Job cats1.length cats2.length cats3.length size rank) threeD maxsep O cats1 cats2 cats3
      (if init then TriCorr.clear else S))

end
end
end TreeCorr
