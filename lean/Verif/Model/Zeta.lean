import Verif.Model.Cov3
import Verif.Model.Xi
import Verif.Model.Binning
import Mathlib.Analysis.SpecialFunctions.Pow.Real

/-!
Model of the three-point clustering estimator: `NNNCorrelation.calculateZeta` and `NNNCorrelation._calculate_xi_from_pairs`,
/repo/treecorr/nnncorrelation.py:483-648.

The arrays are of any type `V`; `wt` reads the array `weight` off them.  A bin of a result is `none` if numpy would put `inf` or `nan`
there.  The shot-noise variance (`_var_num`) and `_finalize`, which touches only the mean sides, are left out.
-/

namespace TreeCorr
open Classical
noncomputable section
variable {V C ι : Type} [AddCommMonoid V]

/-- The numerator of the estimators, nnncorrelation.py:509-512, 640-643, from `DDD`, the scaled `RRR` and, where they are given, the scaled
`DRR` and `RDD`. -/
def zetaNum (ddd rrr : ℝ) : Option (ℝ × ℝ) → ℝ
  | none => ddd - rrr
  | some (drr, rdd) => ddd - rdd + drr - rrr

/-- `(rdd is not None) != (drr is not None)` is a TypeError, nnncorrelation.py:487-488; otherwise both together. -/
def bothOrNeither {α : Type} : Option α → Option α → Except PyErr (Option (α × α))
  | none, none => .ok none
  | some a, some b => .ok (some (a, b))
  | _, _ => .error .typeError

/-- `zeta` of `NNNCorrelation.calculateZeta`, nnncorrelation.py:483-518. -/
def nnnZeta (wt : V → ι → ℝ) (multipole : Bool) (ddd rrr : Res3 V) (drr rdd : Option (Res3 V)) :
    Except PyErr (ι → Option ℝ) :=
  if rrr.tot = 0 then .error .valueError
  else (bothOrNeither drr rdd).bind fun rand =>
    if multipole then .error .typeError
    else if ∃ r, rand = some r ∧ (r.1.tot = 0 ∨ r.2.tot = 0) then .error .valueError
    else .ok fun k =>
      let denom := wt rrr.acc k * (ddd.tot / rrr.tot)
      npDiv
        (zetaNum (wt ddd.acc k) denom
          (rand.map fun r => (wt r.1.acc k * (ddd.tot / r.1.tot), wt r.2.acc k * (ddd.tot / r.2.tot))))
        (if wt rrr.acc k = 0 then 1 else denom)

/-- An object with patch results: `results`, `npatch1`, `npatch2`. -/
structure Patched3 (V : Type) where
  results : Dict3 V
  n1 : ℕ
  n2 : ℕ

/-- Whether the patches of the randoms are accepted, nnncorrelation.py:547-559; `d` is the data's object and has results.
A refusal is a RuntimeError. -/
def patchesAgree (d rrr : Patched3 V) (rand : Option (Patched3 V × Patched3 V)) : Bool :=
  (decide (rrr.n1 = 1) || decide (rrr.n1 = d.n1)) &&
  match rand with
  | none => true
  | some (drr, rdd) =>
    (decide (drr.results ≠ []) && decide (drr.n1 = d.n1) && (decide (drr.n2 = d.n2) || decide (drr.n2 = 1))) &&
    (decide (rdd.results ≠ []) && decide (rdd.n2 = d.n2) && (decide (rdd.n1 = d.n1) || decide (rdd.n1 = 1)))

/-- `self.results[ijk] = self._zero_copy(0)` for those of `keys` that are missing, nnncorrelation.py:564-582. -/
def Dict3.addMissing (d : Dict3 V) (keys : List Triple) : Dict3 V :=
  keys.foldl (fun d ijk => if ijk ∈ d.map Prod.fst then d else d.set ijk Res3.zero) d

/-- `results` after `calculateZeta` with patches, nnncorrelation.py:561-582. -/
def afterZeta (d : Dict3 V) (rrr : Patched3 V) (rand : Option (Patched3 V × Patched3 V)) : Dict3 V :=
  let d := if rrr.n1 ≠ 1 then d.addMissing (rrr.results.map Prod.fst) else d
  match rand with
  | none => d
  | some (drr, rdd) =>
    let d := if drr.n2 ≠ 1 then d.addMissing (drr.results.map Prod.fst) else d
    if rdd.n1 ≠ 1 then d.addMissing (rdd.results.map Prod.fst) else d

/-- What the loop over the rows uses: `results` of all four, and the data of the copy of `rrr`. -/
structure ZetaEnv (V : Type) where
  results : Dict3 V
  rrr : Patched3 V
  rrrSelf : Res3 V
  rand : Option (Patched3 V × Patched3 V)

/-- The triples that the other object has, nnncorrelation.py:599, 626, 636. -/
def Patched3.okTriples (p : Patched3 V) (l : List Triple) : List Triple :=
  l.filter fun t => okTriple (p.results.map Prod.fst) t

/-- `pairs2`, nnncorrelation.py:622-626. -/
def drrTriples (p : Patched3 V) (l : List Triple) : List Triple :=
  if p.n2 = 1 then (l.filter fun t => decide (t.1 = t.2.1 ∧ t.2.1 = t.2.2)).map fun t => (t.1, 0, 0) else p.okTriples l

/-- `pairs3`, nnncorrelation.py:631-636. -/
def rddTriples (p : Patched3 V) (l : List Triple) : List Triple :=
  if p.n1 = 1 ∧ ¬ ∀ t ∈ l, t.1 = 0 then
    (l.filter fun t => decide (t.1 = t.2.1 ∨ t.1 = t.2.2)).map fun t => (0, t.2.1, t.2.2)
  else p.okTriples l

/-- `x**(1./3.)` in numpy: not finite if `x` is negative. -/
def npCbrt (x : ℝ) : Option ℝ := if x < 0 then none else some (x ^ (1 / 3 : ℝ))

/-- `np.sum([r.tot**(1./3.) for ...])` -/
def sumCbrt (rs : List (Res3 V)) : Option ℝ := (rs.mapM fun r => npCbrt r.tot).map List.sum

/-- The relative area, nnncorrelation.py:608-611; the outer `none` is a KeyError. -/
def areaFrac3 (results : Dict3 V) (l : List Triple) : Option (Option ℝ) :=
  (fetch3 results (l.filter fun t => decide (t.1 = t.2.1 ∧ t.2.1 = t.2.2))).map fun rs => do
    let a ← sumCbrt rs
    let b ← sumCbrt ((results.filter fun x => decide (x.1.1 = x.1.2.1 ∧ x.1.2.1 = x.1.2.2)).map Prod.snd)
    npDiv a b

/-- `ddd_tot`, nnncorrelation.py:601, 613-617. -/
def ZetaEnv.dddTot (E : ZetaEnv V) (self : Res3 V) (l : List Triple) : Option (Option ℝ) :=
  if E.rrr.results = [] then (areaFrac3 E.results l).map fun f => f.map fun f => (E.results.map fun x => x.2.tot).sum * f
  else some (some self.tot)

/-- The sum for `_rrr`: unchanged if it has no patches, nnncorrelation.py:596-600. -/
def ZetaEnv.sumRrr (K : Kit3 V C) (E : ZetaEnv V) (l : List Triple) : Option (Res3 V) :=
  if E.rrr.results = [] then some E.rrrSelf else (fetch3 E.rrr.results (E.rrr.okTriples l)).map K.sumOthers

/-- The sums for `_drr` and `_rdd`, if given, nnncorrelation.py:621-637. -/
def ZetaEnv.sumRand (K : Kit3 V C) (E : ZetaEnv V) (l : List Triple) : Option (Option (Res3 V × Res3 V)) :=
  match E.rand with
  | none => some none
  | some (drr, rdd) =>
    ((fetch3 drr.results (drrTriples drr l)).map K.sumOthers).bind fun a =>
      ((fetch3 rdd.results (rddTriples rdd l)).map K.sumOthers).map fun b => some (a, b)

/-- `zeta` of a row, nnncorrelation.py:618-646, from `ddd_tot` (not finite: `none`) and the sums.  Where a total is 0 nothing is
finite. -/
def rowZeta (wt : V → ι → ℝ) (ddd : Res3 V) (dddTot : Option ℝ) (rrr : Res3 V) (rand : Option (Res3 V × Res3 V)) :
    ι → Option ℝ := fun k => do
  let t ← dddTot
  let rrrf ← npDiv t rrr.tot
  let rand ← match rand with
    | none => some none
    | some r => do
      let drrf ← npDiv t r.1.tot
      let rddf ← npDiv t r.2.tot
      some (some (wt r.1.acc k * drrf, wt r.2.acc k * rddf))
  let denom := wt rrr.acc k * rrrf
  npDiv (zetaNum (wt ddd.acc k) denom rand) (if denom = 0 then 1 else denom)

/-- `_calculate_xi_from_pairs`, nnncorrelation.py:588-648, once `calculateZeta` has been called: the row's `zeta`.  `none` is a KeyError. -/
def zetaFromTriples (wt : V → ι → ℝ) (K : Kit3 V C) (E : ZetaEnv V) (l : List Triple) : Option (ι → Option ℝ) :=
  ((fetch3 E.results l).map K.sumOthers).bind fun self =>
  (E.sumRrr K l).bind fun rrr =>
  (E.dddTot self l).bind fun t =>
  (E.sumRand K l).map fun rand => rowZeta wt self t rrr rand

end
end TreeCorr
