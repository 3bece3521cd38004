import Mathlib.Analysis.SpecialFunctions.Trigonometric.Inverse
import Verif.Model.Patch

/-!
Model of `_finalize`, `_apply_units`, `_sum` and the cached `_nonzero` flag:
`/repo/treecorr/corr2base.py:1167-1186, 1400-1407`, `/repo/treecorr/nncorrelation.py:210-248`,
`/repo/treecorr/kkcorrelation.py:172-184`.
-/

namespace TreeCorr
open Classical
noncomputable section

/-- What `_finalize` uses besides the arrays: nominal separations, the size of the separation unit, and whether the
distances are chords of the unit sphere (`coords == 'spherical' and metric == 'Euclidean'`). -/
structure FinParams where
  rnom : ℤ → ℝ
  logr : ℤ → ℝ
  units : ℝ
  chord : Bool

/-- `_apply_units` on one entry of `meanr`, /repo/treecorr/corr2base.py:1400-1406. -/
def FinParams.unitR (F : FinParams) (x : ℝ) : ℝ :=
  (if F.chord then 2 * Real.arcsin (x / 2) else x) / F.units

/-- `_apply_units` on one entry of `meanlogr`, /repo/treecorr/corr2base.py:1404-1407;
`_log_sep_units = log(_sep_units)`, :357-358. -/
def FinParams.unitLogr (F : FinParams) (x : ℝ) : ℝ :=
  (if F.chord then Real.log (2 * Real.arcsin (Real.exp x / 2)) else x) - Real.log F.units

/-- `_finalize`, /repo/treecorr/corr2base.py:1167-1186: `nk` and `kk` stand for `_xi1` of the classes that have
one. -/
def finalize (F : FinParams) (A : Acc) : Acc where
  npairs := A.npairs
  weight := A.weight
  meanr := fun k => if A.weight k ≠ 0 then F.unitR (A.meanr k / A.weight k) else F.rnom k
  meanlogr := fun k => if A.weight k ≠ 0 then F.unitLogr (A.meanlogr k / A.weight k) else F.logr k
  nk := fun k => if A.weight k ≠ 0 then A.nk k / A.weight k else A.nk k
  kk := fun k => if A.weight k ≠ 0 then A.kk k / A.weight k else A.kk k

/-- A result object together with the `_nonzero` entry of its `__dict__` (absent before the first use),
/repo/treecorr/nncorrelation.py:210-213 and /repo/treecorr/util.py:587-614. -/
structure CRes where
  res : Res
  flag : Option Bool

/-- The value of `c._nonzero`. -/
def CRes.lazyNonzero (c : CRes) : Bool := c.flag.getD (decide c.res.nonzero)

/-- `c` after `c._nonzero` was evaluated. -/
def CRes.touch (c : CRes) : CRes := ⟨c.res, some c.lazyNonzero⟩

/-- `c += other`: the cached flag stays. -/
def CRes.iadd (c other : CRes) : CRes := ⟨c.res.iadd other.res, c.flag⟩

/-- `NNCorrelation._sum`, /repo/treecorr/nncorrelation.py:232-248: the sum left in `self`. -/
def sumNN (others : List CRes) : Res :=
  let tot := (others.map (fun c => c.res.tot)).sum
  let others := others.filter (fun c => c.lazyNonzero)
  if others.length = 0 then ⟨Acc.zero, tot⟩
  else
    ⟨{ meanr := fun k => (others.map (fun c => c.res.acc.meanr k)).sum
       meanlogr := fun k => (others.map (fun c => c.res.acc.meanlogr k)).sum
       weight := fun k => (others.map (fun c => c.res.acc.weight k)).sum
       npairs := fun k => (others.map (fun c => c.res.acc.npairs k)).sum
       nk := fun _ => 0
       kk := fun _ => 0 }, tot⟩

/-- `KKCorrelation._sum`, /repo/treecorr/kkcorrelation.py:172-184 (and the other classes: all the arrays are
summed, whatever `npairs` is). -/
def sumKK (others : List Res) : Res :=
  ⟨{ meanr := fun k => (others.map (fun c => c.acc.meanr k)).sum
     meanlogr := fun k => (others.map (fun c => c.acc.meanlogr k)).sum
     weight := fun k => (others.map (fun c => c.acc.weight k)).sum
     npairs := fun k => (others.map (fun c => c.acc.npairs k)).sum
     nk := fun k => (others.map (fun c => c.acc.nk k)).sum
     kk := fun k => (others.map (fun c => c.acc.kk k)).sum }, 0⟩

end
end TreeCorr
