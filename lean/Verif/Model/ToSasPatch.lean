import Verif.Model.LocalMp
import Verif.Model.ToSas

/-!
Model of `process` of a `LogSAS` object with patches and the default `algo`, /repo/treecorr/corr3base.py:1732-1747: a `LogMultipole`
object does the local loops of Model/LocalMp, and its arrays and stored results are converted.
-/

namespace TreeCorr
open Classical
noncomputable section

/-- An entry of `results` as `toSAS` reads it: `v.weight`, the zeta arrays and `tot`. -/
def Res3.toEntry (maxn : ℕ) (r : Res3 (MpArr MpVals)) : MpEntry where
  weight := fun i j m => (r.acc i j).weight (m - maxn)
  zeta := fun i j m => (r.acc i j).zeta (m - maxn)
  tot := r.tot

/-- The arrays of a `LogMultipole` object: `weight` and `zeta` for all `n`, the others at the place of `n = 0` (see `MpObj.add`). -/
def TriCorr.toMpObj (maxn : ℕ) (T : TriCorr (MpArr MpVals)) : MpObj (ℕ × ℕ × ℕ) :=
  let at0 (f : MpVals → ℝ) (i j m : ℤ) : ℝ := if m = maxn then f (T.self.acc i j) else 0
  { maxn := maxn
    weight := (T.self.toEntry maxn).weight
    zeta := (T.self.toEntry maxn).zeta
    ntri := at0 MpVals.ntri
    meand2 := at0 MpVals.meand2
    meanlogd2 := at0 MpVals.meanlogd2
    meand3 := at0 MpVals.meand3
    meanlogd3 := at0 MpVals.meanlogd3
    tot := T.self.tot
    results := T.results.map fun x => (x.1, x.2.toEntry maxn) }

/-- The accumulation with patches, corr3base.py:1749-1778: `run maxn` is one of `localAuto`, `localCross12`, `localCross` of `mpKit` on a
cleared object. -/
def runPatches (run : ℕ → TriCorr (MpArr MpVals)) (M : MpObj (ℕ × ℕ × ℕ)) : Option (MpObj (ℕ × ℕ × ℕ)) := some ((run M.maxn).toMpObj M.maxn)

end
end TreeCorr
