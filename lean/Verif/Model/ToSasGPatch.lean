import Verif.Model.ToSasG
import Verif.Model.ToSasPatch

/-!
Model of `process` of a `LogSAS` object of shear with patches and the default `algo`: as Model/ToSasPatch, with the conversion of
/repo/treecorr/gggcorrelation.py:424-534.
-/

namespace TreeCorr
open Classical
noncomputable section

/-- The arrays which a shear object has in common with the others. -/
def TriCorr.base (T : TriCorr (MpArr GVals)) : TriCorr (MpArr MpVals) where
  self := ⟨fun i j => (T.self.acc i j).base, T.self.tot⟩
  results := T.results.map fun x => (x.1, ⟨fun i j => (x.2.acc i j).base, x.2.tot⟩)

/-- `v.gam0 … v.gam3` as arrays with the place of `n` shifted by `max_n`. -/
def Res3.gamArr (maxn : ℕ) (r : Res3 (MpArr GVals)) : Fin 4 → ℤ → ℤ → ℤ → ℂ := fun μ i j m => (match μ with
  | 0 => (r.acc i j).gam0
  | 1 => (r.acc i j).gam1
  | 2 => (r.acc i j).gam2
  | 3 => (r.acc i j).gam3) (m - maxn)

/-- The arrays of a `LogMultipole` object of shear; `_var_num` is set by `finalize`. -/
def TriCorr.toMpGObj (maxn : ℕ) (T : TriCorr (MpArr GVals)) : MpGObj (ℕ × ℕ × ℕ) where
  base := T.base.toMpObj maxn
  gam := T.self.gamArr maxn
  varNum := 0
  results := T.results.map fun x => (x.1, x.2.gamArr maxn)

/-- The accumulation with patches, /repo/treecorr/corr3base.py:1749-1778; `run maxn` is one of `localAuto`, `localCross12`, `localCross` of
`mpKitG` on a cleared object. -/
def runPatchesG (run : ℕ → TriCorr (MpArr GVals)) (M : MpGObj (ℕ × ℕ × ℕ)) : Option (MpGObj (ℕ × ℕ × ℕ)) :=
  some ((run M.base.maxn).toMpGObj M.base.maxn)

end
end TreeCorr
