import Verif.Model.MultipoleG
import Verif.Model.ToSas

/-!
Model of `GGGCorrelation.toSAS`, /repo/treecorr/gggcorrelation.py:424-534: the conversion of `Model/ToSas.lean` with the transform of the
four natural components, and the turn of their projections.  A NaN is `none`.
-/

namespace TreeCorr
open Classical ComplexConjugate
noncomputable section

/-- A `LogMultipole` object of shear.  `base.zeta` belongs to the scalar class and is not used. -/
structure MpGObj (K : Type) where
  base : MpObj K
  gam : Fin 4 → ℤ → ℤ → ℤ → ℂ
  varNum : ℝ
  results : List (K × (Fin 4 → ℤ → ℤ → ℤ → ℂ))

/-- A `LogSAS` object of shear.  `base.z1` belongs to the scalar class and is not used. -/
structure SasGObj (K : Type) where
  base : SasObj K
  gam : Fin 4 → ℤ → ℤ → ℤ → Option ℂ
  varNum : ℝ
  results : List (K × (Fin 4 → ℤ → ℤ → ℤ → Option ℂ))

/-- `self.gam0.dot(expiphi) / (2*np.pi) * sas.phi_bin_size`, gggcorrelation.py:446-450. -/
def transformC (maxn : ℕ) (B : PhiBins) (w : ℤ → ℤ → ℤ → ℂ) (i j k : ℤ) : ℂ :=
  (∑ n ∈ Finset.Icc (-(maxn : ℤ)) maxn, w i j (n + maxn) * Complex.exp (Complex.I * n * B.phi k)) / (2 * Real.pi : ℝ) * (B.size : ℂ)

/-- `g = z**2; g /= np.abs(g)`, gggcorrelation.py:493-498. -/
def turnSq (z : ℂ) : Option ℂ := if z ^ 2 = 0 then none else some (z ^ 2 / (‖z ^ 2‖ : ℂ))

/-- The phases, gggcorrelation.py:472-504; `d2`, `d3`, `phi` are `meand2`, `meand3` and `meanphi * _phi_units` of the bin. -/
def gamPhase (d2 d3 phi : ℝ) (μ : Fin 4) : Option ℂ := do
  let s : ℂ := d2
  let t : ℂ := d3 * Complex.exp (Complex.I * phi)
  let u ← if t = 0 then none else some ((1 + t / (‖t‖ : ℂ)) / 2)
  let q1 := (s + t) / 3
  let q2 := q1 - t
  let q3 := q1 - s
  let g1phase ← turnSq (u * conj q1)
  let g2phase ← turnSq (t * conj q2)
  let g3phase ← turnSq (s * conj q3)
  match μ with
  | 0 => pure (g1phase * g2phase * g3phase)
  | 1 => pure (conj g1phase * g2phase * g3phase)
  | 2 => pure (g1phase * conj g2phase * g3phase)
  | 3 => pure (g1phase * g2phase * conj g3phase)

/-- `toSAS`, gggcorrelation.py:441-534. -/
def toSasG {K : Type} (M : MpGObj K) (B : PhiBins) : SasGObj K :=
  let sas := toSas M.base B
  let phase := fun i j k μ => gamPhase (sas.meand2 i j k) (sas.meand3 i j k) (sas.meanphi i j k * B.units) μ
  { base := sas
    varNum := M.varNum
    gam := fun μ i j k =>
      let g := transformC M.base.maxn B (M.gam μ) i j k
      let g := if sas.weightr i j k ≠ 0 then g / (sas.weightr i j k : ℂ) else g
      (phase i j k μ).map fun f => g * f
    results := M.results.map fun r => (r.1, fun μ i j k => (phase i j k μ).map fun f => transformC M.base.maxn B (r.2 μ) i j k * f) }

/-- The state of a new `LogMultipole` object. -/
def MpGObj.new (K : Type) (maxn : ℕ) : MpGObj K := ⟨MpObj.new K maxn, 0, 0, []⟩

/-- What a run adds. -/
def MpGObj.add {K : Type} (M : MpGObj K) (out : List (ℤ × ℤ × GVals)) : MpGObj K :=
  { M with
    base := M.base.add (out.map fun x => (x.1, x.2.1, x.2.2.base))
    gam := fun μ i j m => M.gam μ i j m + mpTotal (fun v => (match μ with
      | 0 => v.gam0
      | 1 => v.gam1
      | 2 => v.gam2
      | 3 => v.gam3) (m - M.base.maxn)) out i j }

/-- `process` of a `LogSAS` object with the default `algo`, corr3base.py:1732-1747 (see `processSas`); `finalize` leaves `gam0 … gam3`
of a `LogMultipole` object as they are (gggcorrelation.py:313-334, corr3base.py:1810-1829) and sets `_var_num` (`varNum`). -/
def processSasG {K : Type} (run : MpGObj K → Option (MpGObj K)) (F : FinParams3) (logd2 logd3 : ℤ → ℤ → ℤ → ℝ) (B : PhiBins)
    (given : Option ℕ) (init fin : Bool) (varNum : ℝ) (_self : SasGObj K) : Option (SasGObj K) := do
  let corr := MpGObj.new K (B.maxN given)
  let corr := if init then MpGObj.new K corr.base.maxn else corr
  let corr ← run corr
  let corr := if fin then { corr with base := corr.base.finalize F logd2 logd3, varNum := varNum } else corr
  pure (toSasG corr B)

/-- The accumulation of one catalogue without patches. -/
def runAutoG {K P : Type} [PseudoMetricSpace P] (p : Params) (ph fac : P → P → ℂ) (wg : Cell P → ℂ) (cells : List (Cell P))
    (M : MpGObj K) : Option (MpGObj K) :=
  (multipoleAutoG p M.base.maxn ph fac wg cells).map M.add

end
end TreeCorr
