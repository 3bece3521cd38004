import Mathlib.Analysis.SpecialFunctions.Exp
import Mathlib.Analysis.SpecialFunctions.Complex.Circle
import Mathlib.Analysis.Real.Pi.Bounds
import Mathlib.MeasureTheory.Integral.Bochner.Set
import Mathlib.MeasureTheory.Measure.Lebesgue.Basic
import Mathlib.MeasureTheory.Measure.Lebesgue.Complex

/-!
The aperture mass, from the papers that the documentation cites and without the code.

The shear field is complex valued and has spin 2: seen from the centre of the aperture, a shear `γ` at the
displacement `z` has the tangential part plus `i` times the cross part `-γ conj z / z`.  The aperture mass is
`M = ∫ Q ‖z‖ (γ_t + i γ_×) = Map + i Mx`, and the aperture count is `N = ∫ U ‖z‖ n`.
-/

namespace TreeCorr.Aperture

open scoped ComplexConjugate

noncomputable section

/-- The weight of the shear at the displacement `z` in `Map + i Mx`, for the radial weight `Q`. -/
def shearFilter (Q : ℝ → ℝ) (z : ℂ) : ℂ := -((Q ‖z‖ : ℝ) : ℂ) * (conj z / z)

/-- The weight of the counts at the displacement `z` in `N`, for the radial weight `U`. -/
def countFilter (U : ℝ → ℝ) (z : ℂ) : ℂ := ((U ‖z‖ : ℝ) : ℂ)

/-- The documented `Q` of 'Crittenden'. -/
def critQ (r : ℝ) : ℝ := 1 / (4 * Real.pi) * r ^ 2 * Real.exp (-r ^ 2 / 2)

/-- The `U` of Crittenden et al (2002). -/
def critU (r : ℝ) : ℝ := 1 / (2 * Real.pi) * (1 - r ^ 2 / 2) * Real.exp (-r ^ 2 / 2)

/-- The `U` that the documentation gives for 'Crittenden', ggcorrelation.py:144, ngcorrelation.py:214,
nncorrelation.py:736. -/
def docCritU (r : ℝ) : ℝ := 1 / (2 * Real.pi) * (1 - r ^ 2) * Real.exp (-r ^ 2 / 2)

/-- The documented `U` of 'Schneider', for `r` from 0 to 1. -/
def schnU (r : ℝ) : ℝ := 9 / Real.pi * (1 - r ^ 2) * (1 / 3 - r ^ 2)

/-- The documented `Q` of 'Schneider', for `r` from 0 to 1. -/
def schnQ (r : ℝ) : ℝ := 6 / Real.pi * r ^ 2 * (1 - r ^ 2)

/-- The weight of the product of a shear and of the conjugate of a shear at the displacement `d` from it in
`2 π ⟨M conj M⟩`. -/
def kernelPlus (Q : ℝ → ℝ) (d : ℂ) : ℂ := 2 * Real.pi * ∫ x : ℂ, shearFilter Q x * conj (shearFilter Q (x + d))

/-- The weight of the product of a shear and a shear at the displacement `d` from it in `2 π ⟨M M⟩`. -/
def kernelMinus (Q : ℝ → ℝ) (d : ℂ) : ℂ := 2 * Real.pi * ∫ x : ℂ, shearFilter Q x * shearFilter Q (x + d)

/-- The weight of the product of a count and a shear at the displacement `d` from it in `2 π ⟨N M⟩`. -/
def kernelCross (U Q : ℝ → ℝ) (d : ℂ) : ℂ := 2 * Real.pi * ∫ x : ℂ, countFilter U x * shearFilter Q (x + d)

/-- The weight of the product of a count and a count at the displacement `d` from it in `2 π ⟨N N⟩`. -/
def kernelCount (U : ℝ → ℝ) (d : ℂ) : ℂ := 2 * Real.pi * ∫ x : ℂ, countFilter U x * countFilter U (x + d)

/-- The correlation functions of a shear field that is a gradient (pure E mode), with `xim` computed from `xip`:
Schneider, van Waerbeke & Mellier (2002), A&A, 389, 729, eq. 25. -/
def PureE (xip xim : ℝ → ℝ) : Prop :=
  ∀ r > 0, xim r = xip r + ∫ t in Set.Ioo 0 r, t / r ^ 2 * xip t * (4 - 12 * t ^ 2 / r ^ 2)

/-- The same for a pure B mode, for which every shear is turned by 45 degrees: `xim` changes its sign. -/
def PureB (xip xim : ℝ → ℝ) : Prop := PureE xip fun r => -xim r

/-- The inverse relation: `xip` computed from `xim`. -/
def PureE' (xip xim : ℝ → ℝ) : Prop :=
  ∀ r > 0, xip r = xim r + ∫ t in Set.Ioi r, xim t / t * (4 - 12 * r ^ 2 / t ^ 2)

/-- The correlation of counts with the tangential shear from their correlation `w` with the convergence: the mean
within `r` less the value at `r`. -/
def TangentialOf (w xi : ℝ → ℝ) : Prop :=
  ∀ r > 0, xi r = 2 / r ^ 2 * (∫ t in Set.Ioo 0 r, t * w t) - w r

end

end TreeCorr.Aperture
