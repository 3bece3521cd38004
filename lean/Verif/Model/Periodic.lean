import Verif.Model.Corr2
import Verif.Model.Tree

/-!
Model of the `Periodic` metric: `Position::wrap`, `/repo/include/Position.h:106-112, 201-209`, and `MetricHelper<Periodic,P>`,
`/repo/include/Metric.h:726-858`.
-/

namespace TreeCorr
open Classical
noncomputable section

/-- `while (_x > xp/2.) _x -= xp;`, at most `fuel` turns.  `none`: not at its end yet. -/
def subWhile (L : ℝ) : ℕ → ℝ → Option ℝ
  | 0, x => if x > L / 2 then none else some x
  | fuel + 1, x => if x > L / 2 then subWhile L fuel (x - L) else some x

/-- `while (_x < -xp/2.) _x += xp;`. -/
def addWhile (L : ℝ) : ℕ → ℝ → Option ℝ
  | 0, x => if x < -L / 2 then none else some x
  | fuel + 1, x => if x < -L / 2 then addWhile L fuel (x + L) else some x

/-- The two loops for one coordinate of `wrap`. -/
def wrapLoops (L : ℝ) (fuel : ℕ) (x : ℝ) : Option ℝ := (subWhile L fuel x).bind (addWhile L fuel)

/-- The value of the coordinate after the loops.  If they do not end, there is none, and the number here stands for
nothing: see `wrap_ends`, `wrap_negative_hangs`. -/
def wrapVal (L x : ℝ) : ℝ := if h : ∃ y fuel, wrapLoops L fuel x = some y then h.choose else 0

/-- `MetricHelper<Periodic,0>` with periods `L`, for `Flat` (`d = 2`) and `ThreeD` (`d = 3`) without limits on `rpar`,
/repo/include/Metric.h:726-858. -/
def perMetric {d : ℕ} (L : Fin d → ℝ) : MetricHelper (EuclideanSpace ℝ (Fin d)) where
  distSq := fun p1 p2 s1 s2 => (∑ i, wrapVal (L i) (p1 i - p2 i) ^ 2, s1, s2)
  rparOutside := fun _ _ _ => False
  rparInside := fun _ _ _ => True
  tooSmall := fun _ _ _ _ _ => True
  tooLarge := fun _ _ _ _ _ => True

end
end TreeCorr
