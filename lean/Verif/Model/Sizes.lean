import Verif.Model.Bin

/-! Model of `Corr2._get_minmax_size`, /repo/treecorr/corr2base.py:1409-1439. -/

namespace TreeCorr
noncomputable section

/-- `min_size` and `max_size` of the tree cells for the Euclidean metric and Log bins,
/repo/treecorr/corr2base.py:1420-1422, 1430-1431. -/
def logMinMaxSize (p : Params) : ℝ × ℝ :=
  let b1 := min p.a p.b
  (p.minsep * b1 / (2 + 3 * b1), p.maxsep * b1)

/-- The same for Linear and TwoD bins, /repo/treecorr/corr2base.py:1423-1425, 1432-1433. -/
def linMinMaxSize (p : Params) : ℝ × ℝ :=
  (min (p.a * p.minsep / (2 + 3 * p.a)) (p.b / 2), min (p.a * p.maxsep) p.b)

end
end TreeCorr
