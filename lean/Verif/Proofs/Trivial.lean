import Verif.Model.Trivial
import Verif.Proofs.LinearExact

/-! The early exits are sound. -/

namespace TreeCorr
open Classical
variable {P : Type}

theorem tooLarge_sound {p : Params} {r s d : ℝ} (hr : 0 ≤ r) (hd : |d - r| ≤ s)
    (h : r ^ 2 ≥ (p.maxsep + s) ^ 2) : p.maxsep ≤ d := by
  have hd' := abs_le.1 hd
  have : p.maxsep + s ≤ r := le_of_sq_le_sq h hr
  linarith

theorem tooLarge2_sound {p : Params} {r s d : ℝ} (hr : 0 ≤ r) (hd : |d - r| ≤ s)
    (h : r ^ 2 ≥ (Real.sqrt 2 * p.maxsep + s) ^ 2) : Real.sqrt 2 * p.maxsep ≤ d := by
  have hd' := abs_le.1 hd
  have : Real.sqrt 2 * p.maxsep + s ≤ r := le_of_sq_le_sq h hr
  linarith

theorem tooSmall_sound {p : Params} {r s d : ℝ} (hd : |d - r| ≤ s)
    (h2 : s < p.minsep) (h : r ^ 2 < (p.minsep - s) ^ 2) : d < p.minsep := by
  have hd' := abs_le.1 hd
  have : r < p.minsep - s := lt_of_pow_lt_pow_left₀ 2 (by linarith) h
  linarith

/-- In the plane a distance of `√2 m` needs a coordinate difference of `m`. -/
theorem flat_dist_le (x y : Flat2) {m : ℝ} (hm : 0 ≤ m) (h0 : |x 0 - y 0| < m) (h1 : |x 1 - y 1| < m) :
    dist x y < Real.sqrt 2 * m := by
  rw [EuclideanSpace.dist_eq, Fin.sum_univ_two, Real.dist_eq, Real.dist_eq, sq_abs, sq_abs]
  have hm' : m = Real.sqrt (m ^ 2) := (Real.sqrt_sq hm).symm
  rw [hm', ← Real.sqrt_mul (by norm_num)]
  apply Real.sqrt_lt_sqrt (by positivity)
  have e0 := sq_lt_sq' (by linarith [abs_nonneg (x 0 - y 0)]) h0
  have e1 := sq_lt_sq' (by linarith [abs_nonneg (x 1 - y 1)]) h1
  rw [sq_abs] at e0 e1
  linarith

theorem centerSize_le {d : ℕ} (l : List (Obj (EuclideanSpace ℝ (Fin d)))) :
    ∀ o ∈ l, dist o.pos (centerSize l).1 ≤ (centerSize l).2 := by
  intro o ho
  apply Real.le_sqrt_of_sq_le
  exact (euclidGeom_dominates d o.pos _).trans (le_calcSizeSq _ _ l ho)

end TreeCorr
