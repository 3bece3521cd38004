import Mathlib.Analysis.SpecialFunctions.Log.Basic
import Mathlib.Analysis.SpecialFunctions.Exp
import Mathlib.Analysis.SpecialFunctions.Exponential
import Mathlib.Tactic.Linarith
import Mathlib.Tactic.NormNum
import Mathlib.Tactic.Ring
import Mathlib.Tactic.FieldSimp
import Mathlib.Tactic.Positivity
import Verif.Proofs.Loops
import Verif.Spec.Tree

/-! Soundness of the decisions with Log binning. -/

namespace TreeCorr
variable {P : Type}

theorem neg_log_one_sub_le {x : ℝ} (h0 : 0 ≤ x) (h1 : x ≤ 1 / 2) :
    -(x + x ^ 2) ≤ Real.log (1 - x) := by
  rw [Real.le_log_iff_exp_le (by linarith)]
  have hu : 0 ≤ x + x ^ 2 := by positivity
  have h := Real.quadratic_le_exp_of_nonneg hu
  rw [Real.exp_neg]
  rw [inv_le_comm₀ (Real.exp_pos _) (by linarith)]
  refine le_trans ?_ h
  rw [inv_le_iff_one_le_mul₀ (by linarith)]
  nlinarith [mul_nonneg h0 h0, mul_nonneg (mul_nonneg h0 h0) (by linarith : (0:ℝ) ≤ 1/2 - x),
    mul_nonneg (mul_nonneg (mul_nonneg h0 h0) h0) (by linarith : (0:ℝ) ≤ 1/2 - x),
    mul_nonneg (mul_nonneg (mul_nonneg h0 h0) (mul_nonneg h0 h0)) (by linarith : (0:ℝ) ≤ 1/2 - x)]

theorem truncInt_nonneg {x : ℝ} (h : 0 ≤ x) : truncInt x = ⌊x⌋ := by simp [truncInt, h]

theorem truncInt_neg {x : ℝ} (h : x < 0) : truncInt x = ⌈x⌉ := by
  simp [truncInt, not_le.2 h]

/-- Distances between objects of two cells differ from the distance of the cells by at most the sum of
the extents. -/
theorem dist_near [PseudoMetricSpace P] {o1 o2 p1 p2 : P} {s1 s2 : ℝ}
    (h1 : dist o1 p1 ≤ s1) (h2 : dist o2 p2 ≤ s2) :
    |dist o1 o2 - dist p1 p2| ≤ s1 + s2 := by
  have t1 := dist_triangle4 o1 p1 p2 o2
  have t2 := dist_triangle4 p1 o1 o2 p2
  rw [dist_comm p2 o2] at t1
  rw [dist_comm p1 o1] at t2
  rw [abs_le]
  constructor <;> linarith

/-- Well-formedness of Log binning parameters: `max_sep = min_sep * exp(nbins * bin_size)`,
/repo/treecorr/corr2base.py:373-392.  The last condition keeps the relative size of accepted cells below 1/2,
where the inequality `log(1-x) ≥ -x-x²` that the code relies on holds (see `log_wide_bin_misplaced`): either
`angle_slop ≤ 1/2` (the default is 0.1 for spin fields) or, as with the default 1 for counts and scalars,
bins of at most one e-folding. -/
structure LogParams (p : Params) : Prop where
  minsep : 0 < p.minsep
  binsize : 0 < p.binsize
  nbins : 0 ≤ p.nbins
  maxsep : p.maxsep = p.minsep * Real.exp (p.nbins * p.binsize)
  b : 0 ≤ p.b
  a : 0 ≤ p.a
  half : p.a ≤ 1 / 2 ∨ (p.b ≤ 1 / 2 ∧ p.binsize + p.b ≤ 1)

theorem LogParams.log_maxsep {p : Params} (h : LogParams p) :
    Real.log p.maxsep = Real.log p.minsep + p.nbins * p.binsize := by
  rw [h.maxsep, Real.log_mul h.minsep.ne' (Real.exp_pos _).ne', Real.log_exp]

theorem LogParams.maxsep_pos {p : Params} (h : LogParams p) : 0 < p.maxsep := by
  rw [h.maxsep]; exact mul_pos h.minsep (Real.exp_pos _)

/-- Core inequality of `singleBin`: relative size `x = s/r` and the position of `log r` in its bin. -/
theorem logSingleBin_sound {p : Params} (hp : LogParams p) {r s : ℝ} (hr : 0 ≤ r) (hs : 0 ≤ s)
    {o : BinOut} (h : logSingleBin (r ^ 2) s p = some o) {d : ℝ} (hd : |d - r| ≤ s) :
    (o = {} ∧ (s = 0 ∨ (0 < r ∧ s ≤ p.a * r ∧ s ≤ p.b * r))) ∨
    (0 < r ∧ 0 < d ∧ o.r = r ∧ o.logr = Real.log r ∧
      o.k = truncInt ((Real.log r - Real.log p.minsep) / p.binsize) ∧
      (p.minsep ≤ r →
        Real.log p.minsep + o.k * p.binsize - p.b ≤ Real.log d ∧
        Real.log d < Real.log p.minsep + (o.k + 1) * p.binsize + p.b) ∧
      (r < p.minsep → Real.log d < Real.log p.minsep + p.b)) := by
  have hm := hp.minsep
  have hbs := hp.binsize
  have hb := hp.b
  have ha := hp.a
  unfold logSingleBin at h
  split at h
  · rename_i h0
    simp only [Option.some.injEq] at h
    exact Or.inl ⟨h.symm, Or.inl h0⟩
  rename_i h0
  have hspos : 0 < s := lt_of_le_of_ne hs (Ne.symm h0)
  simp only at h
  split at h
  · cases h
  rename_i hA
  have hA' : s ≤ p.a * r := by
    rw [gt_iff_lt, not_lt, ← mul_pow, ← sq] at hA
    exact le_of_sq_le_sq hA (by positivity)
  have hrpos : 0 < r := by
    rcases hr.lt_or_eq with h | h
    · exact h
    · rw [← h] at hA'; simp at hA'; linarith
  split at h
  · rename_i hB
    simp only [Option.some.injEq] at h
    left
    refine ⟨h.symm, Or.inr ⟨hrpos, hA', ?_⟩⟩
    rw [← mul_pow, ← sq] at hB
    exact le_of_sq_le_sq hB (by positivity)
  split at h
  · cases h
  rename_i hC
  split at h
  · cases h
  rename_i hF
  split at h
  · cases h
  rename_i hG
  simp only [Option.some.injEq] at h
  right
  have hlog : 0.5 * Real.log (r ^ 2) = Real.log r := by rw [Real.log_pow]; push_cast; ring
  rw [hlog] at hF hG h
  set x := s / r with hx
  have hx0 : 0 < x := div_pos hspos hrpos
  have hxs : s = x * r := by rw [hx]; field_simp
  have hxa : x ≤ p.a := by rw [hx, div_le_iff₀ hrpos]; exact hA'
  have hxc : x ≤ (p.binsize + p.b) / 2 := by
    rw [gt_iff_lt, not_lt] at hC
    have e : (0.25 : ℝ) * (p.binsize + p.b) ^ 2 * r ^ 2 = ((p.binsize + p.b) / 2 * r) ^ 2 := by norm_num; ring
    rw [e, ← sq] at hC
    rw [hx, div_le_iff₀ hrpos]
    exact le_of_sq_le_sq hC (by positivity)
  have hx2 : x ≤ 1 / 2 := by
    rcases hp.half with h | h
    · exact hxa.trans h
    · linarith [h.2]
  have hdlo : r * (1 - x) ≤ d := by have := (abs_le.1 hd).1; linarith
  have hdhi : d ≤ r * (1 + x) := by have := (abs_le.1 hd).2; linarith
  have hdpos : 0 < d := lt_of_lt_of_le (mul_pos hrpos (by linarith)) hdlo
  have hup : Real.log d < Real.log r + x := by
    have h1 : Real.log d ≤ Real.log (r * (1 + x)) := Real.log_le_log hdpos hdhi
    rw [Real.log_mul hrpos.ne' (by linarith)] at h1
    have h2 := Real.log_lt_sub_one_of_pos (by linarith : (0:ℝ) < 1 + x) (by linarith)
    linarith
  have hdown : Real.log r - (x + x ^ 2) ≤ Real.log d := by
    have h1 : Real.log (r * (1 - x)) ≤ Real.log d :=
      Real.log_le_log (mul_pos hrpos (by linarith)) hdlo
    rw [Real.log_mul hrpos.ne' (by linarith)] at h1
    have h2 := neg_log_one_sub_le hx0.le hx2
    linarith
  set kk := (Real.log r - Real.log p.minsep) / p.binsize with hkk
  have hkk' : kk * p.binsize = Real.log r - Real.log p.minsep := by rw [hkk]; field_simp
  set ik := truncInt kk with hik
  set fr : ℝ := kk - ik with hfr
  have hF' : x ≤ |min fr (1 - fr) * p.binsize + p.b| := by
    rw [gt_iff_lt, not_lt, hxs] at hF
    have e : x * r * (x * r) = x ^ 2 * r ^ 2 := by ring
    rw [e] at hF
    have := le_of_mul_le_mul_right hF (by positivity)
    have h2 := sq_le_sq.1 this
    rwa [abs_of_pos hx0] at h2
  have hG' : x ≤ |fr * p.binsize + p.b - x ^ 2| := by
    rw [gt_iff_lt, not_lt, hxs] at hG
    have e : x * r * (x * r) = x ^ 2 * r ^ 2 := by ring
    rw [e] at hG
    have e2 : x ^ 2 * r ^ 2 / r ^ 2 = x ^ 2 := by field_simp
    rw [e2] at hG
    have := le_of_mul_le_mul_right hG (by positivity)
    have h2 := sq_le_sq.1 this
    rwa [abs_of_pos hx0] at h2
  have hxx : x ^ 2 ≤ x := by rw [sq]; exact mul_le_of_le_one_left hx0.le (by linarith)
  have hxx' : x ^ 2 < x := by rw [sq]; exact mul_lt_of_lt_one_left hx0 (by linarith)
  subst h
  refine ⟨hrpos, hdpos, ?_, rfl, rfl, ?_, ?_⟩
  · simp [Real.sqrt_sq hrpos.le]
  · intro hmr
    have hkk0 : 0 ≤ kk := by
      rw [hkk]
      exact div_nonneg (sub_nonneg.2 (Real.log_le_log hm hmr)) hbs.le
    have hikf : ik = ⌊kk⌋ := truncInt_nonneg hkk0
    have hfr0 : 0 ≤ fr := by rw [hfr, hikf]; exact sub_nonneg.2 (Int.floor_le kk)
    have hfr1 : fr < 1 := by rw [hfr, hikf]; have := Int.lt_floor_add_one kk; linarith
    have hmin0 : 0 ≤ min fr (1 - fr) := le_min hfr0 (by linarith)
    have hup2 : x ≤ (1 - fr) * p.binsize + p.b := by
      rw [abs_of_nonneg (by positivity)] at hF'
      have := mul_le_mul_of_nonneg_right (min_le_right fr (1 - fr)) hbs.le
      linarith
    have hdown2 : x + x ^ 2 ≤ fr * p.binsize + p.b := by
      rcases le_abs.1 hG' with h | h
      · linarith
      · have : 0 ≤ fr * p.binsize := mul_nonneg hfr0 hbs.le
        linarith
    have hlr : Real.log r = Real.log p.minsep + (ik + fr) * p.binsize := by
      have : (ik : ℝ) + fr = kk := by rw [hfr]; ring
      rw [this, hkk']; ring
    constructor
    · simp only; linarith
    · simp only; linarith
  · intro hmr
    have hkk0 : kk < 0 := by
      rw [hkk]
      exact div_neg_of_neg_of_pos (sub_neg.2 (Real.log_lt_log hrpos hmr)) hbs
    have hikc : ik = ⌈kk⌉ := truncInt_neg hkk0
    have hik0 : (ik : ℝ) ≤ 0 := by
      have : ik ≤ 0 := by rw [hikc]; exact Int.ceil_le.2 (by simpa using hkk0.le)
      exact_mod_cast this
    have hfr0 : fr ≤ 0 := by rw [hfr, hikc]; have := Int.le_ceil kk; linarith
    have hmin : min fr (1 - fr) = fr := min_eq_left (by linarith)
    rw [hmin] at hF'
    have hx3 : x ≤ -fr * p.binsize + p.b := by
      have h3 : 0 ≤ -fr * p.binsize := mul_nonneg (by linarith) hbs.le
      rcases le_abs.1 hF' with h | h
      · linarith
      · linarith
    have hlr : Real.log r = Real.log p.minsep + (ik + fr) * p.binsize := by
      have : (ik : ℝ) + fr = kk := by rw [hfr]; ring
      rw [this, hkk']; ring
    have h4 : (ik : ℝ) * p.binsize ≤ 0 := mul_nonpos_of_nonpos_of_nonneg hik0 hbs.le
    linarith

end TreeCorr
