import Verif.Spec.Adding
import Verif.Props.Binning
import Verif.Props.Metric

namespace TreeCorr
namespace Adding

/-- The size of a bin follows from the rest. -/
theorem size_eq {a b : Obj} (ha : Made a) (hb : Made b) (ht : a.bt = b.bt) (hn : a.bins.nbins = b.bins.nbins)
    (h1 : a.bins.minsep = b.bins.minsep) (h2 : a.bins.maxsep = b.bins.maxsep) (h0 : 0 < a.bins.nbins) :
    a.bins.binsize = b.bins.binsize := by
  obtain ⟨c, hc⟩ := ha
  obtain ⟨d, hd⟩ := hb
  rw [← ht] at hd
  have hn0 : (b.bins.nbins : ℝ) ≠ 0 := by
    rw [← hn]; exact_mod_cast h0.ne'
  cases hbt : a.bt with
  | log =>
    rw [hbt] at hc hd
    obtain ⟨-, -, m1, -, -, e1, -⟩ := log_bins_consistent c _ hc
    obtain ⟨-, -, m2, -, -, e2, -⟩ := log_bins_consistent d _ hd
    rw [h2, h1, hn, e2] at e1
    have e3 := Real.exp_injective (mul_left_cancel₀ m2.ne' e1)
    exact (mul_left_cancel₀ hn0 e3).symm
  | linear =>
    rw [hbt] at hc hd
    obtain ⟨-, -, -, -, e1, -⟩ := linear_bins_consistent c _ hc
    obtain ⟨-, -, -, -, e2, -⟩ := linear_bins_consistent d _ hd
    rw [h2, h1, hn, e2] at e1
    exact (mul_left_cancel₀ hn0 (by linarith)).symm
  | twoD =>
    rw [hbt] at hc hd
    obtain ⟨-, -, -, -, e1, -⟩ := twoD_bins_consistent c _ hc
    obtain ⟨-, -, -, -, e2, -⟩ := twoD_bins_consistent d _ hd
    rw [h2, hn, e2] at e1
    exact (mul_left_cancel₀ hn0 e1).symm

theorem nbins_nonneg {a : Obj} (ha : Made a) : 0 ≤ a.bins.nbins := by
  obtain ⟨c, hc⟩ := ha
  cases hbt : a.bt with
  | log => rw [hbt] at hc; exact (log_bins_consistent c _ hc).2.2.2.1
  | linear => rw [hbt] at hc; exact (linear_bins_consistent c _ hc).2.2.1
  | twoD => rw [hbt] at hc; exact (twoD_bins_consistent c _ hc).2.2.1

theorem nbins_eq {a b : Obj} (ha : Made a) (hb : Made b) (ht : a.bt = b.bt) (h : total a = total b) :
    a.bins.nbins = b.bins.nbins := by
  unfold total at h
  rw [← ht] at h
  split_ifs at h with hbt
  · exact (pow_left_inj₀ (nbins_nonneg ha) (nbins_nonneg hb) two_ne_zero).1 h
  · exact h

theorem sameBins {a b : Obj} (ha : Made a) (hb : Made b) (ht : a.bt = b.bt) (hu : a.units = b.units)
    (h : total a = total b) (h1 : a.bins.minsep = b.bins.minsep) (h2 : a.bins.maxsep = b.bins.maxsep) :
    SameBins a b := by
  have hn := nbins_eq ha hb ht h
  refine ⟨ht, hn, fun k hk => ?_⟩
  have hs := size_eq ha hb ht hn h1 h2 (by omega)
  have e : a.bins = b.bins := by
    cases hA : a.bins; cases hB : b.bins
    simp only [hA, hB] at hn h1 h2 hs
    rw [hn, h1, h2, hs]
  simp only [left, right, ht, e, hu, and_self]

/-- What an accepted addition went through. -/
theorem iadd_ok {a b c : Obj} (h : iadd a b = .ok c) :
    b.cls = a.cls ∧ total a = total b ∧ a.bins.minsep = b.bins.minsep ∧ a.bins.maxsep = b.bins.maxsep ∧
      ∃ u, takeMetric a b = .ok u ∧ c.used = some u ∧ c.bins = a.bins ∧ c.bt = a.bt ∧ c.units = a.units ∧
        c.tot = (if a.cls = "NNCorrelation" then a.tot + b.tot else a.tot) ∧
        ((¬ nonzero b ∧ c.npairs = a.npairs ∧ c.weight = a.weight) ∨
          ((∀ k, c.npairs k = a.npairs k + b.npairs k) ∧ ∀ k, c.weight k = a.weight k + b.weight k)) := by
  unfold iadd at h
  by_cases h0 : b.cls = a.cls
  · rw [if_neg (not_not.2 h0)] at h
    by_cases h1 : total a = total b ∧ a.bins.minsep = b.bins.minsep ∧ a.bins.maxsep = b.bins.maxsep
    · rw [if_neg (not_not.2 h1)] at h
      refine ⟨h0, h1.1, h1.2.1, h1.2.2, ?_⟩
      cases hu : takeMetric a b with
      | error e => simp only [hu] at h; cases h
      | ok u =>
        simp only [hu] at h
        refine ⟨u, rfl, ?_⟩
        by_cases h2 : nonzero b
        · rw [if_neg (not_not.2 h2)] at h
          by_cases h3 : fits a b
          · rw [if_neg (not_not.2 h3)] at h
            cases h
            exact ⟨rfl, rfl, rfl, rfl, rfl, Or.inr ⟨fun k => rfl, fun k => rfl⟩⟩
          · rw [if_pos h3] at h; cases h
        · rw [if_pos h2] at h
          cases h
          exact ⟨rfl, rfl, rfl, rfl, rfl, Or.inl ⟨h2, rfl, rfl⟩⟩
    · rw [if_pos h1] at h; cases h
  · rw [if_pos h0] at h; cases h

end Adding
end TreeCorr
