import Verif.Proofs.Adding

/-!
# C93: only objects with the same bins are added
-/

namespace TreeCorr
namespace Adding

/-- **C93**, for objects with the same bin type and units: if `a += b` is accepted, the two have the same
bins, each bin of the sum is the sum of the two, and the bins of `a` stay as they are.
(`hw`: where no pair was counted there is no weight.)
Missing: bin types and units are not compared, `log_linear_wrong`, `units_wrong`. -/
theorem add_same_bins_partial {a b c : Obj} (ha : Made a) (hb : Made b) (ht : a.bt = b.bt) (hu : a.units = b.units)
    (hw : ∀ k : ℕ, b.npairs k = 0 → b.weight k = 0) (h : iadd a b = .ok c) :
    SameBins a b ∧ SameBins c a ∧ c.bins = a.bins ∧
      ∀ k : ℕ, (k : ℤ) < total a → c.npairs k = a.npairs k + b.npairs k ∧ c.weight k = a.weight k + b.weight k := by
  obtain ⟨-, h1, h2, h3, u, -, -, e1, e2, e3, -, h4⟩ := iadd_ok h
  refine ⟨sameBins ha hb ht hu h1 h2 h3, ⟨e2, by rw [e1], fun k _ => by simp only [left, right, e1, e2, e3, and_self]⟩, e1, ?_⟩
  intro k hk
  rcases h4 with ⟨h5, e4, e5⟩ | ⟨e4, e5⟩
  · have h6 : b.npairs k = 0 := by
      by_contra hne
      exact h5 ⟨k, h1 ▸ hk, hne⟩
    rw [e4, e5, h6, hw k h6]
    simp
  · exact ⟨e4 k, e5 k⟩

/-- The edges that `SameBins` compares are those of the bins: `bin_size` apart in the logarithm or in the separation. -/
theorem edges_are {o : Obj} (h : Made o) (h0 : 0 < o.bins.nbins) (k : ℕ) :
    right o k = left o (k + 1) ∧
    left o k = match o.bt with
      | .log => o.bins.minsep * Real.exp (k * o.bins.binsize)
      | .linear => o.bins.minsep + k * o.bins.binsize
      | .twoD => -o.bins.maxsep + k * o.bins.binsize := by
  obtain ⟨c, hc⟩ := h
  unfold left right
  cases hbt : o.bt with
  | log =>
    rw [hbt] at hc
    exact ((log_bins_consistent c _ hc).2.2.2.2.2.2 h0).2.1 k
  | linear =>
    rw [hbt] at hc
    exact ((linear_bins_consistent c _ hc).2.2.2.2.2 h0).2.1 k
  | twoD =>
    rw [hbt] at hc
    exact ((twoD_bins_consistent c _ hc).2.2.2.2.2 h0).2.1 k

/-- **C93**: NN objects also add `tot`, even if the other one has no pairs. -/
theorem add_tot {a b c : Obj} (ha : a.cls = "NNCorrelation") (h : iadd a b = .ok c) : c.tot = a.tot + b.tot := by
  obtain ⟨-, -, -, -, u, -, -, -, -, -, e, -⟩ := iadd_ok h
  rw [e, if_pos ha]

/-- **C93**: an object with the same bins is accepted, if it has been used with a metric and coordinates
that are allowed for the first. -/
theorem add_accepted {a b : Obj} (hc : b.cls = a.cls) (ht : a.bt = b.bt) (hn : a.bins = b.bins)
    {u v : String × String} (hu : b.used = some u) (hv : setMetric a.set u.2 u.1 (some u.1) = .ok v) :
    ∃ c, iadd a b = .ok c := by
  have h1 : total a = total b := by simp only [total, ht, hn]
  have h2 : takeMetric a b = .ok v := by simp only [takeMetric, hu, hv]
  unfold iadd
  rw [if_neg (not_not.2 hc), if_neg (not_not.2 ⟨h1, by rw [hn], by rw [hn]⟩)]
  simp only [h2]
  by_cases h3 : nonzero b
  · rw [if_neg (not_not.2 h3), if_neg]
    · exact ⟨_, rfl⟩
    · rw [not_not]
      unfold fits
      rw [ht, hn]
      by_cases h4 : b.bt = .twoD
      · rw [if_pos h4, if_pos h4]
      · rw [if_neg h4]
        exact ⟨h4, Or.inl rfl⟩
  · rw [if_pos h3]
    exact ⟨_, rfl⟩

/-- **C93**: objects of another class are refused with TypeError, another number of bins or other limits with ValueError. -/
theorem add_refused {a b : Obj} :
    (b.cls ≠ a.cls → iadd a b = .error .typeError) ∧
    (b.cls = a.cls → a.bt = b.bt → Made a → Made b →
      (a.bins.nbins ≠ b.bins.nbins ∨ a.bins.minsep ≠ b.bins.minsep ∨ a.bins.maxsep ≠ b.bins.maxsep) →
      iadd a b = .error .valueError) := by
  constructor
  · intro h
    unfold iadd
    rw [if_pos h]
  · intro h0 ht ha hb h
    unfold iadd
    rw [if_neg (not_not.2 h0), if_pos]
    rintro ⟨h1, h2, h3⟩
    rcases h with h | h | h
    · exact h (nbins_eq ha hb ht h1)
    · exact h h2
    · exact h h3

noncomputable section

/-- Two bins from 1 to 4 with 5 pairs in each, on the plane. -/
def ex (bt : BinType) (s units : ℝ) : Obj :=
  { cls := "NNCorrelation", bt := bt, bins := ⟨1, 4, 2, s⟩, units := units
    set := ⟨false, false, false, false, false, false⟩, used := some ("flat", "Euclidean")
    npairs := fun _ => 5, weight := fun _ => 5, tot := 20 }

theorem made_log (u : ℝ) : Made (ex .log (Real.log 4 / 2) u) := by
  refine ⟨{ minsep := .val 1, maxsep := .val 4, nbins := .val 2 }, ?_⟩
  have h4 : Real.log 4 ≠ 0 := (Real.log_pos (by norm_num)).ne'
  have h1 : ¬ ((1 : ℝ) ≥ 4) := by norm_num
  simp [makeBins, parseBins, getMinSep, Arg.get, logBins, logStage, logFinish, pyDiv, pyLog, ex, h1, h4, bind,
    Except.bind, pure, Except.pure]
  norm_num

theorem made_linear (u : ℝ) : Made (ex .linear (3 / 2) u) := by
  refine ⟨{ minsep := .val 1, maxsep := .val 4, nbins := .val 2 }, ?_⟩
  have h1 : ¬ ((1 : ℝ) ≥ 4) := by norm_num
  have h2 : (4 : ℝ) - 1 = 3 := by norm_num
  simp [makeBins, parseBins, getMinSep, Arg.get, linearBins, linearStage, linearFinish, pyDiv, ex, h1, h2, bind,
    Except.bind, pure, Except.pure]

theorem ex_metric : setMetric ⟨false, false, false, false, false, false⟩ "Euclidean" "flat" (some "flat") = .ok ("flat", "Euclidean") := by
  simp [setMetric, parseMetric]

theorem ex_added (t t' : BinType) (ht : t ≠ .twoD) (ht' : t' ≠ .twoD) (s s' u u' : ℝ) :
    ∃ c, iadd (ex t s u) (ex t' s' u') = .ok c ∧ c.weight 0 = 10 := by
  have h1 : total (ex t s u) = total (ex t' s' u') := by simp [total, ex, ht, ht']
  have h2 : takeMetric (ex t s u) (ex t' s' u') = .ok ("flat", "Euclidean") := ex_metric
  have h3 : nonzero (ex t' s' u') := ⟨0, by simp [total, ex, ht'], by norm_num [ex]⟩
  have h4 : fits (ex t s u) (ex t' s' u') := by simp [fits, ex, ht, ht']
  have h5 : (ex t' s' u').cls = (ex t s u).cls := rfl
  unfold iadd
  rw [if_neg (not_not.2 h5), if_neg (not_not.2 ⟨h1, rfl, rfl⟩)]
  simp only [h2]
  rw [if_neg (not_not.2 h3), if_neg (not_not.2 h4)]
  exact ⟨_, rfl, by norm_num [ex]⟩

/-- The hypotheses of `add_same_bins_partial` are met: both have logarithmic bins. -/
example : ∃ c, iadd (ex .log (Real.log 4 / 2) 1) (ex .log (Real.log 4 / 2) 1) = .ok c ∧ c.weight 0 = 10 ∧
    Made (ex .log (Real.log 4 / 2) 1) ∧ SameBins c (ex .log (Real.log 4 / 2) 1) := by
  obtain ⟨c, hc, hw⟩ := ex_added .log .log (by decide) (by decide) (Real.log 4 / 2) (Real.log 4 / 2) 1 1
  exact ⟨c, hc, hw, made_log 1, (add_same_bins_partial (made_log 1) (made_log 1) rfl rfl (fun k h => h) hc).2.1⟩

/-- Two logarithmic bins from 1 to 4 have the edges 1, 2, 4 and two linear ones 1, 2.5, 4: they are added
all the same. -/
theorem log_linear_wrong : ∃ a b c : Obj, Made a ∧ Made b ∧ a.units = b.units ∧ iadd a b = .ok c ∧ ¬ SameBins a b ∧
    right a 0 = 2 ∧ right b 0 = 5 / 2 ∧ c.weight 0 = a.weight 0 + b.weight 0 ∧ b.weight 0 ≠ 0 := by
  obtain ⟨c, hc, hw⟩ := ex_added .log .linear (by decide) (by decide) (Real.log 4 / 2) (3 / 2) 1 1
  refine ⟨_, _, c, made_log 1, made_linear 1, rfl, hc, fun h => (by cases h.1), ?_, ?_, ?_, ?_⟩
  · have e : Real.log 4 = 2 * Real.log 2 := by
      rw [show (4 : ℝ) = 2 ^ 2 by norm_num, Real.log_pow]; norm_num
    simp only [right, ex, logRight, linspace, e, Real.log_one]
    rw [← Real.exp_add]
    have : 0 + ((0 : ℕ) : ℝ) * ((((2 : ℤ) : ℝ) * (2 * Real.log 2 / 2) - 0) / ((2 : ℤ) : ℝ)) +
        (0 + 0.5 * (2 * Real.log 2 / 2)) + 0.5 * (2 * Real.log 2 / 2) = Real.log 2 := by
      push_cast; ring
    rw [this, Real.exp_log (by norm_num)]
  · norm_num [right, ex, linRight, linspace]
  · rw [hw]; norm_num [ex]
  · norm_num [ex]

/-- Bins from 1 to 4 in arcminutes and bins from 1 to 4 in degrees (`units` 60 times larger) are added. -/
theorem units_wrong : ∃ a b c : Obj, Made a ∧ Made b ∧ a.bt = b.bt ∧ iadd a b = .ok c ∧ ¬ SameBins a b ∧
    b.units = 60 * a.units ∧ c.weight 0 = a.weight 0 + b.weight 0 ∧ b.weight 0 ≠ 0 := by
  obtain ⟨c, hc, hw⟩ := ex_added .linear .linear (by decide) (by decide) (3 / 2) (3 / 2) 1 60
  refine ⟨_, _, c, made_linear 1, made_linear 60, rfl, hc, fun h => ?_, by norm_num [ex], ?_, by norm_num [ex]⟩
  · have := (h.2.2 0 (by norm_num [ex])).1
    norm_num [left, ex, linLeft, linspace] at this
  · rw [hw]; norm_num [ex]

/-- A new object, for which nothing has been processed, cannot be added, though it is the sum of nothing. -/
theorem unused_wrong : ∃ a b : Obj, Made a ∧ Made b ∧ SameBins a b ∧ b.cls = a.cls ∧ (∀ k, b.weight k = 0 ∧ b.npairs k = 0) ∧
    iadd a b = .error .valueError := by
  refine ⟨ex .linear (3 / 2) 1, { ex .linear (3 / 2) 1 with used := none, npairs := fun _ => 0, weight := fun _ => 0 },
    made_linear 1, made_linear 1, ⟨rfl, rfl, fun k _ => ⟨rfl, rfl⟩⟩, rfl, fun k => ⟨rfl, rfl⟩, ?_⟩
  unfold iadd
  rw [if_neg (not_not.2 rfl), if_neg (not_not.2 ⟨rfl, rfl, rfl⟩)]
  rfl

/-- The same bins, on the sphere. -/
def exSphere : Obj := { ex .linear (3 / 2) 1 with used := some ("spherical", "Arc") }

theorem made_sphere : Made exSphere := made_linear 1

/-- Pairs on the sphere are added to pairs on the plane: there is a warning, and the sum counts as being
on the sphere. -/
theorem coords_wrong : ∃ a b c : Obj, Made a ∧ Made b ∧ SameBins a b ∧ nonzero a ∧ iadd a b = .ok c ∧
    a.used = some ("flat", "Euclidean") ∧ c.used = some ("spherical", "Arc") := by
  have hm : setMetric ⟨false, false, false, false, false, false⟩ "Arc" "spherical" (some "spherical") = .ok ("spherical", "Arc") := by
    simp [setMetric, parseMetric]
  obtain ⟨c, hc⟩ := add_accepted (a := ex .linear (3 / 2) 1) (b := exSphere)
    rfl rfl rfl rfl hm
  refine ⟨_, _, c, made_linear 1, made_sphere, ⟨rfl, rfl, fun k _ => ⟨rfl, rfl⟩⟩, ⟨0, by simp [total, ex], by norm_num [ex]⟩, hc, rfl, ?_⟩
  obtain ⟨-, -, -, -, u, h1, h2, -⟩ := iadd_ok hc
  rw [h2]
  have : takeMetric (ex .linear (3 / 2) 1) exSphere = .ok ("spherical", "Arc") := hm
  rw [this] at h1
  cases h1
  rfl

end
end Adding
end TreeCorr
