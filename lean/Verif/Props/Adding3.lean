import Verif.Proofs.Adding3
import Verif.Spec.Metric

/-!
# C93: only three-point objects with the same bins are added
-/

namespace TreeCorr
namespace Adding

/-- **C93**, three points, for objects with the same units: if `a += b` is accepted, the two have the same
bins in all quantities, each bin of the sum is the sum of the two, and the bins of `a` stay as they are.
(`hw`: where no triangle was counted there is no weight.)
Missing: units are not compared, `units3_wrong`. -/
theorem add3_same_bins_partial {a b c : Obj3} (ha : Made3 a) (hb : Made3 b) (hu : a.units = b.units)
    (hw : ∀ k : ℕ, b.ntri k = 0 → b.weight k = 0) (h : iadd3 a b = .ok c) :
    SameBins3 a b ∧ c.bins = a.bins ∧ c.units = a.units ∧
      ∀ k : ℕ, (k : ℤ) < total3 a.bins → c.ntri k = a.ntri k + b.ntri k ∧ c.weight k = a.weight k + b.weight k := by
  obtain ⟨-, h1, u, -, -, e1, e2, -, h4⟩ := iadd3_ok h
  refine ⟨sameBins3 ha hb hu h1, e1, e2, ?_⟩
  intro k hk
  rcases h4 with ⟨h5, e4, e5⟩ | ⟨e4, e5⟩
  · have h6 : b.ntri k = 0 := by
      by_contra hne
      exact h5 ⟨k, total3_eq h1 ▸ hk, hne⟩
    rw [e4, e5, h6, hw k h6]
    simp
  · exact ⟨e4 k, e5 k⟩

/-- **C93**: NNN objects also add `tot`, even if the other one has no triangles. -/
theorem add3_tot {a b c : Obj3} (ha : a.cls = "NNNCorrelation") (h : iadd3 a b = .ok c) : c.tot = a.tot + b.tot := by
  obtain ⟨-, -, u, -, -, -, -, e, -⟩ := iadd3_ok h
  rw [e, if_pos ha]

/-- **C93**: an object with the same bins is accepted, if it has been used without a period, with coordinates and a
metric that go together. -/
theorem add3_accepted {a b : Obj3} (hc : b.cls = a.cls) (hn : a.bins = b.bins) {co m : String}
    (hu : b.used = some (co, m)) (hm : DocCross m co co co) (hp : m ≠ "Periodic")
    (hx : a.xp = false ∧ a.yp = false ∧ a.zp = false) :
    ∃ c, iadd3 a b = .ok c ∧ c.used = some (co, m) := by
  have h1 : equalBinning a.bins b.bins := by
    rw [hn]
    cases b.bins <;> simp [equalBinning, eqSep, eqLin]
  have h0 : parseMetric m co (some co) (some co) = .ok (co, m) := by
    rcases hm with ⟨hA, hd, -⟩ | ⟨rfl, rfl, -⟩ | ⟨rfl, h, hs⟩ | ⟨rfl, rfl, -⟩
    · rcases hd with ⟨rfl, h⟩ | ⟨rfl, h⟩ | ⟨h, rfl⟩ | ⟨rfl, h⟩
      · rcases h with rfl | rfl | rfl <;> simp [parseMetric]
      · exact absurd rfl hA
      · rcases h with rfl | rfl | rfl <;> simp [parseMetric]
      · exact absurd rfl hp
    · simp [parseMetric]
    · subst hs
      simp [parseMetric]
    · simp [parseMetric]
  have h2 : takeMetric3 a b = .ok (co, m) := by
    simp only [takeMetric3, hu, h0, if_neg hp, hx]
    simp
  unfold iadd3
  rw [if_neg (not_not.2 hc), if_neg (not_not.2 h1)]
  simp only [h2]
  by_cases h3 : nonzero3 b
  · rw [if_neg (not_not.2 h3)]
    exact ⟨_, rfl, rfl⟩
  · rw [if_pos h3]
    exact ⟨_, rfl, rfl⟩

/-- **C93**: objects of another class are refused with TypeError, other bins with ValueError. -/
theorem add3_refused {a b : Obj3} :
    (b.cls ≠ a.cls → iadd3 a b = .error .typeError) ∧
    (b.cls = a.cls → Made3 a → Made3 b → a.units = b.units → ¬ SameBins3 a b → iadd3 a b = .error .valueError) := by
  constructor
  · intro h
    unfold iadd3
    rw [if_pos h]
  · intro h0 ha hb hu h
    unfold iadd3
    rw [if_neg (not_not.2 h0), if_pos]
    exact fun h1 => h (sameBins3 ha hb hu h1)

noncomputable section

/-- Two bins from 1 to 4 and multipoles up to 3, with 5 triangles in each. -/
def ex3 (n : ℤ) (units : ℝ) : Obj3 :=
  { cls := "NNNCorrelation", bins := .multipole ⟨1, 4, 2, Real.log 4 / 2⟩ n, units := units
    xp := false, yp := false, zp := false, used := some ("spherical", "Euclidean")
    ntri := fun _ => 5, weight := fun _ => 5, tot := 20 }

theorem made_ex3 (n : ℕ) (u : ℝ) : Made3 (ex3 n u) := by
  refine ⟨{ sep := { minsep := .val 1, maxsep := .val 4, nbins := .val 2 }, maxn := .val n }, ?_⟩
  have h1 : ¬ ((1 : ℝ) ≥ 4) := by norm_num
  simp [makeMultipole, sepBins, LinConfig.any, Arg.present, parseBins, getMinSep, Arg.get, logStage, pyDiv, pyLog, h1,
    bind, Except.bind, pure, Except.pure]
  norm_num

/-- The hypotheses of `add3_same_bins_partial` are met. -/
example : ∃ c, iadd3 (ex3 3 1) (ex3 3 1) = .ok c ∧ c.weight 27 = 10 ∧ Made3 (ex3 3 1) := by
  obtain ⟨c, hc, -⟩ := add3_accepted (a := ex3 3 1) (b := ex3 3 1) rfl rfl rfl
    (Or.inl ⟨by decide, Or.inl ⟨rfl, Or.inr (Or.inl rfl)⟩, rfl, rfl⟩) (by decide) ⟨rfl, rfl, rfl⟩
  refine ⟨c, hc, ?_, made_ex3 3 1⟩
  rw [((add3_same_bins_partial (made_ex3 3 1) (made_ex3 3 1) rfl (fun k h => h) hc).2.2.2 27 (by norm_num [total3, ex3])).2]
  norm_num [ex3]

/-- Other multipoles are refused. -/
example : iadd3 (ex3 3 1) (ex3 4 1) = .error .valueError :=
  add3_refused.2 rfl (made_ex3 3 1) (made_ex3 4 1) rfl fun h => by
    have := h.2
    norm_num at this

/-- Bins from 1 to 4 in arcminutes and bins from 1 to 4 in degrees (`units` 60 times larger) are added. -/
theorem units3_wrong : ∃ a b c : Obj3, Made3 a ∧ Made3 b ∧ iadd3 a b = .ok c ∧ ¬ SameBins3 a b ∧
    b.units = 60 * a.units ∧ c.weight 0 = a.weight 0 + b.weight 0 ∧ b.weight 0 ≠ 0 := by
  obtain ⟨c, hc, -⟩ := add3_accepted (a := ex3 3 1) (b := ex3 3 60) rfl rfl rfl
    (Or.inl ⟨by decide, Or.inl ⟨rfl, Or.inr (Or.inl rfl)⟩, rfl, rfl⟩) (by decide) ⟨rfl, rfl, rfl⟩
  refine ⟨_, _, c, made_ex3 3 1, made_ex3 3 60, hc, fun h => ?_, by norm_num [ex3], ?_, by norm_num [ex3]⟩
  · have := h.1.2 0 (by norm_num) (by norm_num)
    norm_num [sepEdge, ex3] at this
  · obtain ⟨-, -, u, -, -, -, -, -, h4⟩ := iadd3_ok hc
    rcases h4 with ⟨h5, -⟩ | ⟨-, e⟩
    · exact absurd ⟨0, by norm_num [total3, ex3], by norm_num [ex3]⟩ h5
    · exact e 0

/-- A new object, for which nothing has been processed, cannot be added, though it is the sum of nothing. -/
theorem unused3_wrong : ∃ a b : Obj3, Made3 a ∧ Made3 b ∧ SameBins3 a b ∧ b.cls = a.cls ∧
    (∀ k, b.weight k = 0 ∧ b.ntri k = 0) ∧ iadd3 a b = .error .valueError := by
  refine ⟨ex3 3 1, { ex3 3 1 with used := none, ntri := fun _ => 0, weight := fun _ => 0 },
    made_ex3 3 1, made_ex3 3 1, ⟨⟨rfl, fun k _ _ => rfl⟩, rfl⟩, rfl, fun k => ⟨rfl, rfl⟩, ?_⟩
  unfold iadd3
  rw [if_neg (not_not.2 rfl), if_neg]
  · rfl
  · rw [not_not]
    exact ⟨⟨rfl, rfl, rfl⟩, rfl⟩

end
end Adding
end TreeCorr
