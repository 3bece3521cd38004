import Verif.Proofs.Binning
import Verif.Proofs.LogBin
import Verif.Proofs.LinearExact
import Verif.Spec.Brute

/-!
C26: any three of `min_sep, max_sep, nbins, bin_size` (TwoD: two of the last three) give consistent bins.
-/

namespace TreeCorr
open Classical
set_option linter.unusedSimpArgs false
noncomputable section

/-- How many of the four parameters are given. -/
def BinConfig.given (c : BinConfig) : ℕ :=
  (if c.minsep.get.isSome then 1 else 0) + (if c.maxsep.get.isSome then 1 else 0) +
  (if c.nbins.get.isSome then 1 else 0) + (if c.binsize.get.isSome then 1 else 0)

/-- How many of `max_sep`, `nbins`, `bin_size` are given. -/
def BinConfig.given2d (c : BinConfig) : ℕ :=
  (if c.maxsep.get.isSome then 1 else 0) +
  (if c.nbins.get.isSome then 1 else 0) + (if c.binsize.get.isSome then 1 else 0)

/-- The parameters that the user gave are kept; a given `bin_size` may only be made smaller, and only if
`nbins` was not given. -/
structure Keeps (c : BinConfig) (B : Bins) : Prop where
  minsep : ∀ v, c.minsep.get = some v → B.minsep = v
  maxsep : ∀ v, c.maxsep.get = some v → B.maxsep = v
  nbins : ∀ v, c.nbins.get = some v → B.nbins = v
  binsize : ∀ v, 0 < v → c.binsize.get = some v → 0 < B.binsize ∧ B.binsize ≤ v
  binsize_eq : ∀ v, c.nbins.get.isSome → c.binsize.get = some v → B.binsize = v

/-- **C26.** Log and Linear: fewer or more than three parameters are a `TypeError`. -/
theorem wrong_number_rejected (bt : BinType) (hbt : bt ≠ .twoD) (c : BinConfig) (h : c.given ≠ 3) :
    makeBins bt c = .error .typeError := by
  have : parseBins bt c = .error .typeError := by
    unfold parseBins getMinSep
    unfold BinConfig.given at h
    cases h1 : c.minsep <;> cases h2 : c.maxsep <;> cases h3 : c.nbins <;> cases h4 : c.binsize <;>
      simp_all [Arg.get, bind, Except.bind]
  unfold makeBins
  rw [this]
  rfl

/-- **C26.** TwoD: other than two of `max_sep`, `nbins`, `bin_size` are a `TypeError`. -/
theorem wrong_number_rejected_twoD (c : BinConfig) (h : c.given2d ≠ 2) :
    makeBins .twoD c = .error .typeError := by
  have : parseBins .twoD c = .error .typeError := by
    unfold parseBins getMinSep
    unfold BinConfig.given2d at h
    cases h2 : c.maxsep <;> cases h3 : c.nbins <;> cases h4 : c.binsize <;>
      simp_all [Arg.get, bind, Except.bind]
  unfold makeBins
  rw [this]
  rfl

theorem ceil_size {L bs : ℝ} (hL : 0 < L) (hbs : 0 < bs) :
    0 < ⌈L / bs⌉ ∧ 0 < L / ⌈L / bs⌉ ∧ L / ⌈L / bs⌉ ≤ bs := by
  have h0 : 0 < L / bs := by positivity
  have hn : 0 < ⌈L / bs⌉ := Int.ceil_pos.2 h0
  have hn' : (0 : ℝ) < ⌈L / bs⌉ := by exact_mod_cast hn
  refine ⟨hn, by positivity, ?_⟩
  rw [div_le_iff₀ hn']
  have := Int.le_ceil (L / bs)
  rw [div_le_iff₀ hbs] at this
  linarith

/-- **C26, Log bins.** If the constructor accepts the parameters: they are kept, the bins are the intervals
`[min_sep*e^(k*bin_size), min_sep*e^((k+1)*bin_size))`, contiguous, from `min_sep` to `max_sep`. -/
theorem log_bins_consistent (c : BinConfig) (B : Bins) (h : makeBins .log c = .ok B) :
    Keeps c B ∧ c.given = 3 ∧ 0 < B.minsep ∧ 0 ≤ B.nbins ∧ B.binsize ≠ 0 ∧
    B.maxsep = B.minsep * Real.exp (B.nbins * B.binsize) ∧
    (0 < B.nbins → logLeft B 0 = B.minsep ∧
      (∀ k : ℕ, logRight B k = logLeft B (k + 1) ∧ logLeft B k = logEdge B.minsep B.binsize k) ∧
      ∀ k : ℕ, (k : ℤ) + 1 = B.nbins → logRight B k = B.maxsep) := by
  have hg : c.given = 3 := by
    by_contra hne
    rw [wrong_number_rejected .log (by decide) c hne] at h
    cases h
  have edges : 0 < B.minsep → B.maxsep = B.minsep * Real.exp (B.nbins * B.binsize) →
      (0 < B.nbins → logLeft B 0 = B.minsep ∧
      (∀ k : ℕ, logRight B k = logLeft B (k + 1) ∧ logLeft B k = logEdge B.minsep B.binsize k) ∧
      ∀ k : ℕ, (k : ℤ) + 1 = B.nbins → logRight B k = B.maxsep) := by
    intro hm hx hn
    have hn' : (B.nbins : ℝ) ≠ 0 := by exact_mod_cast hn.ne'
    have el : ∀ k : ℕ, logLeft B k = B.minsep * Real.exp (k * B.binsize) := by
      intro k
      simp only [logLeft, linspace]
      rw [← Real.exp_sub]
      have : 0 + (k : ℝ) * ((B.nbins * B.binsize - 0) / B.nbins) + (Real.log B.minsep + 0.5 * B.binsize)
          - 0.5 * B.binsize = Real.log B.minsep + k * B.binsize := by field_simp; ring
      rw [this, Real.exp_add, Real.exp_log hm]
    have er : ∀ k : ℕ, logRight B k = B.minsep * Real.exp ((k + 1) * B.binsize) := by
      intro k
      simp only [logRight, linspace]
      rw [← Real.exp_add]
      have : 0 + (k : ℝ) * ((B.nbins * B.binsize - 0) / B.nbins) + (Real.log B.minsep + 0.5 * B.binsize)
          + 0.5 * B.binsize = Real.log B.minsep + (k + 1) * B.binsize := by field_simp; ring
      rw [this, Real.exp_add, Real.exp_log hm]
    refine ⟨by rw [el]; simp, ?_, ?_⟩
    · intro k
      refine ⟨by rw [er, el]; push_cast; rfl, ?_⟩
      rw [el, logEdge]; norm_cast
    · intro k hk
      rw [er, hx, ← hk]; push_cast; rfl
  unfold makeBins at h
  obtain ⟨r, hr, h⟩ := except_bind_ok.1 h
  have hp := parseBins_ok hr
  change (logStage r >>= logFinish) = _ at h
  obtain ⟨B', hB, h⟩ := except_bind_ok.1 h
  obtain ⟨hn0, hl, hd, rfl⟩ : 0 ≤ B'.nbins ∧ 0 < B'.minsep ∧ B'.binsize ≠ 0 ∧ B' = B := by
    unfold logFinish at h
    split at h
    · cases h
    rename_i hn
    obtain ⟨x, hx, h⟩ := except_bind_ok.1 h
    obtain ⟨y, hy, h⟩ := except_bind_ok.1 h
    exact ⟨not_lt.1 hn, (pyLog_ok.1 hx).1, (pyDiv_ok.1 hy).1, by simpa [pure, Except.pure] using h⟩
  cases r with
  | noNbins mn mx bs =>
    obtain ⟨p1, p2, p3, p4, p5⟩ := hp
    obtain ⟨q, hq, hB⟩ := except_bind_ok.1 hB
    obtain ⟨L, hL, hB⟩ := except_bind_ok.1 hB
    obtain ⟨t, ht, hB⟩ := except_bind_ok.1 hB
    obtain ⟨s, hs, hB⟩ := except_bind_ok.1 hB
    simp only [pure, Except.pure, Except.ok.injEq] at hB
    subst hB
    obtain ⟨_, rfl⟩ := pyDiv_ok.1 hq
    obtain ⟨hq0, rfl⟩ := pyLog_ok.1 hL
    obtain ⟨hbs, rfl⟩ := pyDiv_ok.1 ht
    obtain ⟨hn, rfl⟩ := pyDiv_ok.1 hs
    simp only at hl hn0 hd ⊢
    have hLpos : 0 < Real.log (mx / mn) := Real.log_pos (by rw [lt_div_iff₀ hl]; linarith)
    have hmax : mx = mn * Real.exp ((⌈Real.log (mx / mn) / bs⌉ : ℝ) *
        (Real.log (mx / mn) / ⌈Real.log (mx / mn) / bs⌉)) := by
      rw [mul_div_cancel₀ _ hn, Real.exp_log hq0]; field_simp
    refine ⟨⟨?_, ?_, ?_, ?_, ?_⟩, hg, hl, hn0, hd, hmax, edges hl hmax⟩
    · intro v hv; exact ((getMinSep_ok p2).1 v hv).symm
    · intro v hv; rw [p3] at hv; exact Option.some.inj hv
    · intro v hv; rw [p1] at hv; cases hv
    · intro v hv0 hv
      rw [p4] at hv
      obtain rfl := Option.some.inj hv
      exact (ceil_size hLpos hv0).2
    · intro v hv; rw [p1] at hv; cases hv
  | noSize mn mx n =>
    obtain ⟨p1, p2, p3, p4, p5⟩ := hp
    obtain ⟨q, hq, hB⟩ := except_bind_ok.1 hB
    obtain ⟨L, hL, hB⟩ := except_bind_ok.1 hB
    obtain ⟨s, hs, hB⟩ := except_bind_ok.1 hB
    simp only [pure, Except.pure, Except.ok.injEq] at hB
    subst hB
    obtain ⟨_, rfl⟩ := pyDiv_ok.1 hq
    obtain ⟨hq0, rfl⟩ := pyLog_ok.1 hL
    obtain ⟨hn, rfl⟩ := pyDiv_ok.1 hs
    simp only at hl hn0 hd ⊢
    have hmax : mx = mn * Real.exp ((n : ℝ) * (Real.log (mx / mn) / n)) := by
      rw [mul_div_cancel₀ _ hn, Real.exp_log hq0]; field_simp
    refine ⟨⟨?_, ?_, ?_, ?_, ?_⟩, hg, hl, hn0, hd, hmax, edges hl hmax⟩
    · intro v hv; exact ((getMinSep_ok p2).1 v hv).symm
    · intro v hv; rw [p3] at hv; exact Option.some.inj hv
    · intro v hv; rw [p1] at hv; exact Option.some.inj hv
    · intro v hv0 hv; rw [p4] at hv; cases hv
    · intro v _ hv; rw [p4] at hv; cases hv
  | noMax mn n bs =>
    obtain ⟨p1, p2, p3, p4⟩ := hp
    simp only [logStage, linearStage, twoDStage, pure, Except.pure, Except.ok.injEq] at hB
    subst hB
    simp only at hl hn0 hd ⊢
    refine ⟨⟨?_, ?_, ?_, ?_, ?_⟩, hg, hl, hn0, hd, mul_comm _ _, edges hl (mul_comm _ _)⟩
    · intro v hv; exact ((getMinSep_ok p2).1 v hv).symm
    · intro v hv; rw [p3] at hv; cases hv
    · intro v hv; rw [p1] at hv; exact Option.some.inj hv
    · intro v hv0 hv; rw [p4] at hv; obtain rfl := Option.some.inj hv; exact ⟨hv0, le_rfl⟩
    · intro v _ hv; rw [p4] at hv; exact Option.some.inj hv
  | noMin mx n bs =>
    obtain ⟨p0, p1, p2, p3, p4⟩ := hp
    simp only [logStage, linearStage, twoDStage, pure, Except.pure, Except.ok.injEq] at hB
    subst hB
    simp only at hl hn0 hd ⊢
    have hmax : mx = mx * Real.exp (-n * bs) * Real.exp (n * bs) := by
      rw [mul_assoc, ← Real.exp_add]; simp
    refine ⟨⟨?_, ?_, ?_, ?_, ?_⟩, hg, hl, hn0, hd, hmax, edges hl hmax⟩
    · intro v hv; rw [p2] at hv; cases hv
    · intro v hv; rw [p3] at hv; exact Option.some.inj hv
    · intro v hv; rw [p1] at hv; exact Option.some.inj hv
    · intro v hv0 hv; rw [p4] at hv; obtain rfl := Option.some.inj hv; exact ⟨hv0, le_rfl⟩
    · intro v _ hv; rw [p4] at hv; exact Option.some.inj hv

/-- **C26, Linear bins.** -/
theorem linear_bins_consistent (c : BinConfig) (B : Bins) (h : makeBins .linear c = .ok B) :
    Keeps c B ∧ c.given = 3 ∧ 0 ≤ B.nbins ∧ B.binsize ≠ 0 ∧
    B.maxsep = B.minsep + B.nbins * B.binsize ∧
    (0 < B.nbins → linLeft B 0 = B.minsep ∧
      (∀ k : ℕ, linRight B k = linLeft B (k + 1) ∧ linLeft B k = linEdge B.minsep B.binsize k) ∧
      ∀ k : ℕ, (k : ℤ) + 1 = B.nbins → linRight B k = B.maxsep) := by
  have hg : c.given = 3 := by
    by_contra hne
    rw [wrong_number_rejected .linear (by decide) c hne] at h
    cases h
  have edges : B.maxsep = B.minsep + B.nbins * B.binsize →
      (0 < B.nbins → linLeft B 0 = B.minsep ∧
      (∀ k : ℕ, linRight B k = linLeft B (k + 1) ∧ linLeft B k = linEdge B.minsep B.binsize k) ∧
      ∀ k : ℕ, (k : ℤ) + 1 = B.nbins → linRight B k = B.maxsep) := by
    intro hx hn
    have hn' : (B.nbins : ℝ) ≠ 0 := by exact_mod_cast hn.ne'
    have hs : (B.maxsep - B.minsep) / B.nbins = B.binsize := by rw [hx]; field_simp; ring
    refine ⟨by simp [linLeft, linspace], ?_, ?_⟩
    · intro k
      simp only [linRight, linLeft, linspace, hs, linEdge]
      constructor
      · push_cast; ring
      · push_cast; ring
    · intro k hk
      simp only [linRight, linspace, hs]
      rw [hx, ← hk]; push_cast; ring
  unfold makeBins at h
  obtain ⟨r, hr, h⟩ := except_bind_ok.1 h
  have hp := parseBins_ok hr
  change (linearStage r >>= linearFinish) = _ at h
  obtain ⟨B', hB, h⟩ := except_bind_ok.1 h
  obtain ⟨hn0, hd, rfl⟩ : 0 ≤ B'.nbins ∧ B'.binsize ≠ 0 ∧ B' = B := by
    unfold linearFinish at h
    split at h
    · cases h
    rename_i hn
    obtain ⟨y, hy, h⟩ := except_bind_ok.1 h
    exact ⟨not_lt.1 hn, (pyDiv_ok.1 hy).1, by simpa [pure, Except.pure] using h⟩
  cases r with
  | noNbins mn mx bs =>
    obtain ⟨p1, p2, p3, p4, p5⟩ := hp
    obtain ⟨t, ht, hB⟩ := except_bind_ok.1 hB
    obtain ⟨s, hs, hB⟩ := except_bind_ok.1 hB
    simp only [pure, Except.pure, Except.ok.injEq] at hB
    subst hB
    obtain ⟨hbs, rfl⟩ := pyDiv_ok.1 ht
    obtain ⟨hn, rfl⟩ := pyDiv_ok.1 hs
    simp only at hn0 hd ⊢
    have hmax : mx = mn + (⌈(mx - mn) / bs⌉ : ℝ) * ((mx - mn) / ⌈(mx - mn) / bs⌉) := by
      rw [mul_div_cancel₀ _ hn]; ring
    refine ⟨⟨?_, ?_, ?_, ?_, ?_⟩, hg, hn0, hd, hmax, edges hmax⟩
    · intro v hv; exact ((getMinSep_ok p2).1 v hv).symm
    · intro v hv; rw [p3] at hv; exact Option.some.inj hv
    · intro v hv; rw [p1] at hv; cases hv
    · intro v hv0 hv
      rw [p4] at hv
      obtain rfl := Option.some.inj hv
      exact (ceil_size (by linarith) hv0).2
    · intro v hv; rw [p1] at hv; cases hv
  | noSize mn mx n =>
    obtain ⟨p1, p2, p3, p4, p5⟩ := hp
    obtain ⟨s, hs, hB⟩ := except_bind_ok.1 hB
    simp only [pure, Except.pure, Except.ok.injEq] at hB
    subst hB
    obtain ⟨hn, rfl⟩ := pyDiv_ok.1 hs
    simp only at hn0 hd ⊢
    have hmax : mx = mn + (n : ℝ) * ((mx - mn) / n) := by
      rw [mul_div_cancel₀ _ hn]; ring
    refine ⟨⟨?_, ?_, ?_, ?_, ?_⟩, hg, hn0, hd, hmax, edges hmax⟩
    · intro v hv; exact ((getMinSep_ok p2).1 v hv).symm
    · intro v hv; rw [p3] at hv; exact Option.some.inj hv
    · intro v hv; rw [p1] at hv; exact Option.some.inj hv
    · intro v hv0 hv; rw [p4] at hv; cases hv
    · intro v _ hv; rw [p4] at hv; cases hv
  | noMax mn n bs =>
    obtain ⟨p1, p2, p3, p4⟩ := hp
    simp only [logStage, linearStage, twoDStage, pure, Except.pure, Except.ok.injEq] at hB
    subst hB
    simp only at hn0 hd ⊢
    refine ⟨⟨?_, ?_, ?_, ?_, ?_⟩, hg, hn0, hd, trivial, edges rfl⟩
    · intro v hv; exact ((getMinSep_ok p2).1 v hv).symm
    · intro v hv; rw [p3] at hv; cases hv
    · intro v hv; rw [p1] at hv; exact Option.some.inj hv
    · intro v hv0 hv; rw [p4] at hv; obtain rfl := Option.some.inj hv; exact ⟨hv0, le_rfl⟩
    · intro v _ hv; rw [p4] at hv; exact Option.some.inj hv
  | noMin mx n bs =>
    obtain ⟨p0, p1, p2, p3, p4⟩ := hp
    simp only [logStage, linearStage, twoDStage, pure, Except.pure, Except.ok.injEq] at hB
    subst hB
    simp only at hn0 hd ⊢
    have hmax : mx = mx - n * bs + n * bs := by ring
    refine ⟨⟨?_, ?_, ?_, ?_, ?_⟩, hg, hn0, hd, hmax, edges hmax⟩
    · intro v hv; rw [p2] at hv; cases hv
    · intro v hv; rw [p3] at hv; exact Option.some.inj hv
    · intro v hv; rw [p1] at hv; exact Option.some.inj hv
    · intro v hv0 hv; rw [p4] at hv; obtain rfl := Option.some.inj hv; exact ⟨hv0, le_rfl⟩
    · intro v _ hv; rw [p4] at hv; exact Option.some.inj hv

/-- **C26, TwoD bins.** The pixels are `nbins` equal intervals covering `[-max_sep, max_sep]` in each direction,
and `min_sep` is 0 unless given. -/
theorem twoD_bins_consistent (c : BinConfig) (B : Bins) (h : makeBins .twoD c = .ok B) :
    Keeps c B ∧ c.given2d = 2 ∧ 0 ≤ B.nbins ∧ (c.minsep.get = none → B.minsep = 0) ∧
    2 * B.maxsep = B.nbins * B.binsize ∧
    (0 < B.nbins → twoDLeft B 0 = -B.maxsep ∧
      (∀ k : ℕ, twoDRight B k = twoDLeft B (k + 1) ∧ twoDLeft B k = linEdge (-B.maxsep) B.binsize k) ∧
      ∀ k : ℕ, (k : ℤ) + 1 = B.nbins → twoDRight B k = B.maxsep) := by
  have hg : c.given2d = 2 := by
    by_contra hne
    rw [wrong_number_rejected_twoD c hne] at h
    cases h
  have edges : 2 * B.maxsep = B.nbins * B.binsize →
      (0 < B.nbins → twoDLeft B 0 = -B.maxsep ∧
      (∀ k : ℕ, twoDRight B k = twoDLeft B (k + 1) ∧ twoDLeft B k = linEdge (-B.maxsep) B.binsize k) ∧
      ∀ k : ℕ, (k : ℤ) + 1 = B.nbins → twoDRight B k = B.maxsep) := by
    intro hx hn
    have hn' : (B.nbins : ℝ) ≠ 0 := by exact_mod_cast hn.ne'
    have hs : (B.maxsep - -B.maxsep) / B.nbins = B.binsize := by
      rw [show B.maxsep - -B.maxsep = 2 * B.maxsep by ring, hx]; field_simp
    refine ⟨by simp [twoDLeft, linspace], ?_, ?_⟩
    · intro k
      simp only [twoDRight, twoDLeft, linspace, hs, linEdge]
      constructor
      · push_cast; ring
      · push_cast; ring
    · intro k hk
      simp only [twoDRight, linspace, hs]
      rw [← hk] at hx
      push_cast at hx
      linarith
  unfold makeBins at h
  obtain ⟨r, hr, h⟩ := except_bind_ok.1 h
  have hp := parseBins_ok hr
  change (twoDStage r >>= twoDFinish) = _ at h
  obtain ⟨B', hB, h⟩ := except_bind_ok.1 h
  obtain ⟨hn0, rfl⟩ : 0 ≤ B'.nbins ∧ B' = B := by
    unfold twoDFinish at h
    split at h
    · cases h
    rename_i hn
    exact ⟨not_lt.1 hn, by simpa [pure, Except.pure] using h⟩
  cases r with
  | noNbins mn mx bs =>
    obtain ⟨p1, p2, p3, p4, p5⟩ := hp
    obtain ⟨t, ht, hB⟩ := except_bind_ok.1 hB
    obtain ⟨s, hs, hB⟩ := except_bind_ok.1 hB
    simp only [pure, Except.pure, Except.ok.injEq] at hB
    subst hB
    obtain ⟨hbs, rfl⟩ := pyDiv_ok.1 ht
    obtain ⟨hn, rfl⟩ := pyDiv_ok.1 hs
    simp only at hn0 ⊢
    have hmax : 2 * mx = (⌈2 * mx / bs⌉ : ℝ) * (2 * mx / ⌈2 * mx / bs⌉) := by
      rw [mul_div_cancel₀ _ hn]
    refine ⟨⟨?_, ?_, ?_, ?_, ?_⟩, hg, hn0, (getMinSep_ok p2).2.2, hmax, edges hmax⟩
    · intro v hv; exact ((getMinSep_ok p2).1 v hv).symm
    · intro v hv; rw [p3] at hv; exact Option.some.inj hv
    · intro v hv; rw [p1] at hv; cases hv
    · intro v hv0 hv
      rw [p4] at hv
      obtain rfl := Option.some.inj hv
      rcases lt_trichotomy mx 0 with h | h | h
      · exfalso
        have h1 : 2 * mx / bs < 0 := div_neg_of_neg_of_pos (by linarith) hv0
        have h2 : ⌈2 * mx / bs⌉ ≤ 0 := Int.ceil_le.2 (by simpa using h1.le)
        exact hn (by exact_mod_cast le_antisymm h2 hn0)
      · exfalso; apply hn; simp [h]
      · exact (ceil_size (by linarith) hv0).2
    · intro v hv; rw [p1] at hv; cases hv
  | noSize mn mx n =>
    obtain ⟨p1, p2, p3, p4, p5⟩ := hp
    obtain ⟨s, hs, hB⟩ := except_bind_ok.1 hB
    simp only [pure, Except.pure, Except.ok.injEq] at hB
    subst hB
    obtain ⟨hn, rfl⟩ := pyDiv_ok.1 hs
    simp only at hn0 ⊢
    have hmax : 2 * mx = (n : ℝ) * (2 * mx / n) := by
      rw [mul_div_cancel₀ _ hn]
    refine ⟨⟨?_, ?_, ?_, ?_, ?_⟩, hg, hn0, (getMinSep_ok p2).2.2, hmax, edges hmax⟩
    · intro v hv; exact ((getMinSep_ok p2).1 v hv).symm
    · intro v hv; rw [p3] at hv; exact Option.some.inj hv
    · intro v hv; rw [p1] at hv; exact Option.some.inj hv
    · intro v hv0 hv; rw [p4] at hv; cases hv
    · intro v _ hv; rw [p4] at hv; cases hv
  | noMax mn n bs =>
    obtain ⟨p1, p2, p3, p4⟩ := hp
    simp only [logStage, linearStage, twoDStage, pure, Except.pure, Except.ok.injEq] at hB
    subst hB
    simp only at hn0 ⊢
    have hmax : 2 * ((n : ℝ) * bs / 2) = n * bs := by ring
    refine ⟨⟨?_, ?_, ?_, ?_, ?_⟩, hg, hn0, (getMinSep_ok p2).2.2, hmax, edges hmax⟩
    · intro v hv; exact ((getMinSep_ok p2).1 v hv).symm
    · intro v hv; rw [p3] at hv; cases hv
    · intro v hv; rw [p1] at hv; exact Option.some.inj hv
    · intro v hv0 hv; rw [p4] at hv; obtain rfl := Option.some.inj hv; exact ⟨hv0, le_rfl⟩
    · intro v _ hv; rw [p4] at hv; exact Option.some.inj hv
  | noMin mx n bs => exact (hp.1 rfl).elim

/-- All given values are positive, and `min_sep < max_sep` if both are given. -/
structure BinConfig.Good (c : BinConfig) : Prop where
  minsep : ∀ v, c.minsep.get = some v → 0 < v
  maxsep : ∀ v, c.maxsep.get = some v → 0 < v
  nbins : ∀ v, c.nbins.get = some v → 0 < v
  binsize : ∀ v, c.binsize.get = some v → 0 < v
  lt : ∀ v w, c.minsep.get = some v → c.maxsep.get = some w → v < w

theorem getMinSep_val {bt : BinType} {c : BinConfig} {v : ℝ} (h : c.minsep.get = some v) :
    getMinSep bt c = .ok v := by
  unfold getMinSep
  rw [if_neg (by rw [h]; simp)]
  cases hm : c.minsep with
  | absent => rw [hm] at h; simp [Arg.get] at h
  | none => rw [hm] at h; simp [Arg.get] at h
  | val w => rw [hm] at h; simp only [Arg.get, Option.some.injEq] at h; simp [h]

/-- **C26, converse.** Any three positive parameters, with `min_sep < max_sep` if both are among them, are
accepted for Log and for Linear bins, and give at least one bin of positive width. -/
theorem good_three_accepted (bt : BinType) (hbt : bt ≠ .twoD) (c : BinConfig) (h : c.given = 3) (hc : c.Good) :
    ∃ B, makeBins bt c = .ok B ∧ 0 < B.nbins ∧ 0 < B.binsize := by
  obtain ⟨g1, g2, g3, g4, g5⟩ := hc
  have key : ∃ r, parseBins bt c = .ok r ∧
      match r with
      | .noNbins mn mx bs => 0 < mn ∧ mn < mx ∧ 0 < bs
      | .noSize mn mx n => 0 < mn ∧ mn < mx ∧ 0 < n
      | .noMax mn n bs => 0 < mn ∧ 0 < n ∧ 0 < bs
      | .noMin mx n bs => 0 < mx ∧ 0 < n ∧ 0 < bs := by
    unfold BinConfig.given at h
    cases h1 : c.minsep.get with
    | none =>
      cases h2 : c.maxsep.get with
      | none => simp [h1, h2] at h; split at h <;> split at h <;> omega
      | some mx =>
        cases h3 : c.nbins.get with
        | none => simp [h1, h2, h3] at h; split at h <;> omega
        | some n =>
          cases h4 : c.binsize.get with
          | none => simp [h1, h2, h3, h4] at h
          | some bs =>
            refine ⟨.noMin mx n bs, by simp [parseBins, h1, h2, h3, h4, hbt], g2 _ h2, g3 _ h3, g4 _ h4⟩
    | some mn =>
      cases h2 : c.maxsep.get with
      | none =>
        cases h3 : c.nbins.get with
        | none => simp [h1, h2, h3] at h; split at h <;> omega
        | some n =>
          cases h4 : c.binsize.get with
          | none => simp [h1, h2, h3, h4] at h
          | some bs =>
            refine ⟨.noMax mn n bs, ?_, g1 _ h1, g3 _ h3, g4 _ h4⟩
            simp [parseBins, h2, h3, h4, getMinSep_val h1, bind, Except.bind]
      | some mx =>
        have hlt := g5 _ _ h1 h2
        cases h3 : c.nbins.get with
        | none =>
          cases h4 : c.binsize.get with
          | none => simp [h1, h2, h3, h4] at h
          | some bs =>
            refine ⟨.noNbins mn mx bs, ?_, g1 _ h1, hlt, g4 _ h4⟩
            simp [parseBins, h1, h2, h3, h4, getMinSep_val h1, bind, Except.bind, hlt]
        | some n =>
          cases h4 : c.binsize.get with
          | some bs => simp [h1, h2, h3, h4] at h
          | none =>
            refine ⟨.noSize mn mx n, ?_, g1 _ h1, hlt, g3 _ h3⟩
            simp [parseBins, h2, h3, h4, getMinSep_val h1, bind, Except.bind, hlt]
  obtain ⟨r, hr, hgood⟩ := key
  have ok1 : ∀ B : Bins, 0 < B.minsep → 0 < B.nbins → 0 < B.binsize → ∀ r, logStage r = .ok B →
      logBins r = .ok B := by
    intro B b1 b2 b3 r he
    simp [logBins, he, logFinish, bind, Except.bind, pyLog, pyDiv, not_le.2 b1, b3.ne', not_lt.2 b2.le, pure,
      Except.pure]
  have ok2 : ∀ B : Bins, 0 < B.nbins → 0 < B.binsize → ∀ r, linearStage r = .ok B →
      linearBins r = .ok B := by
    intro B b2 b3 r he
    simp [linearBins, he, linearFinish, bind, Except.bind, pyDiv, b3.ne', not_lt.2 b2.le, pure, Except.pure]
  unfold makeBins
  rw [hr]
  cases bt with
  | twoD => exact (hbt rfl).elim
  | log =>
    change ∃ B, logBins r = .ok B ∧ _
    cases r with
    | noNbins mn mx bs =>
      obtain ⟨b1, b2, b3⟩ := hgood
      have hL : 0 < Real.log (mx / mn) := Real.log_pos (by rw [lt_div_iff₀ b1]; linarith)
      obtain ⟨c1, c2, c3⟩ := ceil_size hL b3
      refine ⟨⟨mn, mx, ⌈Real.log (mx / mn) / bs⌉, Real.log (mx / mn) / ⌈Real.log (mx / mn) / bs⌉⟩, ?_, c1, c2⟩
      apply ok1 ⟨mn, mx, _, _⟩ b1 c1 c2
      have hq : ¬ mx / mn ≤ 0 := not_le.2 (div_pos (b1.trans b2) b1)
      have c1' : (⌈Real.log (mx / mn) / bs⌉ : ℝ) ≠ 0 := by exact_mod_cast c1.ne'
      simp only [logStage, pyDiv, pyLog, if_neg b1.ne', if_neg hq, if_neg b3.ne', if_neg c1', bind, Except.bind, pure, Except.pure]
      rfl
    | noSize mn mx n =>
      obtain ⟨b1, b2, b3⟩ := hgood
      have hL : 0 < Real.log (mx / mn) := Real.log_pos (by rw [lt_div_iff₀ b1]; linarith)
      have b3' : (0 : ℝ) < n := by exact_mod_cast b3
      refine ⟨⟨mn, mx, n, Real.log (mx / mn) / n⟩, ?_, b3, div_pos hL b3'⟩
      apply ok1 ⟨mn, mx, n, Real.log (mx / mn) / n⟩ b1 b3 (div_pos hL b3')
      have hq : ¬ mx / mn ≤ 0 := not_le.2 (div_pos (b1.trans b2) b1)
      simp only [logStage, pyDiv, pyLog, if_neg b1.ne', if_neg hq, if_neg b3'.ne', bind, Except.bind, pure, Except.pure]
    | noMax mn n bs =>
      obtain ⟨b1, b2, b3⟩ := hgood
      exact ⟨⟨mn, Real.exp (n * bs) * mn, n, bs⟩, ok1 ⟨_, _, _, _⟩ b1 b2 b3 _ rfl, b2, b3⟩
    | noMin mx n bs =>
      obtain ⟨b1, b2, b3⟩ := hgood
      exact ⟨⟨mx * Real.exp (-n * bs), mx, n, bs⟩, ok1 ⟨_, _, _, _⟩ (mul_pos b1 (Real.exp_pos _)) b2 b3 _ rfl, b2, b3⟩
  | linear =>
    change ∃ B, linearBins r = .ok B ∧ _
    cases r with
    | noNbins mn mx bs =>
      obtain ⟨b1, b2, b3⟩ := hgood
      obtain ⟨c1, c2, c3⟩ := ceil_size (by linarith : 0 < mx - mn) b3
      refine ⟨⟨mn, mx, ⌈(mx - mn) / bs⌉, (mx - mn) / ⌈(mx - mn) / bs⌉⟩, ?_, c1, c2⟩
      apply ok2 ⟨mn, mx, _, _⟩ c1 c2
      have c1' : (⌈(mx - mn) / bs⌉ : ℝ) ≠ 0 := by exact_mod_cast c1.ne'
      simp only [linearStage, pyDiv, if_neg b3.ne', if_neg c1', bind, Except.bind, pure, Except.pure]
      rfl
    | noSize mn mx n =>
      obtain ⟨b1, b2, b3⟩ := hgood
      have b3' : (0 : ℝ) < n := by exact_mod_cast b3
      have hs : 0 < (mx - mn) / n := div_pos (by linarith) b3'
      refine ⟨⟨mn, mx, n, (mx - mn) / n⟩, ?_, b3, hs⟩
      apply ok2 ⟨mn, mx, n, (mx - mn) / n⟩ b3 hs
      simp only [linearStage, pyDiv, if_neg b3'.ne', bind, Except.bind, pure, Except.pure]
    | noMax mn n bs =>
      obtain ⟨b1, b2, b3⟩ := hgood
      exact ⟨⟨mn, mn + n * bs, n, bs⟩, ok2 ⟨_, _, _, _⟩ b2 b3 _ rfl, b2, b3⟩
    | noMin mx n bs =>
      obtain ⟨b1, b2, b3⟩ := hgood
      exact ⟨⟨mx - n * bs, mx, n, bs⟩, ok2 ⟨_, _, _, _⟩ b2 b3 _ rfl, b2, b3⟩

/-- **C26 is not enforced for the sign of `bin_size`**: `min_sep = 1, nbins = 2, bin_size = -1` is accepted, and
gives `max_sep < min_sep`. -/
theorem negative_bin_size_accepted :
    makeBins .log { minsep := .val 1, nbins := .val 2, binsize := .val (-1) }
      = .ok ⟨1, Real.exp (2 * (-1)) * 1, 2, -1⟩ ∧ Real.exp (2 * (-1)) * 1 < 1 := by
  constructor
  · simp [makeBins, parseBins, Arg.get, getMinSep, logBins, logStage, logFinish, bind, Except.bind, pure, Except.pure, pyLog, pyDiv]
    rw [if_neg (by norm_num)]
  · have : Real.exp (2 * (-1)) < 1 := by rw [Real.exp_lt_one_iff]; norm_num
    linarith

/-- `max_sep = 1, nbins = 3, bin_size = 1` with Linear bins is accepted, and gives `min_sep = -2`: the first two
bins can hold no pair. -/
theorem negative_min_sep_accepted :
    makeBins .linear { maxsep := .val 1, nbins := .val 3, binsize := .val 1 } = .ok ⟨-2, 1, 3, 1⟩ := by
  simp [makeBins, parseBins, Arg.get, linearBins, linearStage, linearFinish, bind, Except.bind, pure, Except.pure, pyDiv]
  norm_num

/-- For TwoD bins `min_sep` is optional, but giving `min_sep = None` explicitly is a `TypeError`. -/
theorem twoD_none_min_sep_rejected (m : ℝ) (hm : 0 < m) (n : ℤ) (hn : 0 < n) :
    (∃ B, makeBins .twoD { maxsep := .val m, nbins := .val n } = .ok B) ∧
    makeBins .twoD { minsep := .none, maxsep := .val m, nbins := .val n } = .error .typeError := by
  have hn' : (n : ℝ) ≠ 0 := by exact_mod_cast hn.ne'
  constructor
  · refine ⟨⟨0, m, n, 2 * m / n⟩, ?_⟩
    simp [makeBins, parseBins, Arg.get, getMinSep, twoDBins, twoDStage, twoDFinish, bind, Except.bind, pure, Except.pure, pyDiv, hn.ne',
      not_lt.2 hn.le, not_le.2 hm]
  · simp [makeBins, parseBins, Arg.get, getMinSep, bind, Except.bind]

/-- The slop that is used by default keeps `b = bin_size * bin_slop` within 0.1 and within the bin width. -/
theorem default_slop_log (c : BinConfig) (B : Bins) (hB : 0 < B.binsize) (hs : c.binSlop.get = none) (a : ℝ) :
    0 < (cppParams .log c a B).b ∧ (cppParams .log c a B).b ≤ 0.1 ∧ (cppParams .log c a B).b ≤ B.binsize := by
  have e : (cppParams .log c a B).b = B.binsize * min (0.1 / B.binsize) 1 := by
    simp [cppParams, binSlop, hs, maxGoodSlop]
  rw [e]
  have h1 : 0 < min (0.1 / B.binsize) 1 := lt_min (by positivity) one_pos
  have h2 := mul_le_mul_of_nonneg_left (min_le_left (0.1 / B.binsize) 1) hB.le
  have h3 := mul_le_mul_of_nonneg_left (min_le_right (0.1 / B.binsize) 1) hB.le
  rw [mul_div_cancel₀ _ hB.ne'] at h2
  rw [mul_one] at h3
  exact ⟨mul_pos hB h1, h2, h3⟩

/-- The C++ layer gets well-formed Log parameters whenever the constructor accepts the configuration with bins
of positive width, the unit is positive, and the cells are kept small enough: `angle_slop ≤ 1/2`, or
default slop and bins of at most 0.9 e-foldings. -/
theorem log_params_ok (c : BinConfig) (B : Bins) (h : makeBins .log c = .ok B) (hB : 0 < B.binsize)
    (hu : 0 < c.sepUnits) (a0 : ℝ) (ha0 : 0 ≤ (cppParams .log c a0 B).a) (hs : 0 ≤ binSlop .log c B)
    (hh : (cppParams .log c a0 B).a ≤ 1 / 2 ∨ (c.binSlop.get = none ∧ B.binsize ≤ 0.9)) :
    LogParams (cppParams .log c a0 B) := by
  obtain ⟨_, _, hm, hn, _, hx, _⟩ := log_bins_consistent c B h
  refine ⟨?_, ?_, ?_, ?_, ?_, ha0, ?_⟩
  · exact mul_pos hm hu
  · simpa [cppParams] using hB
  · simpa [cppParams] using hn
  · simp only [cppParams, hx]
    simp
    ring
  · exact mul_nonneg hB.le hs
  · rcases hh with h | ⟨h1, h2⟩
    · exact Or.inl h
    · have := default_slop_log c B hB h1 a0
      right
      have e : (cppParams .log c a0 B).binsize = B.binsize := by simp [cppParams]
      rw [e]
      constructor
      · linarith [this.2.1, (by norm_num : (0.1:ℝ) ≤ 1/2)]
      · have e2 : (0.9:ℝ) + 0.1 = 1 := by norm_num
        linarith [this.2.1]

/-! ### The hypotheses can be met -/

/-- `min_sep=1, max_sep=100, bin_size=0.5` in radians, defaults for the rest, NN. -/
example : ∃ B, makeBins .log { minsep := .val 1, maxsep := .val 100, binsize := .val 0.5 } = .ok B ∧
    B.minsep = 1 ∧ B.maxsep = 100 ∧ B.binsize ≤ 0.5 ∧ logRight B (B.nbins.toNat - 1) = 100 ∧
    LogParams (cppParams .log { minsep := .val 1, maxsep := .val 100, binsize := .val 0.5 } 1 B) := by
  obtain ⟨B, hB, hn, hs⟩ := good_three_accepted .log (by decide)
    { minsep := .val 1, maxsep := .val 100, binsize := .val 0.5 } (by simp [BinConfig.given, Arg.get])
    ⟨by simp [Arg.get], by simp [Arg.get], by simp [Arg.get], by simp [Arg.get]; norm_num, by
      simp [Arg.get]⟩
  obtain ⟨hk, _, _, _, _, hx, he⟩ := log_bins_consistent _ _ hB
  have h5 := (hk.binsize 0.5 (by norm_num) rfl).2
  refine ⟨B, hB, hk.minsep 1 rfl, hk.maxsep 100 rfl, h5, ?_, ?_⟩
  · rw [(he hn).2.2 _ (by omega)]
    exact hk.maxsep 100 rfl
  · apply log_params_ok _ B hB hs (by norm_num)
    · norm_num [cppParams, Arg.get]
    · simp only [binSlop, Arg.get]
      norm_num [maxGoodSlop]
      positivity
    · right
      exact ⟨rfl, h5.trans (by norm_num)⟩

/-- Linear and TwoD. -/
example : (∃ B, makeBins .linear { minsep := .val 10, maxsep := .val 20, binsize := .val 3 } = .ok B ∧
      B.nbins = 4 ∧ B.binsize = 2.5) ∧
    (∃ B, makeBins .twoD { maxsep := .val 20, binsize := .val 3 } = .ok B ∧ B.nbins = 14) := by
  have c1 : ⌈((20:ℝ) - 10) / 3⌉ = 4 := by rw [Int.ceil_eq_iff]; norm_num
  have c2 : ⌈(2:ℝ) * 20 / 3⌉ = 14 := by rw [Int.ceil_eq_iff]; norm_num
  constructor
  · refine ⟨⟨10, 20, 4, 2.5⟩, ?_, rfl, rfl⟩
    simp only [makeBins, parseBins, Arg.get, getMinSep, linearBins, linearStage, linearFinish, bind, Except.bind, pure, Except.pure, pyDiv,
      reduceCtorEq, false_and, if_false]
    norm_num [c1]
  · refine ⟨⟨0, 20, 14, 2 * 20 / 14⟩, ?_, rfl⟩
    simp only [makeBins, parseBins, Arg.get, getMinSep, twoDBins, twoDStage, twoDFinish, bind, Except.bind, pure, Except.pure, pyDiv]
    norm_num [c2]

end
end TreeCorr
