import Verif.Spec.Adding3
import Verif.Props.Binning3

namespace TreeCorr
namespace Adding

theorem logStage_max {r : RawBins} {B : Bins} (h : logStage r = .ok B) (hm : 0 < B.minsep) (hn : 0 < B.nbins) :
    B.maxsep = B.minsep * Real.exp (B.nbins * B.binsize) := by
  have hn' : (B.nbins : ℝ) ≠ 0 := by exact_mod_cast hn.ne'
  cases r with
  | noNbins mn mx bs =>
    simp only [logStage] at h
    obtain ⟨q, hq, h⟩ := except_bind_ok.1 h
    obtain ⟨l, hl, h⟩ := except_bind_ok.1 h
    obtain ⟨t, -, h⟩ := except_bind_ok.1 h
    obtain ⟨s, hs, h⟩ := except_bind_ok.1 h
    cases h
    obtain ⟨h0, rfl⟩ := pyDiv_ok.1 hq
    obtain ⟨h1, rfl⟩ := pyLog_ok.1 hl
    obtain ⟨h2, rfl⟩ := pyDiv_ok.1 hs
    simp only at hn' ⊢
    rw [mul_div_cancel₀ _ h2, Real.exp_log h1, mul_div_cancel₀ _ h0]
  | noSize mn mx n =>
    simp only [logStage] at h
    obtain ⟨q, hq, h⟩ := except_bind_ok.1 h
    obtain ⟨l, hl, h⟩ := except_bind_ok.1 h
    obtain ⟨s, hs, h⟩ := except_bind_ok.1 h
    cases h
    obtain ⟨h0, rfl⟩ := pyDiv_ok.1 hq
    obtain ⟨h1, rfl⟩ := pyLog_ok.1 hl
    obtain ⟨h2, rfl⟩ := pyDiv_ok.1 hs
    simp only at hn' ⊢
    rw [mul_div_cancel₀ _ h2, Real.exp_log h1, mul_div_cancel₀ _ h0]
  | noMax mn n bs =>
    cases h
    simp only
    ring
  | noMin mx n bs =>
    cases h
    simp only
    rw [mul_assoc, ← Real.exp_add]
    simp

theorem sepBins_max {c : BinConfig} {B : Bins} {bs : ℝ} (h : sepBins c = .ok (B, bs)) (hn : 0 < B.nbins) :
    0 < B.minsep ∧ B.maxsep = B.minsep * Real.exp (B.nbins * B.binsize) := by
  unfold sepBins at h
  obtain ⟨r, hr, h⟩ := except_bind_ok.1 h
  obtain ⟨B', hB, h⟩ := except_bind_ok.1 h
  split at h
  · cases h
  obtain ⟨l, hl, h⟩ := except_bind_ok.1 h
  have e : B' = B := by
    split at h <;> cases h <;> rfl
  subst e
  have hm := (pyLog_ok.1 hl).1
  exact ⟨hm, logStage_max hB hm hn⟩

theorem sameSep {c d : BinConfig} {s s' : Bins} {x y ua ub : ℝ} (hc : sepBins c = .ok (s, x)) (hd : sepBins d = .ok (s', y))
    (hu : ua = ub) (h : eqSep s s') : SameSep s s' ua ub := by
  obtain ⟨h1, h2, h3⟩ := h
  refine ⟨h3, fun k _ h0 => ?_⟩
  obtain ⟨p1, e1⟩ := sepBins_max hc h0
  obtain ⟨p2, e2⟩ := sepBins_max hd (h3 ▸ h0)
  have hn : (s'.nbins : ℝ) ≠ 0 := by rw [← h3]; exact_mod_cast h0.ne'
  rw [h2, h1, h3, e2] at e1
  have e3 := mul_left_cancel₀ hn (Real.exp_injective (mul_left_cancel₀ p2.ne' e1))
  simp only [sepEdge, h1, e3, hu]

/-- The size follows from the limits and the number. -/
def Even3 (L : LinBins) : Prop := L.size = (L.hi - L.lo) / L.n

theorem linFinish_even {lo hi : ℝ} {n : ℤ} {L : LinBins} (h : linFinish lo hi n = .ok L) : Even3 L := by
  obtain ⟨-, -, rfl⟩ := linFinish_ok.1 h
  rfl

theorem uBins_even {c : LinConfig} {bs : ℝ} {L : LinBins} (h : uBins c bs = .ok L) : Even3 L := by
  unfold uBins at h
  obtain ⟨lo, -, h⟩ := except_bind_ok.1 h
  obtain ⟨hi, -, h⟩ := except_bind_ok.1 h
  split at h
  · cases h
  split at h
  · cases h
  obtain ⟨s, -, h⟩ := except_bind_ok.1 h
  split at h
  · obtain ⟨t, -, h⟩ := except_bind_ok.1 h
    exact linFinish_even h
  · cases h
  · split at h
    · cases h
    · split at h <;> exact linFinish_even h

theorem vBins_even {c : LinConfig} {bs : ℝ} {L : LinBins} (h : vBins c bs = .ok L) : Even3 L := by
  unfold vBins at h
  obtain ⟨lo, -, h⟩ := except_bind_ok.1 h
  obtain ⟨hi, -, h⟩ := except_bind_ok.1 h
  split at h
  · cases h
  split at h
  · cases h
  obtain ⟨s, -, h⟩ := except_bind_ok.1 h
  split at h
  · obtain ⟨t, -, h⟩ := except_bind_ok.1 h
    exact linFinish_even h
  · cases h
  · split at h
    · cases h
    · split at h
      · split at h <;> exact linFinish_even h
      · exact linFinish_even h

theorem phiBins_even {c : LinConfig} {u bs : ℝ} {L : LinBins} (h : phiBins c u bs = .ok L) : Even3 L := by
  unfold phiBins at h
  obtain ⟨lo, -, h⟩ := except_bind_ok.1 h
  obtain ⟨hi, -, h⟩ := except_bind_ok.1 h
  simp only at h
  split at h
  · cases h
  split at h
  · cases h
  obtain ⟨s, -, h⟩ := except_bind_ok.1 h
  split at h
  · obtain ⟨t, -, h⟩ := except_bind_ok.1 h
    exact linFinish_even h
  · cases h
  · split at h
    · cases h
    · split at h
      · split at h <;> exact linFinish_even h
      · exact linFinish_even h

theorem sameLin {a b : LinBins} (ha : Even3 a) (hb : Even3 b) (h : eqLin a b) : SameLin a b := by
  obtain ⟨h1, h2, h3⟩ := h
  refine ⟨h3, fun k => ?_⟩
  unfold Even3 at ha hb
  rw [linEdge3, linEdge3, ha, hb, h1, h2, h3]

theorem makeMultipole_sep {c : BinConfig3} {s : Bins} {n : ℤ} (h : makeMultipole c = .ok (s, n)) :
    ∃ bs, sepBins c.sep = .ok (s, bs) := by
  unfold makeMultipole at h
  obtain ⟨⟨B, bs⟩, hB, h⟩ := except_bind_ok.1 h
  simp only at h
  split at h
  · cases h
  split at h
  · cases h
  · split at h
    · cases h
    · cases h
      exact ⟨bs, hB⟩

theorem sameBins3 {a b : Obj3} (ha : Made3 a) (hb : Made3 b) (hu : a.units = b.units) (h : equalBinning a.bins b.bins) :
    SameBins3 a b := by
  unfold Made3 at ha hb
  unfold SameBins3
  cases hA : a.bins <;> cases hB : b.bins <;> simp only [hA, hB, equalBinning] at h ha hb ⊢
  · obtain ⟨c, bs, p1, p2, p3⟩ := ha
    obtain ⟨d, bs', q1, q2, q3⟩ := hb
    exact ⟨sameSep p1 q1 hu h.1, sameLin (uBins_even p2) (uBins_even q2) h.2.1, sameLin (vBins_even p3) (vBins_even q3) h.2.2⟩
  · obtain ⟨c, bs, p1, p2⟩ := ha
    obtain ⟨d, bs', q1, q2⟩ := hb
    exact ⟨sameSep p1 q1 hu h.1, sameLin (phiBins_even p2) (phiBins_even q2) h.2⟩
  · obtain ⟨c, p⟩ := ha
    obtain ⟨d, q⟩ := hb
    obtain ⟨x, p⟩ := makeMultipole_sep p
    obtain ⟨y, q⟩ := makeMultipole_sep q
    exact ⟨sameSep p q hu h.1, h.2⟩

theorem iadd3_ok {a b c : Obj3} (h : iadd3 a b = .ok c) :
    b.cls = a.cls ∧ equalBinning a.bins b.bins ∧
      ∃ u, takeMetric3 a b = .ok u ∧ c.used = some u ∧ c.bins = a.bins ∧ c.units = a.units ∧
        c.tot = (if a.cls = "NNNCorrelation" then a.tot + b.tot else a.tot) ∧
        ((¬ nonzero3 b ∧ c.ntri = a.ntri ∧ c.weight = a.weight) ∨
          ((∀ k, c.ntri k = a.ntri k + b.ntri k) ∧ ∀ k, c.weight k = a.weight k + b.weight k)) := by
  unfold iadd3 at h
  by_cases h0 : b.cls = a.cls
  · rw [if_neg (not_not.2 h0)] at h
    by_cases h1 : equalBinning a.bins b.bins
    · rw [if_neg (not_not.2 h1)] at h
      refine ⟨h0, h1, ?_⟩
      cases hu : takeMetric3 a b with
      | error e => simp only [hu] at h; cases h
      | ok u =>
        simp only [hu] at h
        refine ⟨u, rfl, ?_⟩
        by_cases h2 : nonzero3 b
        · rw [if_neg (not_not.2 h2)] at h
          cases h
          exact ⟨rfl, rfl, rfl, rfl, Or.inr ⟨fun k => rfl, fun k => rfl⟩⟩
        · rw [if_pos h2] at h
          cases h
          exact ⟨rfl, rfl, rfl, rfl, Or.inl ⟨h2, rfl, rfl⟩⟩
    · rw [if_pos h1] at h; cases h
  · rw [if_pos h0] at h; cases h

theorem total3_eq {a b : Bins3} (h : equalBinning a b) : total3 a = total3 b := by
  cases a <;> cases b <;> simp only [equalBinning, eqSep, eqLin] at h <;> simp only [total3]
  · rw [h.1.2.2, h.2.1.2.2, h.2.2.2.2]
  · rw [h.1.2.2, h.2.2.2]
  · rw [h.1.2.2, h.2]

end Adding
end TreeCorr
