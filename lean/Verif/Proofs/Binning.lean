import Verif.Model.Binning
import Mathlib.Tactic.Linarith
import Mathlib.Tactic.FieldSimp
import Mathlib.Tactic.Ring
import Mathlib.Tactic.Positivity

/-! Inversion of the constructor's arithmetic. -/

namespace TreeCorr
open Classical
noncomputable section

theorem except_bind_ok {ε α β : Type} {e : Except ε α} {f : α → Except ε β} {b : β} :
    (e >>= f) = .ok b ↔ ∃ a, e = .ok a ∧ f a = .ok b := by
  cases e with
  | error x => simp [bind, Except.bind]
  | ok a => simp [bind, Except.bind]

theorem pyDiv_ok {a b x : ℝ} : pyDiv a b = .ok x ↔ b ≠ 0 ∧ a / b = x := by
  unfold pyDiv; split <;> simp [*]

theorem pyLog_ok {a x : ℝ} : pyLog a = .ok x ↔ 0 < a ∧ Real.log a = x := by
  unfold pyLog; split
  · rename_i h
    simp only [reduceCtorEq, false_iff, not_and]
    intro h'; linarith
  · rename_i h
    simp [not_le.1 h]

theorem getMinSep_ok {bt : BinType} {c : BinConfig} {m : ℝ} (h : getMinSep bt c = .ok m) :
    (∀ v, c.minsep.get = some v → v = m) ∧ (bt ≠ .twoD → c.minsep.get = some m) ∧
    (c.minsep.get = none → m = 0) := by
  unfold getMinSep at h
  split at h
  · cases h
  · rename_i h0
    cases hm : c.minsep with
    | absent =>
      rw [hm] at h h0
      simp only [Except.ok.injEq] at h
      simp only [Arg.get, true_and, not_not] at h0
      simp [Arg.get, h0, h]
    | none => rw [hm] at h; cases h
    | val v =>
      rw [hm] at h
      simp only [Except.ok.injEq] at h
      simp [Arg.get, h]

/-- What the first stage hands on. -/
theorem parseBins_ok {bt : BinType} {c : BinConfig} {r : RawBins} (h : parseBins bt c = .ok r) :
    match r with
    | .noNbins mn mx bs => c.nbins.get = none ∧ getMinSep bt c = .ok mn ∧ c.maxsep.get = some mx ∧
        c.binsize.get = some bs ∧ mn < mx
    | .noSize mn mx n => c.nbins.get = some n ∧ getMinSep bt c = .ok mn ∧ c.maxsep.get = some mx ∧
        c.binsize.get = none ∧ mn < mx
    | .noMax mn n bs => c.nbins.get = some n ∧ getMinSep bt c = .ok mn ∧ c.maxsep.get = none ∧
        c.binsize.get = some bs
    | .noMin mx n bs => bt ≠ .twoD ∧ c.nbins.get = some n ∧ c.minsep.get = none ∧ c.maxsep.get = some mx ∧
        c.binsize.get = some bs := by
  unfold parseBins at h
  split at h
  · rename_i hn hbs hmx
    split at h
    · cases h
    · split at h
      · cases h
      · split at h
        · cases h
        · obtain ⟨m, hm, h⟩ := except_bind_ok.1 h
          split at h
          · cases h
          · rename_i hlt
            simp only [Except.ok.injEq] at h
            subst h
            exact ⟨by assumption, hm, by assumption, by assumption, not_le.1 hlt⟩
  · split at h
    · cases h
    · obtain ⟨m, hm, h⟩ := except_bind_ok.1 h
      split at h
      · cases h
      · rename_i hlt
        simp only [Except.ok.injEq] at h
        subst h
        exact ⟨by assumption, hm, by assumption, by assumption, not_le.1 hlt⟩
  · obtain ⟨m, hm, h⟩ := except_bind_ok.1 h
    simp only [Except.ok.injEq] at h
    subst h
    exact ⟨by assumption, hm, by assumption, by assumption⟩
  · split at h
    · cases h
    · split at h
      · cases h
      · rename_i h1 h2
        simp only [Except.ok.injEq] at h
        subst h
        exact ⟨h1, by assumption, not_not.1 h2, by assumption, by assumption⟩

end
end TreeCorr
