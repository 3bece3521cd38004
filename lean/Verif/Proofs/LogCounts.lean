import Verif.Proofs.Exact

/-! Log binning at zero slop is decided exactly. -/

namespace TreeCorr
open Classical
variable {P : Type}

theorem log_exactDecide [PseudoMetricSpace P] {p : Params} (hp : LogParams p) (hb : p.b = 0) (R : Bool)
    (l1 l2 : List (Obj P)) :
    ExactDecide (decide11 (logBin P) (plainMetric P) p R) (CellOf l1) (CellOf l2)
      (fun k q => InLogBin p.minsep p.binsize p.nbins k (dist q.1.pos q.2.pos)) ZeroPair where
  honest := decide11_honest _ _ _ _
  safe := (log_safeSplit p 0 0 R).mono (fun _ h => h.1.1.1) (fun _ h => h.1.1.1)
  dir := fun _ _ _ ha hb' h _ h1 h2 k => log_direct_iff hp hb ha.1.1.1 hb'.1.1.1 h h1 h2 k
  drop := by
    intro a b ha hb' h q h1 h2 k hin
    by_cases hwa : a.w = 0
    · exact Or.inl (ha.1.zero hwa h1)
    by_cases hwb : b.w = 0
    · exact Or.inr (hb'.1.zero hwb h2)
    exact absurd hin (log_drop_not hp hb ha.1.1.1 hb'.1.1.1 hwa hwb h h1 h2 k)

/-- If the fields are judged too far apart or too close, no pair is in range. -/
theorem sep_far [PseudoMetricSpace P] {p : Params} {f1 f2 : Field P}
    (h : fieldsTooFar (logBin P) (plainMetric P) p f1 f2) {x y : P}
    (hx : dist x f1.center ≤ f1.size) (hy : dist y f2.center ≤ f2.size) :
    dist x y < p.minsep ∨ p.maxsep ≤ dist x y := by
  have hd := abs_le.1 (dist_near hx hy)
  have hr0 : 0 ≤ dist f1.center f2.center := dist_nonneg
  have hs1 : 0 ≤ f1.size := dist_nonneg.trans hx
  have hs2 : 0 ≤ f2.size := dist_nonneg.trans hy
  simp only [fieldsTooFar, plainMetric, logBin, false_or, and_true] at h
  rcases h with ⟨_, h2, h3⟩ | ⟨_, h3⟩
  · have : dist f1.center f2.center < p.minsep - (f1.size + f2.size) :=
      lt_of_pow_lt_pow_left₀ 2 (by linarith) h3
    left; linarith
  · have : p.maxsep + (f1.size + f2.size) ≤ dist f1.center f2.center := le_of_sq_le_sq h3 hr0
    right; linarith

theorem InLogBin.range {p : Params} (hp : LogParams p) {k : ℤ} {d : ℝ}
    (h : InLogBin p.minsep p.binsize p.nbins k d) : p.minsep ≤ d ∧ d < p.maxsep := by
  obtain ⟨k1, k2, k3, k4⟩ := h
  have e0 : logEdge p.minsep p.binsize 0 = p.minsep := by simp [logEdge]
  have e1 : logEdge p.minsep p.binsize p.nbins = p.maxsep := by rw [hp.maxsep]; rfl
  have m1 := logEdge_mono hp.minsep hp.binsize k1
  have m2 := logEdge_mono hp.minsep hp.binsize (show k + 1 ≤ p.nbins by omega)
  constructor <;> linarith

theorem log_binExact [PseudoMetricSpace P] {p : Params} (hp : LogParams p) (hb : p.b = 0)
    (l1 l2 : List (Obj P)) : BinExact (logBin P) p (InLogBin p.minsep p.binsize p.nbins) l1 l2 where
  dec := log_exactDecide hp hb false l1 l2
  far := by
    intro f1 f2 h x y hx hy k hin
    have := InLogBin.range hp hin
    rcases sep_far h hx hy with h | h <;> linarith
  min := fun k d h => (InLogBin.range hp h).1
  minsep := hp.minsep.le

end TreeCorr
