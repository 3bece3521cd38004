import Verif.Model.Multipole
import Verif.Proofs.LogExact
import Verif.Proofs.LogCounts

/-! The decisions of the multipole traversal about a pair of cells. -/

namespace TreeCorr
open Classical
variable {P : Type}

theorem truncInt_log {p : Params} (hp : LogParams p) {r : ℝ} (h1 : p.minsep ≤ r) (h2 : r < p.maxsep) :
    0 ≤ truncInt ((Real.log r - Real.log p.minsep) / p.binsize) ∧
      truncInt ((Real.log r - Real.log p.minsep) / p.binsize) < p.nbins ∧
      InLogBin p.minsep p.binsize p.nbins (truncInt ((Real.log r - Real.log p.minsep) / p.binsize)) r := by
  have hm := hp.minsep
  have hb := hp.binsize
  have hr : 0 < r := lt_of_lt_of_le hm h1
  have hl := Real.log_le_log hm h1
  have h0 : 0 ≤ (Real.log r - Real.log p.minsep) / p.binsize := div_nonneg (by linarith) hb.le
  have hl2 := Real.log_lt_log hr h2
  rw [hp.log_maxsep] at hl2
  rw [truncInt_nonneg h0]
  have f0 : 0 ≤ ⌊(Real.log r - Real.log p.minsep) / p.binsize⌋ := Int.floor_nonneg.2 h0
  have f1 : ⌊(Real.log r - Real.log p.minsep) / p.binsize⌋ < p.nbins := by
    rw [Int.floor_lt, div_lt_iff₀ hb]; linarith
  refine ⟨f0, f1, ?_⟩
  rw [inLogBin_iff hp hr]
  have g1 := Int.floor_le ((Real.log r - Real.log p.minsep) / p.binsize)
  have g2 := Int.lt_floor_add_one ((Real.log r - Real.log p.minsep) / p.binsize)
  rw [le_div_iff₀ hb] at g1
  rw [div_lt_iff₀ hb] at g2
  exact ⟨f0, f1, by linarith, by linarith⟩

theorem inLogBin_unique {p : Params} (hp : LogParams p) {j k : ℤ} {d : ℝ} (h1 : InLogBin p.minsep p.binsize p.nbins j d)
    (h2 : InLogBin p.minsep p.binsize p.nbins k d) : j = k := by
  have hd := h1.pos hp.minsep
  rw [inLogBin_iff hp hd] at h1 h2
  exact logBin_unique hp.binsize h1.2.2.1 h1.2.2.2 h2.2.2.1 h2.2.2.2

/-- The same cell with weight one. -/
def Cell.wake : Cell P → Cell P
  | .leaf d os => .leaf { d with w := 1 } os
  | .node d s l r => .node { d with w := 1 } s l r

theorem wake_pos (c : Cell P) : c.wake.pos = c.pos := by cases c <;> rfl
theorem wake_size (c : Cell P) : c.wake.size = c.size := by cases c <;> rfl
theorem wake_objs (c : Cell P) : c.wake.objs = c.objs := by cases c <;> rfl
theorem wake_w (c : Cell P) : c.wake.w = 1 := by cases c <;> rfl
theorem wake_bounded [PseudoMetricSpace P] {δ : ℝ} {c : Cell P} (h : c.Bounded δ) : c.wake.Bounded δ := by
  cases c <;> exact h

theorem sqrt_dist_sq [PseudoMetricSpace P] (x y : P) : Real.sqrt (dist x y ^ 2) = dist x y := Real.sqrt_sq dist_nonneg

/-- The out-parameters of `singleBin`. -/
theorem logSingleBin_out {p : Params} {r s : ℝ} (hr : 0 ≤ r) {o : BinOut} (h : logSingleBin (r ^ 2) s p = some o) :
    (o.k = -1) ∨ (o.k = truncInt ((Real.log r - Real.log p.minsep) / p.binsize) ∧ o.r = r ∧ o.logr = Real.log r) := by
  have hl : 0.5 * Real.log (r ^ 2) = Real.log r := by rw [Real.log_pow]; norm_num; ring
  unfold logSingleBin at h
  split at h
  · injection h with h; subst h; left; rfl
  simp only at h
  split at h
  · cases h
  split at h
  · injection h with h; subst h; left; rfl
  split at h
  · cases h
  split at h
  · cases h
  split at h
  · cases h
  · injection h with h; subst h
    right
    simp only [hl, Real.sqrt_sq hr, and_self]

/-- A cell used: with the exact distance of the centres. -/
theorem mpPair_use [PseudoMetricSpace P] {p : Params} (hp : LogParams p) {c1 c2 : Cell P} {k : ℤ} {r logr : ℝ}
    (h : mpPair p c1 c2 = .use k r logr) :
    r = dist c1.pos c2.pos ∧ logr = Real.log r ∧ k = truncInt ((Real.log r - Real.log p.minsep) / p.binsize) ∧
      p.minsep ≤ r ∧ r < p.maxsep ∧ ∃ o, logSingleBin (r ^ 2) (c1.size + c2.size) p = some o := by
  unfold mpPair at h
  simp only at h
  split at h
  · cases h
  split at h
  swap
  · cases h
  rename_i o ho
  split at h
  swap
  · cases h
  rename_i hr
  have hd := dist_nonneg (x := c1.pos) (y := c2.pos)
  simp only [logBin] at hr ho h
  have h1 : p.minsep ≤ dist c1.pos c2.pos := (sq_le_sq₀ hp.minsep.le hd).1 hr.1
  have h2 : dist c1.pos c2.pos < p.maxsep := (sq_lt_sq₀ hd hp.maxsep_pos.le).1 hr.2
  split at h
  · injection h with ha hb hc
    subst hb hc ha
    rw [sqrt_dist_sq]
    exact ⟨rfl, rfl, rfl, h1, h2, o, ho⟩
  · rename_i hk
    injection h with ha hb hc
    rcases logSingleBin_out hd ho with g | ⟨g1, g2, g3⟩
    · omega
    · subst ha hb hc
      rw [g2]
      exact ⟨rfl, g3, g1, h1, h2, o, ho⟩

/-- A cell kept for later. -/
theorem mpPair_keep [PseudoMetricSpace P] {p : Params} {c1 c2 : Cell P} (h1 : 0 ≤ c1.size) (h2 : 0 ≤ c2.size)
    {rtot : ℝ} {f1 f2 : Bool}
    (h : mpPair p c1 c2 = .keep rtot f1 f2) :
    rtot = dist c1.pos c2.pos + (c1.size + c2.size) ∧ 0 < c1.size + c2.size ∧
      (f1 = true → 0 < c1.size) ∧ (f2 = true → 0 < c2.size) ∧ (f1 = true ∨ f2 = true) ∧
      (c1.size = 0 → f1 = false ∧ f2 = true) := by
  unfold mpPair at h
  simp only at h
  split at h
  · cases h
  split at h
  · split at h
    · split at h <;> cases h
    · cases h
  rename_i ho
  injection h with ha hb hc
  have hne : c1.size + c2.size ≠ 0 := by
    intro hz
    rw [hz] at ho
    simp [logBin, logSingleBin] at ho
  have hpos : 0 < c1.size + c2.size := lt_of_le_of_ne (by linarith) (Ne.symm hne)
  rw [sqrt_dist_sq] at ha
  refine ⟨ha.symm, hpos, ?_⟩
  have heff : 0 ≤ (logBin P).effBSq (dist c1.pos c2.pos ^ 2) p := by
    simp only [logBin]
    have := le_min (sq_nonneg p.b) (sq_nonneg p.a)
    positivity
  generalize (logBin P).effBSq (dist c1.pos c2.pos ^ 2) p = e at hb hc heff
  subst hb hc
  unfold calcSplitSq
  split
  · split
    · simp; linarith
    · refine ⟨fun h => ?_, fun _ => by linarith, by simp, fun h => by linarith⟩
      simp only [decide_eq_true_eq] at h
      by_contra hn
      have : c1.size = 0 := by linarith
      rw [this] at h
      nlinarith
  · split
    · simp; exact ⟨by linarith, by intro; linarith⟩
    · refine ⟨fun _ => by linarith, fun h => ?_, by simp, fun h => by linarith⟩
      simp only [decide_eq_true_eq] at h
      by_contra hn
      have : c2.size = 0 := by linarith
      rw [this] at h
      nlinarith

/-- `decide11` of the two-point code makes the same decision. -/
theorem mpPair_decide11 [PseudoMetricSpace P] {p : Params} (hp : LogParams p) (c1 c2 : Cell P) :
    match mpPair p c1 c2 with
    | .skip => decide11 (logBin P) (plainMetric P) p false c1.wake c2.wake = .drop
    | .use k r logr => ∃ e, decide11 (logBin P) (plainMetric P) p false c1.wake c2.wake = .direct e ∧ e.k = k ∧ e.r = r ∧
        e.logr = logr
    | .keep _ f1 f2 => decide11 (logBin P) (plainMetric P) p false c1.wake c2.wake = .split f1 f2 := by
  rw [decide11_plain, wake_pos, wake_pos, wake_size, wake_size, wake_w, wake_w, if_neg (by norm_num)]
  generalize hm : mpPair p c1 c2 = m
  have hm' := hm
  unfold mpPair mpOut at hm
  by_cases h1 : (logBin P).tooSmall (dist c1.pos c2.pos ^ 2) (c1.size + c2.size) p
  · rw [if_pos (Or.inl h1)] at hm
    subst hm
    rw [if_pos h1]
  by_cases h2 : (logBin P).tooLarge (dist c1.pos c2.pos ^ 2) (c1.size + c2.size) p
  · rw [if_pos (Or.inr h2)] at hm
    subst hm
    rw [if_neg h1, if_pos h2]
  rw [if_neg (by tauto)] at hm
  rw [if_neg h1, if_neg h2]
  cases ho : (logBin P).singleBin (dist c1.pos c2.pos ^ 2) (c1.size + c2.size) c1.pos c2.pos p with
  | none =>
    rw [ho] at hm
    subst hm
    rfl
  | some o =>
    rw [ho] at hm
    simp only at hm
    by_cases hr : (logBin P).inRange (dist c1.pos c2.pos ^ 2) c1.pos c2.pos p
    swap
    · rw [if_neg hr] at hm
      subst hm
      simp only
      rw [if_neg hr]
    rw [if_pos hr] at hm
    simp only
    rw [if_pos hr]
    by_cases hk : o.k < 0
    · rw [if_pos hk] at hm
      subst hm
      obtain ⟨g1, g2, g3, g4, g5, -⟩ := mpPair_use hp hm'
      have := (truncInt_log hp g4 g5).2.1
      refine ⟨_, rfl, ?_, ?_, ?_⟩ <;> simp only [directProcess11, if_pos hk, wake_pos]
      rw [if_neg]
      simp only [logBin]
      exact this.ne
    · rw [if_neg hk] at hm
      subst hm
      obtain ⟨g1, g2, g3, g4, g5, -⟩ := mpPair_use hp hm'
      have := (truncInt_log hp g4 g5).2.1
      refine ⟨_, rfl, ?_, ?_, ?_⟩ <;> simp only [directProcess11, if_neg hk]
      rw [if_neg]
      rw [← g3] at this
      exact this.ne

/-- Neither the separation nor the direction is allowed to be off: `bin_slop = 0` or `angle_slop = 0`. -/
def Sharp (p : Params) : Prop := p.b = 0 ∨ p.a = 0

theorem dist_of_zero [PseudoMetricSpace P] {x y u v : P} (h1 : dist x u ≤ 0) (h2 : dist y v ≤ 0) : dist x y = dist u v := by
  have a := dist_triangle4 x u v y
  have b := dist_triangle4 u x y v
  rw [dist_comm v y] at a
  rw [dist_comm u x] at b
  linarith

/-- Rows of cells thrown away by the distance tests are in no bin. -/
theorem mpOut_not [PseudoMetricSpace P] {p : Params} (hp : LogParams p) {c1 c2 : Cell P} (hb1 : c1.Bounded 0)
    (hb2 : c2.Bounded 0) (h : mpOut p c1 c2) {o1 o2 : Obj P} (h1 : o1 ∈ c1.objs) (h2 : o2 ∈ c2.objs) (k : ℤ) :
    ¬ InLogBin p.minsep p.binsize p.nbins k (dist o1.pos o2.pos) := by
  intro hk
  obtain ⟨r1, r2⟩ := hk.range hp
  have a := hb1.dist_le le_rfl h1
  have b := hb2.dist_le le_rfl h2
  have t1 := dist_triangle4 o1.pos c1.pos c2.pos o2.pos
  have t2 := dist_triangle4 c1.pos o1.pos o2.pos c2.pos
  rw [dist_comm c2.pos o2.pos] at t1
  rw [dist_comm c1.pos o1.pos] at t2
  have hd := dist_nonneg (x := c1.pos) (y := c2.pos)
  have s1 := hb1.size_nonneg
  have s2 := hb2.size_nonneg
  rcases h with h | h
  · simp only [logBin] at h
    have : dist c1.pos c2.pos < p.minsep - (c1.size + c2.size) := (sq_lt_sq₀ hd (by linarith)).1 h.2.2
    linarith
  · simp only [logBin] at h
    have := hp.maxsep_pos
    have : p.maxsep + (c1.size + c2.size) ≤ dist c1.pos c2.pos := (sq_le_sq₀ (by linarith) hd).1 h.2
    linarith

theorem sharp_size [PseudoMetricSpace P] {p : Params} (ha : p.a = 0) {r s : ℝ} {o : BinOut}
    (h : logSingleBin (r ^ 2) s p = some o) : s = 0 := by
  unfold logSingleBin at h
  split at h
  · assumption
  simp only [ha] at h
  rename_i hs
  have : 0 < s * s := mul_self_pos.2 hs
  rw [if_pos (by rw [zero_pow two_ne_zero, zero_mul]; exact this)] at h
  cases h

/-- A cell used goes into the bin of every pair of its rows. -/
theorem sharp_use [PseudoMetricSpace P] {p : Params} (hp : LogParams p) (hs : Sharp p) {c1 c2 : Cell P} (hb1 : c1.Bounded 0)
    (hb2 : c2.Bounded 0) {k : ℤ} {r logr : ℝ} (h : mpPair p c1 c2 = .use k r logr) {o1 o2 : Obj P} (h1 : o1 ∈ c1.objs)
    (h2 : o2 ∈ c2.objs) (j : ℤ) : InLogBin p.minsep p.binsize p.nbins j (dist o1.pos o2.pos) ↔ j = k := by
  rcases hs with hb | ha
  · have := mpPair_decide11 hp c1 c2
    rw [h] at this
    obtain ⟨e, he, hk, -⟩ := this
    rw [log_direct_iff hp hb (wake_bounded hb1) (wake_bounded hb2) he (by rwa [wake_objs]) (by rwa [wake_objs]), hk]
    exact eq_comm
  · obtain ⟨g1, g2, g3, g4, g5, o, ho⟩ := mpPair_use hp h
    have hz := sharp_size (P := P) ha ho
    have s1 := hb1.size_nonneg
    have s2 := hb2.size_nonneg
    have a := hb1.dist_le le_rfl h1
    have b := hb2.dist_le le_rfl h2
    rw [dist_of_zero (u := c1.pos) (v := c2.pos) (by linarith) (by linarith), ← g1]
    have hin := (truncInt_log hp g4 g5).2.2
    rw [← g3] at hin
    exact ⟨fun hj => inLogBin_unique hp hj hin, fun hj => hj ▸ hin⟩

/-- Rows of cells thrown away are in no bin. -/
theorem sharp_skip [PseudoMetricSpace P] {p : Params} (hp : LogParams p) (hs : Sharp p) {c1 c2 : Cell P} (hb1 : c1.Bounded 0)
    (hb2 : c2.Bounded 0) (h : mpPair p c1 c2 = .skip) {o1 o2 : Obj P} (h1 : o1 ∈ c1.objs)
    (h2 : o2 ∈ c2.objs) (j : ℤ) : ¬ InLogBin p.minsep p.binsize p.nbins j (dist o1.pos o2.pos) := by
  rcases hs with hb | ha
  · have := mpPair_decide11 hp c1 c2
    rw [h] at this
    exact log_drop_not hp hb (wake_bounded hb1) (wake_bounded hb2) (by rw [wake_w]; norm_num) (by rw [wake_w]; norm_num) this
      (by rwa [wake_objs]) (by rwa [wake_objs]) j
  · unfold mpPair at h
    simp only at h
    split at h
    · rename_i ho
      exact mpOut_not hp hb1 hb2 ho h1 h2 j
    split at h
    swap
    · cases h
    rename_i o ho
    split at h
    · split at h <;> cases h
    rename_i hr
    simp only [logBin] at hr ho
    have hz := sharp_size (P := P) ha ho
    have s1 := hb1.size_nonneg
    have s2 := hb2.size_nonneg
    have a := hb1.dist_le le_rfl h1
    have b := hb2.dist_le le_rfl h2
    rw [dist_of_zero (u := c1.pos) (v := c2.pos) (by linarith) (by linarith)]
    intro hj
    obtain ⟨r1, r2⟩ := hj.range hp
    apply hr
    have hd := dist_nonneg (x := c1.pos) (y := c2.pos)
    exact ⟨(sq_le_sq₀ hp.minsep.le hd).2 r1, (sq_lt_sq₀ hd hp.maxsep_pos.le).2 r2⟩

end TreeCorr
