import Verif.Proofs.LogCounts

/-! Linear binning. -/

namespace TreeCorr
open Classical
variable {P : Type}

/-- Well-formedness of Linear binning parameters: `max_sep = min_sep + nbins * bin_size`,
/repo/treecorr/corr2base.py:394-414. -/
structure LinParams (p : Params) : Prop where
  minsep : 0 ≤ p.minsep
  binsize : 0 < p.binsize
  nbins : 0 ≤ p.nbins
  maxsep : p.maxsep = p.minsep + p.nbins * p.binsize
  b : 0 ≤ p.b
  a : 0 ≤ p.a

theorem LinParams.maxsep_nonneg {p : Params} (h : LinParams p) : 0 ≤ p.maxsep := by
  rw [h.maxsep]
  have : (0:ℝ) ≤ p.nbins := by exact_mod_cast h.nbins
  have := h.minsep
  have := h.binsize
  positivity

/-- What `singleBin` guarantees. -/
theorem linearSingleBin_sound {p : Params} (hp : LinParams p) {r s : ℝ} (hr : 0 ≤ r)
    {o : BinOut} (h : linearSingleBin (r ^ 2) s p = some o) {d : ℝ} (hd : |d - r| ≤ s) :
    s ≤ p.a * r ∧
    ((o = {} ∧ s ≤ p.b) ∨
    (o.r = r ∧ o.logr = Real.log r ∧ o.k = truncInt ((r - p.minsep) / p.binsize) ∧
      (p.minsep ≤ r →
        p.minsep + o.k * p.binsize - p.b ≤ d ∧ d ≤ p.minsep + (o.k + 1) * p.binsize + p.b) ∧
      (r < p.minsep → d < p.minsep + p.b))) := by
  have hbs := hp.binsize
  have hb := hp.b
  have ha := hp.a
  unfold linearSingleBin at h
  split at h
  · cases h
  rename_i hA
  have hA' : s ≤ p.a * r := by
    rw [gt_iff_lt, not_lt, ← mul_pow] at hA
    exact le_of_sq_le_sq hA (by positivity)
  refine ⟨hA', ?_⟩
  split at h
  · rename_i hB
    simp only [Option.some.injEq] at h
    exact Or.inl ⟨h.symm, hB⟩
  split at h
  · cases h
  rw [Real.sqrt_sq hr] at h
  simp only at h
  split at h
  · cases h
  rename_i hF
  simp only [Option.some.injEq] at h
  right
  set kk := (r - p.minsep) / p.binsize with hkk
  have hkk' : kk * p.binsize = r - p.minsep := by rw [hkk]; field_simp
  set ik := truncInt kk with hik
  set fr : ℝ := kk - ik with hfr
  have hlr : r = p.minsep + (ik + fr) * p.binsize := by
    have : (ik : ℝ) + fr = kk := by rw [hfr]; ring
    rw [this, hkk']; ring
  have hdd := abs_le.1 hd
  subst h
  refine ⟨rfl, rfl, rfl, ?_, ?_⟩
  · intro hmr
    have h1 := mul_le_mul_of_nonneg_right (min_le_right fr (1 - fr)) hbs.le
    have h2 := mul_le_mul_of_nonneg_right (min_le_left fr (1 - fr)) hbs.le
    simp only
    constructor <;> nlinarith
  · intro hmr
    have hkk0 : kk < 0 := by
      rw [hkk]; exact div_neg_of_neg_of_pos (by linarith) hbs
    have hikc : ik = ⌈kk⌉ := truncInt_neg hkk0
    have hik0 : (ik : ℝ) ≤ 0 := by
      have : ik ≤ 0 := by rw [hikc]; exact Int.ceil_le.2 (by simpa using hkk0.le)
      exact_mod_cast this
    have hfr0 : fr ≤ 0 := by rw [hfr, hikc]; have := Int.le_ceil kk; linarith
    have h2 := mul_le_mul_of_nonneg_right (min_le_left fr (1 - fr)) hbs.le
    have h4 : fr * p.binsize ≤ 0 := mul_nonpos_of_nonpos_of_nonneg hfr0 hbs.le
    have h5 : s ≤ p.b := by linarith
    linarith

/-- A pair put into bin `k`: its separation, changed by at most `2δ`, is in bin `k` widened by the slop. -/
theorem linear_direct [PseudoMetricSpace P] {p : Params} (hp : LinParams p) {δ : ℝ} (hδ : 0 ≤ δ)
    {a b : Cell P} (ha : a.Bounded δ) (hb : b.Bounded δ) {R : Bool} {e : Emit P}
    (h : decide11 (linearBin P) (plainMetric P) p R a b = .direct e) {o1 o2 : Obj P}
    (h1 : o1 ∈ a.objs) (h2 : o2 ∈ b.objs) :
    0 ≤ e.k ∧ e.k < p.nbins ∧ ∃ d', |dist o1.pos o2.pos - d'| ≤ 2 * δ ∧
      p.minsep + e.k * p.binsize - p.b ≤ d' ∧
      d' ≤ p.minsep + (e.k + 1) * p.binsize + p.b ∧
      (p.b = 0 → (a.size + b.size = 0) → d' < p.minsep + (e.k + 1) * p.binsize) := by
  obtain ⟨d', hd', hdd⟩ := cells_near hδ (ha.within hδ) (hb.within hδ) h1 h2
  have hm := hp.minsep
  have hbs := hp.binsize
  have hbb := hp.b
  have hmx := hp.maxsep_nonneg
  rw [decide11_plain] at h
  split at h
  · cases h
  split at h
  · cases h
  split at h
  · cases h
  split at h
  swap
  · cases h
  rename_i o ho
  split at h
  swap
  · cases h
  rename_i hin
  injection h with h
  set r := dist a.pos b.pos with hr
  have hr0 : 0 ≤ r := dist_nonneg
  simp only [linearBin] at ho hin
  obtain ⟨hlo, hhi⟩ := hin
  have hlo' : p.minsep ≤ r := le_of_sq_le_sq hlo hr0
  have hhi' : r < p.maxsep := lt_of_pow_lt_pow_left₀ 2 hmx hhi
  set kk := (r - p.minsep) / p.binsize with hkk
  have hkk' : kk * p.binsize = r - p.minsep := by rw [hkk]; field_simp
  have hkk0 : 0 ≤ kk := div_nonneg (by linarith) hbs.le
  have hkkn : kk < p.nbins := by rw [hkk, div_lt_iff₀ hbs]; rw [hp.maxsep] at hhi'; linarith
  have hfl0 : 0 ≤ ⌊kk⌋ := Int.floor_nonneg.2 hkk0
  have hfln : ⌊kk⌋ < p.nbins := Int.floor_lt.2 hkkn
  have hf1 := mul_le_mul_of_nonneg_right (Int.floor_le kk) hbs.le
  have hf2 := mul_lt_mul_of_pos_right (Int.lt_floor_add_one kk) hbs
  have hs0 : 0 ≤ a.size + b.size := add_nonneg ha.size_nonneg hb.size_nonneg
  have hab := abs_le.1 hd'
  have strict : e.k = ⌊kk⌋ → (p.b = 0 → (a.size + b.size = 0) →
      d' < p.minsep + (e.k + 1) * p.binsize) := by
    intro hek _ hz
    rw [hek]
    linarith
  obtain ⟨_, ⟨ho', hs⟩ | ⟨_, _, hok, hk, _⟩⟩ := linearSingleBin_sound hp hr0 ho hd'
  · have hek : e.k = ⌊kk⌋ := by
      rw [← h]
      simp only [directProcess11, ho', linearBin]
      norm_num
      rw [Real.sqrt_sq hr0, ← hkk, truncInt_nonneg hkk0, if_neg hfln.ne]
    refine ⟨hek ▸ hfl0, hek ▸ hfln, d', hdd, ?_, ?_, strict hek⟩
    · rw [hek]; linarith
    · rw [hek]; linarith
  · have hok' : o.k = ⌊kk⌋ := by rw [hok, truncInt_nonneg hkk0]
    have hek : e.k = o.k := by
      rw [← h]
      simp only [directProcess11]
      have g1 : ¬ o.k < 0 := by rw [hok']; exact not_lt.2 hfl0
      have g2 : o.k ≠ p.nbins := by rw [hok']; exact hfln.ne
      simp only [g1, g2, if_false]
    have st := strict (hek.trans hok')
    rw [hek] at st ⊢
    exact ⟨hok' ▸ hfl0, hok' ▸ hfln, d', hdd, (hk hlo').1, (hk hlo').2, st⟩

theorem linear_drop [PseudoMetricSpace P] {p : Params} (hp : LinParams p) {δ : ℝ} (hδ : 0 ≤ δ)
    {a b : Cell P} (ha : a.Bounded δ) (hb : b.Bounded δ) (hwa : a.w ≠ 0) (hwb : b.w ≠ 0) {R : Bool}
    (h : decide11 (linearBin P) (plainMetric P) p R a b = .drop) {o1 o2 : Obj P}
    (h1 : o1 ∈ a.objs) (h2 : o2 ∈ b.objs) :
    ∃ d', |dist o1.pos o2.pos - d'| ≤ 2 * δ ∧ (d' < p.minsep + p.b ∨ p.maxsep - p.b ≤ d') := by
  obtain ⟨d', hd', hdd⟩ := cells_near hδ (ha.within hδ) (hb.within hδ) h1 h2
  have hm := hp.minsep
  have hbs := hp.binsize
  have hbb := hp.b
  have hmx := hp.maxsep_nonneg
  refine ⟨d', hdd, ?_⟩
  have hab := abs_le.1 hd'
  have hs0 : 0 ≤ a.size + b.size := add_nonneg ha.size_nonneg hb.size_nonneg
  rw [decide11_plain, if_neg (by tauto)] at h
  set r := dist a.pos b.pos with hr
  have hr0 : 0 ≤ r := dist_nonneg
  split at h
  · rename_i hts
    obtain ⟨_, t2, t3⟩ := hts
    left
    have : r < p.minsep - (a.size + b.size) := lt_of_pow_lt_pow_left₀ 2 (by linarith) t3
    linarith
  split at h
  · rename_i htl
    obtain ⟨_, t3⟩ := htl
    right
    have : p.maxsep + (a.size + b.size) ≤ r := le_of_sq_le_sq t3 hr0
    linarith
  split at h
  swap
  · cases h
  rename_i o ho
  split at h
  · cases h
  rename_i hin
  simp only [linearBin, not_and_or, ge_iff_le, not_le, not_lt] at ho hin
  have hcase : r < p.minsep ∨ p.maxsep ≤ r := by
    rcases hin with hin | hin
    · left; exact lt_of_pow_lt_pow_left₀ 2 hm hin
    · right; exact le_of_sq_le_sq hin hr0
  obtain ⟨_, ⟨ho', hs⟩ | ⟨_, _, hok, hk, hk'⟩⟩ := linearSingleBin_sound hp hr0 ho hd'
  · rcases hcase with h | h
    · left; linarith
    · right; linarith
  · rcases hcase with h | h
    · left; exact hk' h
    · right
      have hn : (0:ℝ) ≤ p.nbins := by exact_mod_cast hp.nbins
      have hmr : p.minsep ≤ r := by
        rw [hp.maxsep] at h
        have : 0 ≤ p.nbins * p.binsize := by positivity
        linarith
      have h5 := (hk hmr).1
      have hkkn : (p.nbins : ℝ) ≤ (r - p.minsep) / p.binsize := by
        rw [le_div_iff₀ hbs]; rw [hp.maxsep] at h; linarith
      have hkn : p.nbins ≤ o.k := by
        rw [hok, truncInt_nonneg (hn.trans hkkn)]
        exact Int.le_floor.2 hkkn
      have hkn' : (p.nbins : ℝ) * p.binsize ≤ o.k * p.binsize :=
        mul_le_mul_of_nonneg_right (by exact_mod_cast hkn) hbs.le
      rw [hp.maxsep]
      linarith

theorem linear_exactDecide [PseudoMetricSpace P] {p : Params} (hp : LinParams p) (hb : p.b = 0) (R : Bool)
    (l1 l2 : List (Obj P))
    (hedge : ∀ o1 ∈ l1, ∀ o2 ∈ l2, ∀ k : ℤ, 0 < k → k ≤ p.nbins →
      dist o1.pos o2.pos ≠ linEdge p.minsep p.binsize k) :
    ExactDecide (decide11 (linearBin P) (plainMetric P) p R) (CellOf l1) (CellOf l2)
      (fun k q => InLinBin p.minsep p.binsize p.nbins k (dist q.1.pos q.2.pos)) ZeroPair where
  honest := decide11_honest _ _ _ _
  safe := (linear_safeSplit p hp.b 0 0 R).mono (fun _ h => h.1.1.1) (fun _ h => h.1.1.1)
  dir := by
    intro a b e ha hb' h q h1 h2 k
    obtain ⟨g1, g2, d', hd', g3, g4, _⟩ := linear_direct hp le_rfl ha.1.1.1 hb'.1.1.1 h h1 h2
    have : d' = dist q.1.pos q.2.pos := by
      have : dist q.1.pos q.2.pos - d' = 0 := by simpa using hd'
      linarith
    subst this
    rw [hb] at g3 g4
    have hne := hedge _ (ha.2 _ h1) _ (hb'.2 _ h2) (e.k + 1) (by omega) (by omega)
    have hlt : dist q.1.pos q.2.pos < p.minsep + (e.k + 1) * p.binsize := by
      refine lt_of_le_of_ne (by linarith) ?_
      intro h
      apply hne
      rw [h, linEdge]; push_cast; ring
    constructor
    · rintro ⟨_, _, k3, k4⟩
      simp only [linEdge] at k3 k4
      push_cast at k4
      exact logBin_unique hp.binsize (by linarith) hlt k3 k4
    · rintro rfl
      refine ⟨g1, g2, by simp only [linEdge]; linarith, by simp only [linEdge]; push_cast; linarith⟩
  drop := by
    intro a b ha hb' h q h1 h2 k hin
    by_cases hwa : a.w = 0
    · exact Or.inl (ha.1.zero hwa h1)
    by_cases hwb : b.w = 0
    · exact Or.inr (hb'.1.zero hwb h2)
    exfalso
    obtain ⟨d', hd', hcase⟩ := linear_drop hp le_rfl ha.1.1.1 hb'.1.1.1 hwa hwb h h1 h2
    have : d' = dist q.1.pos q.2.pos := by
      have : dist q.1.pos q.2.pos - d' = 0 := by simpa using hd'
      linarith
    subst this
    obtain ⟨k1, k2, k3, k4⟩ := hin
    have hbs := hp.binsize
    have e1 : (0:ℝ) ≤ k * p.binsize := mul_nonneg (by exact_mod_cast k1) hbs.le
    have e2 : ((k:ℝ) + 1) * p.binsize ≤ p.nbins * p.binsize :=
      mul_le_mul_of_nonneg_right (by exact_mod_cast k2) hbs.le
    simp only [linEdge] at k3 k4
    push_cast at k4
    rw [hp.maxsep] at hcase
    rcases hcase with h | h <;> linarith

theorem linear_binExact [PseudoMetricSpace P] {p : Params} (hp : LinParams p) (hb : p.b = 0)
    (l1 l2 : List (Obj P))
    (hedge : ∀ o1 ∈ l1, ∀ o2 ∈ l2, ∀ k : ℤ, 0 < k → k ≤ p.nbins →
      dist o1.pos o2.pos ≠ linEdge p.minsep p.binsize k) :
    BinExact (linearBin P) p (InLinBin p.minsep p.binsize p.nbins) l1 l2 := by
  have range : ∀ k d, InLinBin p.minsep p.binsize p.nbins k d → p.minsep ≤ d ∧ d < p.maxsep := by
    rintro k d ⟨k1, k2, k3, k4⟩
    have hbs := hp.binsize
    have e1 : (0:ℝ) ≤ k * p.binsize := mul_nonneg (by exact_mod_cast k1) hbs.le
    have e2 : ((k:ℝ) + 1) * p.binsize ≤ p.nbins * p.binsize :=
      mul_le_mul_of_nonneg_right (by exact_mod_cast k2) hbs.le
    simp only [linEdge] at k3 k4
    push_cast at k4
    rw [hp.maxsep]
    constructor <;> linarith
  exact {
    dec := linear_exactDecide hp hb false l1 l2 hedge
    far := by
      intro f1 f2 h x y hx hy k hin
      have := range k _ hin
      rcases sep_far h hx hy with h | h <;> linarith
    min := fun k d h => (range k d h).1
    minsep := hp.minsep }

end TreeCorr
