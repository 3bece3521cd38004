import Verif.Spec.TwoD
import Verif.Proofs.Trivial
import Verif.Proofs.Exact

/-! Soundness of the decisions with TwoD binning. -/

namespace TreeCorr
open Classical

/-- `n`×`n` pixels on the square of half-width `max_sep`, no slop, `min_sep = 0`, /repo/treecorr/corr2base.py:422-447. -/
structure TwoDParams (p : Params) (n : ℤ) : Prop where
  minsep : p.minsep = 0
  binsize : 0 < p.binsize
  npos : 0 < n
  maxsep : 2 * p.maxsep = n * p.binsize
  nbins : p.nbins = n ^ 2
  b : p.b = 0

theorem TwoDParams.maxsep_pos {p : Params} {n : ℤ} (h : TwoDParams p n) : 0 < p.maxsep := by
  have h1 := h.maxsep
  have h2 : (0:ℝ) < n := by exact_mod_cast h.npos
  have := mul_pos h2 h.binsize
  linarith

theorem TwoDParams.twoDn {p : Params} {n : ℤ} (h : TwoDParams p n) : twoDn p = n := by
  have hbs := h.binsize
  have e : 2 * p.maxsep / p.binsize = n := by rw [h.maxsep]; field_simp
  have hn : (0:ℝ) < n := by exact_mod_cast h.npos
  unfold TreeCorr.twoDn
  rw [e, truncInt_nonneg (by linarith)]
  rw [Int.floor_eq_iff]
  constructor <;> norm_num

theorem strip_unique {m bs u : ℝ} (hbs : 0 < bs) {i j : ℤ} (hi : InStrip m bs i u) (hj : InStrip m bs j u) :
    i = j := by
  obtain ⟨h1, h2⟩ := hi
  obtain ⟨h3, h4⟩ := hj
  simp only [linEdge] at h1 h2 h3 h4
  push_cast at h2 h4
  exact logBin_unique hbs h1 h2 h3 h4

theorem pixel_unique {m bs : ℝ} (hbs : 0 < bs) {n k k' : ℤ} {v : Flat2} (h : InPixel m bs n k v)
    (h' : InPixel m bs n k' v) : k = k' := by
  obtain ⟨_, i, j, _, _, _, _, rfl, hi, hj⟩ := h
  obtain ⟨_, i', j', _, _, _, _, rfl, hi', hj'⟩ := h'
  rw [strip_unique hbs hi hi', strip_unique hbs hj hj']

/-- A number inside the range is in the interval computed for it. -/
theorem strip_of_lt {p : Params} {n : ℤ} (hp : TwoDParams p n) {u : ℝ} (h : |u| < p.maxsep) :
    0 ≤ truncInt ((u + p.maxsep) / p.binsize) ∧ truncInt ((u + p.maxsep) / p.binsize) < n ∧
      InStrip p.maxsep p.binsize (truncInt ((u + p.maxsep) / p.binsize)) u := by
  have hbs := hp.binsize
  obtain ⟨h1, h2⟩ := abs_lt.1 h
  set t := (u + p.maxsep) / p.binsize with ht
  have ht' : t * p.binsize = u + p.maxsep := by rw [ht]; field_simp
  have ht0 : 0 ≤ t := div_nonneg (by linarith) hbs.le
  have htn : t < n := by rw [ht, div_lt_iff₀ hbs, ← hp.maxsep]; linarith
  rw [truncInt_nonneg ht0]
  refine ⟨Int.floor_nonneg.2 ht0, Int.floor_lt.2 htn, ?_, ?_⟩
  · have := mul_le_mul_of_nonneg_right (Int.floor_le t) hbs.le
    simp only [linEdge]; linarith
  · have := mul_lt_mul_of_pos_right (Int.lt_floor_add_one t) hbs
    simp only [linEdge]; push_cast; linarith

theorem pixel_lt {n i j : ℤ} (hi0 : 0 ≤ i) (hi : i < n) (hj0 : 0 ≤ j) (hj : j < n) :
    0 ≤ j * n + i ∧ j * n + i < n ^ 2 := by
  constructor
  · have := mul_nonneg hj0 (hi0.trans hi.le); omega
  · nlinarith

/-- `calculateBinK` of an in-range vector. -/
theorem binK_inPixel {p : Params} {n : ℤ} (hp : TwoDParams p n) {p1 p2 : Flat2}
    (h0 : |p2 0 - p1 0| < p.maxsep) (h1 : |p2 1 - p1 1| < p.maxsep) (hne : p2 - p1 ≠ 0) :
    InPixel p.maxsep p.binsize n (twoDBinK p1 p2 p) (p2 - p1) ∧ 0 ≤ twoDBinK p1 p2 p ∧
      twoDBinK p1 p2 p < p.nbins := by
  obtain ⟨i0, i1, i2⟩ := strip_of_lt hp h0
  obtain ⟨j0, j1, j2⟩ := strip_of_lt hp h1
  have e : twoDBinK p1 p2 p = truncInt ((p2 1 - p1 1 + p.maxsep) / p.binsize) * n +
      truncInt ((p2 0 - p1 0 + p.maxsep) / p.binsize) := by
    simp only [twoDBinK, hp.twoDn]
    rw [if_neg i1.ne, if_neg j1.ne]
  rw [e, hp.nbins]
  exact ⟨⟨hne, _, _, i0, i1, j0, j1, rfl, by simpa using i2, by simpa using j2⟩, pixel_lt i0 i1 j0 j1⟩

/-- The interval accepted by `singleBin`. -/
theorem strip_of_single {p : Params} {n : ℤ} (hp : TwoDParams p n) {s c : ℝ} (hs : 0 < s)
    (h1 : ¬ (c + p.maxsep) / p.binsize - s / p.binsize < truncInt ((c + p.maxsep) / p.binsize))
    (h2 : ¬ (c + p.maxsep) / p.binsize + s / p.binsize ≥ truncInt ((c + p.maxsep) / p.binsize) + 1) :
    0 ≤ truncInt ((c + p.maxsep) / p.binsize) ∧
    linEdge (-p.maxsep) p.binsize (truncInt ((c + p.maxsep) / p.binsize)) < c ∧
    ∀ u, |u - c| ≤ s → InStrip p.maxsep p.binsize (truncInt ((c + p.maxsep) / p.binsize)) u := by
  have hbs := hp.binsize
  set t := (c + p.maxsep) / p.binsize with ht
  have ht' : t * p.binsize = c + p.maxsep := by rw [ht]; field_simp
  have hs' : s / p.binsize * p.binsize = s := by field_simp
  have hs0 : 0 < s / p.binsize := by positivity
  have ht0 : 0 ≤ t := by
    by_contra hlt
    rw [not_le] at hlt
    apply h1
    rw [truncInt_neg hlt]
    have := Int.le_ceil t
    linarith
  rw [truncInt_nonneg ht0] at h1 h2 ⊢
  rw [not_lt] at h1
  rw [ge_iff_le, not_le] at h2
  have m1 := mul_le_mul_of_nonneg_right h1 hbs.le
  have m2 := mul_lt_mul_of_pos_right h2 hbs
  refine ⟨Int.floor_nonneg.2 ht0, ?_, ?_⟩
  · simp only [linEdge]; linarith
  · intro u hu
    obtain ⟨u1, u2⟩ := abs_le.1 hu
    constructor
    · simp only [linEdge]; linarith
    · simp only [linEdge]; push_cast; linarith

theorem mid_zero {p : Params} {n : ℤ} (hp : TwoDParams p n) :
    InStrip p.maxsep p.binsize (truncInt (p.maxsep / p.binsize)) 0 := by
  have := strip_of_lt hp (u := 0) (by simpa using hp.maxsep_pos)
  simpa using this.2.2

/-- Both coordinates of a separation are within the sum of the sizes. -/
theorem coord_near {a b : Cell Flat2} (ha : a.Bounded 0) (hb : b.Bounded 0) {o1 o2 : Obj Flat2}
    (h1 : o1 ∈ a.objs) (h2 : o2 ∈ b.objs) (i : Fin 2) :
    |(o2.pos - o1.pos) i - (b.pos i - a.pos i)| ≤ a.size + b.size := by
  have d1 := ha.dist_le le_rfl h1
  have d2 := hb.dist_le le_rfl h2
  rw [dist_eq_norm] at d1 d2
  have n1 := PiLp.norm_apply_le (o1.pos - a.pos) i
  have n2 := PiLp.norm_apply_le (o2.pos - b.pos) i
  simp only [PiLp.sub_apply, Real.norm_eq_abs] at n1 n2 ⊢
  have := abs_sub (o2.pos i - b.pos i) (o1.pos i - a.pos i)
  have e : o2.pos i - b.pos i - (o1.pos i - a.pos i) = o2.pos i - o1.pos i - (b.pos i - a.pos i) := by ring
  rw [e] at this
  linarith

theorem pos_eq_of_size {a : Cell Flat2} (ha : a.Bounded 0) (hs : a.size = 0) {o : Obj Flat2} (h : o ∈ a.objs) :
    o.pos = a.pos := by
  have := ha.dist_le le_rfl h
  rw [hs] at this
  exact dist_le_zero.1 (by linarith)

/-- `-v` is in the opposite pixel, unless `v` is on a grid line. -/
theorem strip_neg {p : Params} {n : ℤ} (hp : TwoDParams p n) {u : ℝ} {i : ℤ}
    (h : InStrip p.maxsep p.binsize i u) (hne : u ≠ linEdge (-p.maxsep) p.binsize i) :
    InStrip p.maxsep p.binsize (n - 1 - i) (-u) := by
  obtain ⟨h1, h2⟩ := h
  have h1' := lt_of_le_of_ne h1 (Ne.symm hne)
  have hm := hp.maxsep
  simp only [linEdge] at h1' h2
  push_cast at h2
  constructor <;> simp only [linEdge] <;> push_cast <;> nlinarith

/-- A pair counted: its vector is in the pixel; and the reversed one in the pixel of the reversed update. -/
theorem twoD_direct {p : Params} {n : ℤ} (hp : TwoDParams p n) {R : Bool} {a b : Cell Flat2} (ha : a.Bounded 0)
    (hb : b.Bounded 0) {e : Emit Flat2} (h : decide11 twoDBin (plainMetric Flat2) p R a b = .direct e)
    {o1 o2 : Obj Flat2} (h1 : o1 ∈ a.objs) (h2 : o2 ∈ b.objs) :
    InPixel p.maxsep p.binsize n e.k (o2.pos - o1.pos) ∧
    (R = true → ((∀ i : ℤ, (o2.pos - o1.pos) 0 ≠ linEdge (-p.maxsep) p.binsize i) ∧
        (∀ i : ℤ, (o2.pos - o1.pos) 1 ≠ linEdge (-p.maxsep) p.binsize i)) →
      ∃ k2, e.k2 = some k2 ∧ InPixel p.maxsep p.binsize n k2 (o1.pos - o2.pos)) := by
  have c0 := coord_near ha hb h1 h2 0
  have c1 := coord_near ha hb h1 h2 1
  have hbs := hp.binsize
  rw [decide11_plain] at h
  split at h
  · cases h
  split at h
  · cases h
  split at h
  · cases h
  split at h
  swap
  · cases h
  rename_i o ho
  split at h
  swap
  · cases h
  rename_i hin
  injection h with h
  simp only [twoDBin] at ho hin
  split at hin
  · exact hin.elim
  rename_i hr
  rw [not_or] at hr
  have hdp : dist a.pos b.pos ≠ 0 := fun h0 => hr.1 (by rw [h0]; norm_num)
  have hne : b.pos - a.pos ≠ 0 := by
    intro h0
    apply hdp
    rw [dist_comm, dist_eq_norm, h0, norm_zero]
  have hne' : a.pos - b.pos ≠ 0 := by
    rw [← neg_sub]; exact neg_ne_zero.2 hne
  rw [max_lt_iff] at hin
  have hin0 : |b.pos 0 - a.pos 0| < p.maxsep := by rw [abs_sub_comm]; exact hin.1
  have hin1 : |b.pos 1 - a.pos 1| < p.maxsep := by rw [abs_sub_comm]; exact hin.2
  have hK := binK_inPixel hp hin0 hin1 hne
  have hK2 := binK_inPixel hp (p1 := b.pos) (p2 := a.pos) hin.1 hin.2 hne'
  have hs0 : 0 ≤ a.size + b.size := add_nonneg ha.size_nonneg hb.size_nonneg
  have hk2 : R = true → e.k2 = some (twoDBinK b.pos a.pos p) := by
    rintro rfl
    rw [← h]
    simp only [directProcess11, twoDBin, if_true]
    rw [if_neg hK2.2.2.ne]
  unfold twoDSingleBin at ho
  split at ho
  · cases ho
  split at ho
  · -- leaves
    rename_i hs
    rw [hp.b] at hs
    have hsa : a.size = 0 := by linarith [ha.size_nonneg, hb.size_nonneg]
    have hsb : b.size = 0 := by linarith [ha.size_nonneg, hb.size_nonneg]
    rw [pos_eq_of_size ha hsa h1, pos_eq_of_size hb hsb h2]
    injection ho with ho
    have hek : e.k = twoDBinK a.pos b.pos p := by
      rw [← h, ← ho]
      simp only [directProcess11, twoDBin]
      norm_num
      exact hK.2.2.ne
    rw [hek]
    refine ⟨hK.1, fun hR _ => ⟨_, hk2 hR, hK2.1⟩⟩
  split at ho
  · cases ho
  rename_i hsb _
  rw [hp.b, not_le] at hsb
  simp only at ho
  split at ho
  · cases ho
  rename_i hmid
  split at ho
  · cases ho
  rename_i t1
  split at ho
  · cases ho
  rename_i t2
  split at ho
  · cases ho
  rename_i t3
  split at ho
  · cases ho
  rename_i t4
  injection ho with ho
  obtain ⟨i0, i1, i2⟩ := strip_of_single hp hsb t1 t2
  obtain ⟨j0, j1, j2⟩ := strip_of_single hp hsb t3 t4
  obtain ⟨_, iN, _⟩ := strip_of_lt hp hin0
  obtain ⟨_, jN, _⟩ := strip_of_lt hp hin1
  set i := truncInt ((b.pos 0 - a.pos 0 + p.maxsep) / p.binsize) with hi
  set j := truncInt ((b.pos 1 - a.pos 1 + p.maxsep) / p.binsize) with hj
  have s0 := i2 _ c0
  have s1 := j2 _ c1
  have hlt := pixel_lt i0 iN j0 jN
  have hok : o.k = j * n + i := by rw [← ho, hp.twoDn]
  have hek : e.k = j * n + i := by
    rw [← h]
    simp only [directProcess11]
    have g1 : ¬ o.k < 0 := by rw [hok]; exact not_lt.2 hlt.1
    have g2 : o.k ≠ p.nbins := by rw [hok, hp.nbins]; exact hlt.2.ne
    simp only [g1, g2, if_false]
    exact hok
  have hv : o2.pos - o1.pos ≠ 0 := by
    intro h0
    rw [h0] at s0 s1
    apply hmid
    exact ⟨strip_unique hbs s0 (mid_zero hp), strip_unique hbs s1 (mid_zero hp)⟩
  refine ⟨⟨hv, i, j, i0, iN, j0, jN, hek, s0, s1⟩, ?_⟩
  intro hR hgrid
  refine ⟨_, hk2 hR, ?_⟩
  obtain ⟨⟨_, i', j', k1, k2, k3, k4, k5, k6, k7⟩, _⟩ := hK2
  have n0 : InStrip p.maxsep p.binsize (n - 1 - i) ((a.pos - b.pos) 0) := by
    have := strip_neg hp (i2 (b.pos 0 - a.pos 0) (by simpa using hs0)) i1.ne'
    simpa using this
  have n1 : InStrip p.maxsep p.binsize (n - 1 - j) ((a.pos - b.pos) 1) := by
    have := strip_neg hp (j2 (b.pos 1 - a.pos 1) (by simpa using hs0)) j1.ne'
    simpa using this
  have m0 := strip_neg hp s0 (hgrid.1 i)
  have m1 := strip_neg hp s1 (hgrid.2 j)
  rw [strip_unique hbs n0 k6] at m0
  rw [strip_unique hbs n1 k7] at m1
  refine ⟨by rw [← neg_sub]; exact neg_ne_zero.2 hv, i', j', k1, k2, k3, k4, k5, ?_, ?_⟩
  · simpa using m0
  · simpa using m1

theorem pixel_range {p : Params} {n k : ℤ} (hp : TwoDParams p n) {v : Flat2}
    (h : InPixel p.maxsep p.binsize n k v) :
    (-p.maxsep ≤ v 0 ∧ v 0 < p.maxsep) ∧ (-p.maxsep ≤ v 1 ∧ v 1 < p.maxsep) := by
  obtain ⟨_, i, j, i0, iN, j0, jN, _, ⟨h1, h2⟩, ⟨h3, h4⟩⟩ := h
  have hbs := hp.binsize
  have hm := hp.maxsep
  simp only [linEdge] at h1 h2 h3 h4
  push_cast at h2 h4
  have a1 : (0:ℝ) ≤ i * p.binsize := mul_nonneg (by exact_mod_cast i0) hbs.le
  have a2 : (0:ℝ) ≤ j * p.binsize := mul_nonneg (by exact_mod_cast j0) hbs.le
  have a3 : ((i:ℝ) + 1) * p.binsize ≤ n * p.binsize := mul_le_mul_of_nonneg_right (by exact_mod_cast iN) hbs.le
  have a4 : ((j:ℝ) + 1) * p.binsize ≤ n * p.binsize := mul_le_mul_of_nonneg_right (by exact_mod_cast jN) hbs.le
  refine ⟨⟨?_, ?_⟩, ?_, ?_⟩ <;> linarith

/-- A pair dropped is outside the square (or on its lower boundary). -/
theorem twoD_drop {p : Params} {n : ℤ} (hp : TwoDParams p n) {R : Bool} {a b : Cell Flat2} (ha : a.Bounded 0)
    (hb : b.Bounded 0) (hwa : a.w ≠ 0) (hwb : b.w ≠ 0)
    (h : decide11 twoDBin (plainMetric Flat2) p R a b = .drop)
    {o1 o2 : Obj Flat2} (h1 : o1 ∈ a.objs) (h2 : o2 ∈ b.objs)
    (hlow : (o2.pos - o1.pos) 0 ≠ -p.maxsep ∧ (o2.pos - o1.pos) 1 ≠ -p.maxsep) (k : ℤ) :
    ¬ InPixel p.maxsep p.binsize n k (o2.pos - o1.pos) := by
  intro hpix
  have hne0 := hpix.1
  obtain ⟨⟨r1, r2⟩, r3, r4⟩ := pixel_range hp hpix
  have r1' := lt_of_le_of_ne r1 (Ne.symm hlow.1)
  have r3' := lt_of_le_of_ne r3 (Ne.symm hlow.2)
  have hmp := hp.maxsep_pos
  have hbs := hp.binsize
  have c0 := coord_near ha hb h1 h2 0
  have c1 := coord_near ha hb h1 h2 1
  have hs0 : 0 ≤ a.size + b.size := add_nonneg ha.size_nonneg hb.size_nonneg
  rw [decide11_plain, if_neg (by tauto)] at h
  split at h
  · rename_i hts
    have := hts.1
    rw [hp.minsep] at this
    nlinarith [sq_nonneg (dist a.pos b.pos)]
  split at h
  · rename_i htl
    have hd := dist_near (ha.dist_le le_rfl h1) (hb.dist_le le_rfl h2)
    have h3 := tooLarge2_sound dist_nonneg (by simpa using hd) htl.2
    have h4 := flat_dist_le o1.pos o2.pos hmp.le
      (by rw [abs_sub_comm]; exact abs_lt.2 ⟨by simpa using r1', by simpa using r2⟩)
      (by rw [abs_sub_comm]; exact abs_lt.2 ⟨by simpa using r3', by simpa using r4⟩)
    linarith
  split at h
  swap
  · cases h
  rename_i o ho
  split at h
  · cases h
  rename_i hin
  simp only [twoDBin] at ho hin
  have hleaf : a.size + b.size ≤ 0 → False := by
    intro hs
    have hsa : a.size = 0 := by linarith [ha.size_nonneg, hb.size_nonneg]
    have hsb : b.size = 0 := by linarith [ha.size_nonneg, hb.size_nonneg]
    rw [pos_eq_of_size ha hsa h1, pos_eq_of_size hb hsb h2] at *
    apply hin
    rw [if_neg]
    · rw [max_lt_iff, abs_sub_comm, abs_sub_comm (a.pos 1)]
      exact ⟨abs_lt.2 ⟨by simpa using r1', by simpa using r2⟩, abs_lt.2 ⟨by simpa using r3', by simpa using r4⟩⟩
    · rw [not_or, hp.minsep]
      constructor
      · intro h0
        apply hne0
        have : dist a.pos b.pos = 0 := by simpa using h0
        rw [dist_comm, dist_eq_norm] at this
        exact norm_eq_zero.1 this
      · have := sq_nonneg (dist a.pos b.pos)
        intro h
        norm_num at h
        linarith
  unfold twoDSingleBin at ho
  split at ho
  · cases ho
  rename_i hasq
  split at ho
  · rename_i hs
    rw [hp.b] at hs
    exact hleaf hs
  split at ho
  · cases ho
  rename_i hsb _
  rw [hp.b, not_le] at hsb
  simp only at ho
  split at ho
  · cases ho
  split at ho
  · cases ho
  rename_i t1
  split at ho
  · cases ho
  rename_i t2
  split at ho
  · cases ho
  rename_i t3
  split at ho
  · cases ho
  rename_i t4
  obtain ⟨i0, i1, i2⟩ := strip_of_single hp hsb t1 t2
  obtain ⟨j0, j1, j2⟩ := strip_of_single hp hsb t3 t4
  have hrpos : 0 < dist a.pos b.pos ^ 2 := by
    rcases (sq_nonneg (dist a.pos b.pos)).eq_or_lt with h0 | h0
    · rw [← h0] at hasq
      nlinarith
    · exact h0
  apply hin
  rw [if_neg]
  swap
  · rw [not_or, hp.minsep]
    exact ⟨hrpos.ne', by norm_num⟩
  -- the centre is in the same pixel as the pair, hence in range
  have key : ∀ c u : ℝ, |u - c| ≤ a.size + b.size → -p.maxsep < u → u < p.maxsep →
      0 ≤ truncInt ((c + p.maxsep) / p.binsize) →
      linEdge (-p.maxsep) p.binsize (truncInt ((c + p.maxsep) / p.binsize)) < c →
      (∀ u, |u - c| ≤ a.size + b.size → InStrip p.maxsep p.binsize (truncInt ((c + p.maxsep) / p.binsize)) u) →
      |c| < p.maxsep := by
    intro c u hu hu1 hu2 q0 q1 q2
    obtain ⟨g1, g2⟩ := q2 u hu
    obtain ⟨g3, g4⟩ := q2 c (by simpa using hs0)
    set i := truncInt ((c + p.maxsep) / p.binsize)
    have q0' : (0:ℝ) ≤ i * p.binsize := mul_nonneg (by exact_mod_cast q0) hbs.le
    have hin' : i < n := by
      by_contra hge
      rw [not_lt] at hge
      have : (n:ℝ) * p.binsize ≤ i * p.binsize := mul_le_mul_of_nonneg_right (by exact_mod_cast hge) hbs.le
      simp only [linEdge] at g1
      have := hp.maxsep
      linarith
    have : ((i:ℝ) + 1) * p.binsize ≤ n * p.binsize := mul_le_mul_of_nonneg_right (by exact_mod_cast hin') hbs.le
    have hm := hp.maxsep
    simp only [linEdge] at q1 g4
    push_cast at g4
    exact abs_lt.2 ⟨by linarith, by linarith⟩
  rw [max_lt_iff, abs_sub_comm, abs_sub_comm (a.pos 1)]
  exact ⟨key _ _ c0 r1' r2 i0 i1 i2, key _ _ c1 r3' r4 j0 j1 j2⟩

theorem pairsAtRev_eq_filter {P : Type} (es : List (Emit P)) (k : ℤ) (inBin : Obj P × Obj P → Prop)
    (hin : ∀ e ∈ es, ∀ q : Obj P × Obj P, q.1 ∈ e.c1.objs → q.2 ∈ e.c2.objs → q ∈ pairsOf es →
      (inBin q ↔ e.k2 = some k)) :
    pairsAtRev es k = (pairsOf es).filter inBin := by
  induction es with
  | nil => simp [pairsAtRev]
  | cons e es ih =>
    have hc : pairsOf (e :: es) = e.pairs + pairsOf es := by simp [pairsOf]
    rw [pairsAtRev_cons, ih (fun e he q h1 h2 h3 => hin e (by simp [he]) q h1 h2 (by
      rw [hc]; exact Multiset.mem_add.2 (Or.inr h3)))]
    rw [hc, Multiset.filter_add]
    congr 1
    have hq : ∀ q ∈ e.pairs, (inBin q ↔ e.k2 = some k) := by
      intro q hq
      have := (mem_crossPairs _ _ _).1 hq
      exact hin e (by simp) q this.1 this.2 (by rw [hc]; exact Multiset.mem_add.2 (Or.inl hq))
    split
    · rename_i h
      symm
      rw [Multiset.filter_eq_self]
      intro q h'
      exact (hq q h').2 h
    · rename_i h
      symm
      rw [Multiset.filter_eq_nil]
      intro q h' hb
      exact h ((hq q h').1 hb)

/-- A sum over the ordered pairs, from sums over the unordered pairs of any order of the rows. -/
theorem orderedPairs_sum {α : Type} {a b : List α} (h : a.Perm b) (A : α × α → Prop) (F : α × α → ℝ)
    (hF : ∀ x y, F (x, y) = F (y, x)) :
    (((autoPairs a).filter A).map F).sum + (((autoPairs a).filter (fun q => A q.swap)).map F).sum
      = (((orderedPairs b).filter A).map F).sum := by
  rw [sum_filter_map, sum_filter_map, sum_filter_map, ← Multiset.sum_map_add]
  unfold orderedPairs
  rw [Multiset.map_add, Multiset.sum_add, Multiset.map_map, ← Multiset.sum_map_add]
  rw [autoPairs_perm_sum h]
  · congr 1
    apply Multiset.map_congr rfl
    intro q _
    simp only [Function.comp]
    have : F q.swap = F q := hF _ _
    rw [this]
  · intro x y
    simp only [Prod.swap_prod_mk]
    rw [hF x y, add_comm]

/-- Sums for a run in which the pairs in `all` are counted in both directions, up to zero-weight pairs. -/
theorem sums_of_exact_rev {P : Type} {es : List (Emit P)} (hs : ∀ e ∈ es, e.c1.SumsOK ∧ e.c2.SumsOK) {k : ℤ}
    {A : Obj P × Obj P → Prop} {a l : List (Obj P)} (hperm : a.Perm l) {D D' : Multiset (Obj P × Obj P)}
    (h : pairsAt es k + D = (autoPairs a).filter A)
    (h' : pairsAtRev es k + D' = (autoPairs a).filter (fun q => A q.swap))
    (hD : ∀ q ∈ D, ZeroPair q) (hD' : ∀ q ∈ D', ZeroPair q) :
    (accumulate Acc.zero es).weight k = bruteW ((orderedPairs l).filter A) ∧
    (accumulate Acc.zero es).kk k = bruteKK ((orderedPairs l).filter A) ∧
    ((∀ o ∈ l, 0 < o.w) → (accumulate Acc.zero es).npairs k = bruteN ((orderedPairs l).filter A)) := by
  obtain ⟨e1, e2, e3⟩ := accumulate_eq_rev Acc.zero es hs k
  rw [e1, e2, e3]
  simp only [Acc.zero, zero_add]
  refine ⟨?_, ?_, ?_⟩
  · unfold bruteW
    rw [sum_add_zero_of h _ (fun q hq => (hD q hq).w), sum_add_zero_of h' _ (fun q hq => (hD' q hq).w)]
    exact orderedPairs_sum hperm A _ (fun x y => mul_comm _ _)
  · unfold bruteKK
    rw [sum_add_zero_of h _ (fun q hq => (hD q hq).kk), sum_add_zero_of h' _ (fun q hq => (hD' q hq).kk)]
    exact orderedPairs_sum hperm A _ (fun x y => mul_comm _ _)
  · intro hpos
    have noz : ∀ q ∈ autoPairs a, ¬ ZeroPair q := by
      intro q hq
      have := mem_autoPairs _ _ hq
      exact not_zeroPair (hpos _ (hperm.mem_iff.1 this.1)) (hpos _ (hperm.mem_iff.1 this.2))
    have z1 : D = 0 := Multiset.eq_zero_of_forall_notMem (fun q hq => noz q
      (Multiset.mem_of_mem_filter (by rw [← h]; exact Multiset.mem_add.2 (Or.inr hq))) (hD q hq))
    have z2 : D' = 0 := Multiset.eq_zero_of_forall_notMem (fun q hq => noz q
      (Multiset.mem_of_mem_filter (by rw [← h']; exact Multiset.mem_add.2 (Or.inr hq))) (hD' q hq))
    rw [z1, add_zero] at h
    rw [z2, add_zero] at h'
    rw [h, h']
    simp only [bruteN, card_eq_sum_one]
    exact orderedPairs_sum hperm A _ (fun x y => rfl)

end TreeCorr
