import Verif.Proofs.BruteMode
import Verif.Proofs.LogCounts
import Verif.Props.LogCounts
import Verif.Props.LinearCounts
import Verif.Props.TwoD

/-!
C45: `brute = True` goes to the leaves, so every pair is put into its own bin whatever `bin_slop` and `angle_slop` are; `brute = 1` and
`brute = 2` do so for one of the two catalogues.
-/

namespace TreeCorr
open Classical
variable {P : Type}

/-- Logarithmic bins; nothing is said about the slop. -/
structure LogGrid (p : Params) : Prop where
  minsep : 0 < p.minsep
  binsize : 0 < p.binsize
  nbins : 0 ≤ p.nbins
  maxsep : p.maxsep = p.minsep * Real.exp (p.nbins * p.binsize)

/-- Linear bins with any slop. -/
structure LinGrid (p : Params) : Prop where
  minsep : 0 ≤ p.minsep
  binsize : 0 < p.binsize
  nbins : 0 ≤ p.nbins
  maxsep : p.maxsep = p.minsep + p.nbins * p.binsize
  b : 0 ≤ p.b

/-- `n`×`n` pixels with any slop and any `min_sep`. -/
structure TwoDGrid (p : Params) (n : ℤ) : Prop where
  minsep : 0 ≤ p.minsep
  binsize : 0 < p.binsize
  npos : 0 < n
  maxsep : 2 * p.maxsep = n * p.binsize
  nbins : p.nbins = n ^ 2
  b : 0 ≤ p.b

/-- The separation of the pair is in pixel `k`, in the open square, and at least `min_sep`. -/
def InPixelFrom (p : Params) (n k : ℤ) (q : Obj Flat2 × Obj Flat2) : Prop :=
  InPixel p.maxsep p.binsize n k (q.2.pos - q.1.pos) ∧ p.minsep ≤ dist q.1.pos q.2.pos ∧
    |(q.2.pos - q.1.pos) 0| < p.maxsep ∧ |(q.2.pos - q.1.pos) 1| < p.maxsep

/-! ### Leaves -/

theorem LogGrid.noSlop {p : Params} (h : LogGrid p) : LogParams { p with a := 0, b := 0 } where
  minsep := h.minsep
  binsize := h.binsize
  nbins := h.nbins
  maxsep := h.maxsep
  b := le_rfl
  a := le_rfl
  half := Or.inl (by norm_num)

theorem LinGrid.noSlop {p : Params} (h : LinGrid p) : LinParams { p with a := 0, b := 0 } where
  minsep := h.minsep
  binsize := h.binsize
  nbins := h.nbins
  maxsep := h.maxsep
  b := le_rfl
  a := le_rfl

theorem TwoDGrid.noSlop {p : Params} {n : ℤ} (h : TwoDGrid p n) : TwoDParams { p with minsep := 0, b := 0 } n where
  minsep := rfl
  binsize := h.binsize
  npos := h.npos
  maxsep := h.maxsep
  nbins := h.nbins
  b := rfl

theorem log_leaf [PseudoMetricSpace P] (p : Params) (R : Bool) {a b : Cell P} (ha : a.IsLeaf) (hb : b.IsLeaf) :
    decide11 (logBin P) (plainMetric P) p R a b = decide11 (logBin P) (plainMetric P) { p with a := 0, b := 0 } R a b :=
  decide11_leaf _ R ha hb (by simp [logBin, logSingleBin]) (by simp [logBin, logSingleBin]) rfl rfl rfl rfl

theorem linear_leaf_single (p : Params) (hb : 0 ≤ p.b) (r : ℝ) : linearSingleBin (r ^ 2) 0 p = some {} := by
  unfold linearSingleBin
  rw [if_neg (by have : 0 ≤ p.a ^ 2 * r ^ 2 := by positivity
                 simp only [ne_eq, OfNat.ofNat_ne_zero, not_false_eq_true, zero_pow, gt_iff_lt, not_lt]; exact this), if_pos hb]

theorem linear_leaf [PseudoMetricSpace P] {p : Params} (hp : 0 ≤ p.b) (R : Bool) {a b : Cell P} (ha : a.IsLeaf)
    (hb : b.IsLeaf) :
    decide11 (linearBin P) (plainMetric P) p R a b =
      decide11 (linearBin P) (plainMetric P) { p with a := 0, b := 0 } R a b :=
  decide11_leaf _ R ha hb (linear_leaf_single p hp _) (linear_leaf_single _ le_rfl _) rfl rfl rfl rfl

theorem twoD_leaf_single (p : Params) (hb : 0 ≤ p.b) (r : ℝ) (p1 p2 : Flat2) : twoDSingleBin (r ^ 2) 0 p1 p2 p = some {} := by
  unfold twoDSingleBin
  rw [if_neg (by have : 0 ≤ p.a ^ 2 * r ^ 2 := by positivity
                 simp only [ne_eq, OfNat.ofNat_ne_zero, not_false_eq_true, zero_pow, gt_iff_lt, not_lt]; exact this), if_pos hb]

theorem leaf_stop [PseudoMetricSpace P] {B : BinHelper P} {p : Params} (R : Bool)
    (h : ∀ r p1 p2, B.singleBin (r ^ 2) 0 p1 p2 p = some {}) {a b : Cell P} (ha : a.IsLeaf) (hb : b.IsLeaf) (s1 s2 : Bool) :
    decide11 B (plainMetric P) p R a b ≠ .split s1 s2 := by
  rw [decide11_plain, ha.size, hb.size, add_zero, h]
  simp only
  split_ifs <;> exact fun h => by cases h

theorem log_leafExact [PseudoMetricSpace P] {p : Params} (hp : LogGrid p) (R : Bool) :
    LeafExact (logBinD P) p R (fun k q => InLogBin p.minsep p.binsize p.nbins k (dist q.1.pos q.2.pos)) where
  sound := logBinD_sound
  dir := by
    intro a b e la lb ba bb h q h1 h2 k
    exact log_direct_iff hp.noSlop rfl ba bb ((log_leaf p R la lb).symm.trans h) h1 h2 k
  drop := by
    intro a b la lb ba bb wa wb h q h1 h2 k
    exact log_drop_not hp.noSlop rfl ba bb wa wb ((log_leaf p R la lb).symm.trans h) h1 h2 k
  stop := fun a b la lb => leaf_stop R (by intro r _ _; simp [logBinD, logBin, logSingleBin]) la lb

theorem LinGrid.range {p : Params} (hp : LinGrid p) {k : ℤ} {d : ℝ}
    (h : InLinBin p.minsep p.binsize p.nbins k d) : p.minsep ≤ d ∧ d < p.maxsep := by
  obtain ⟨k1, k2, k3, k4⟩ := h
  simp only [linEdge] at k3 k4
  have hb := hp.binsize
  have i1 : (0:ℝ) ≤ k := by exact_mod_cast k1
  have i2 : (k:ℝ) + 1 ≤ p.nbins := by exact_mod_cast k2
  have m1 := mul_nonneg i1 hb.le
  have m2 := mul_le_mul_of_nonneg_right i2 hb.le
  push_cast at k4
  rw [hp.maxsep]
  constructor <;> linarith

theorem linear_leafExact [PseudoMetricSpace P] {p : Params} (hp : LinGrid p) (R : Bool) :
    LeafExact (linearBinD P) p R (fun k q => InLinBin p.minsep p.binsize p.nbins k (dist q.1.pos q.2.pos)) where
  sound := linearBinD_sound
  dir := by
    intro a b e la lb ba bb h q h1 h2 k
    obtain ⟨k0, kn, d', hd, lo, _, hi⟩ := linear_direct hp.noSlop le_rfl ba bb ((linear_leaf hp.b R la lb).symm.trans h) h1 h2
    have e0 : d' = dist q.1.pos q.2.pos := by
      have : dist q.1.pos q.2.pos - d' = 0 := by simpa using hd
      linarith
    have hi := hi rfl (by rw [la.size, lb.size, add_zero])
    rw [e0] at lo hi
    simp only [sub_zero] at lo hi
    constructor
    · rintro ⟨_, _, k3, k4⟩
      simp only [linEdge] at k3 k4
      push_cast at k4
      exact logBin_unique hp.binsize lo hi k3 k4
    · rintro rfl
      exact ⟨k0, kn, lo, by simpa [linEdge] using hi⟩
  drop := by
    intro a b la lb ba bb wa wb h q h1 h2 k hin
    have hr := LinGrid.range hp hin
    obtain ⟨d', hd, hc⟩ := linear_drop hp.noSlop le_rfl ba bb wa wb ((linear_leaf hp.b R la lb).symm.trans h) h1 h2
    have e0 : d' = dist q.1.pos q.2.pos := by
      have : dist q.1.pos q.2.pos - d' = 0 := by simpa using hd
      linarith
    rw [e0] at hc
    simp only [add_zero, sub_zero] at hc
    rcases hc with h | h <;> linarith
  stop := fun a b la lb => leaf_stop R (fun r _ _ => linear_leaf_single p hp.b r) la lb

/-- What is done with two leaves in TwoD. -/
theorem twoD_leaf {p : Params} {n : ℤ} (hp : TwoDGrid p n) (R : Bool) {a b : Cell Flat2} (la : a.IsLeaf) (lb : b.IsLeaf)
    (ba : a.Bounded 0) (bb : b.Bounded 0) {q : Obj Flat2 × Obj Flat2} (h1 : q.1 ∈ a.objs) (h2 : q.2 ∈ b.objs) :
    (∀ e, decide11 twoDBin (plainMetric Flat2) p R a b = .direct e →
      InPixelFrom p n e.k q ∧ (R = true → ∃ k2, e.k2 = some k2 ∧ InPixelFrom p n k2 q.swap)) ∧
    (a.w ≠ 0 → b.w ≠ 0 → decide11 twoDBin (plainMetric Flat2) p R a b = .drop → ∀ k, ¬ InPixelFrom p n k q) := by
  have e1 := pos_eq_of_size ba la.size h1
  have e2 := pos_eq_of_size bb lb.size h2
  have hmx : 0 < p.maxsep := hp.noSlop.maxsep_pos
  have r0 : 0 ≤ dist a.pos b.pos := dist_nonneg
  simp only [InPixelFrom, Prod.fst_swap, Prod.snd_swap, e1, e2]
  rw [decide11_plain, la.size, lb.size, add_zero]
  have hs : twoDBin.singleBin (dist a.pos b.pos ^ 2) 0 a.pos b.pos p = some {} := twoD_leaf_single p hp.b _ _ _
  rw [hs]
  simp only
  constructor
  · intro e h
    split_ifs at h with g1 g2 g3 g4
    injection h with h
    simp only [twoDBin] at g4
    split_ifs at g4 with g5
    rw [not_or] at g5
    obtain ⟨n0, n1⟩ := g5
    obtain ⟨m0, m1⟩ := max_lt_iff.1 g4
    have hd : p.minsep ≤ dist a.pos b.pos := le_of_sq_le_sq (not_lt.1 n1) r0
    have hne : b.pos - a.pos ≠ 0 := by
      intro h0
      apply n0
      rw [sub_eq_zero.1 h0, dist_self]
      norm_num
    have m0' : |b.pos 0 - a.pos 0| < p.maxsep := by rwa [abs_sub_comm]
    have m1' : |b.pos 1 - a.pos 1| < p.maxsep := by rwa [abs_sub_comm]
    obtain ⟨x1, x2, x3⟩ := binK_inPixel hp.noSlop m0' m1' hne
    obtain ⟨y1, y2, y3⟩ := binK_inPixel hp.noSlop m0 m1 (by rw [← neg_sub]; exact neg_ne_zero.2 hne)
    have ek : e.k = twoDBinK a.pos b.pos p := by
      rw [← h]
      simp only [directProcess11, twoDBin]
      norm_num
      intro hh
      exact absurd hh (ne_of_lt x3)
    refine ⟨⟨by rw [ek]; exact x1, hd, by simpa using m0', by simpa using m1'⟩, ?_⟩
    rintro rfl
    refine ⟨twoDBinK b.pos a.pos p, ?_, y1, by rwa [dist_comm], by simpa using m0, by simpa using m1⟩
    rw [← h]
    simp only [directProcess11, twoDBin]
    norm_num
    intro hh
    exact absurd hh (ne_of_lt y3)
  · intro wa wb h k ⟨hpix, hd, m0, m1⟩
    rw [if_neg (by tauto)] at h
    have m0' : |a.pos 0 - b.pos 0| < p.maxsep := by rw [abs_sub_comm]; simpa using m0
    have m1' : |a.pos 1 - b.pos 1| < p.maxsep := by rw [abs_sub_comm]; simpa using m1
    have hsq : ¬ dist a.pos b.pos ^ 2 < p.minsep ^ 2 := by
      rw [not_lt]
      exact pow_le_pow_left₀ hp.minsep hd 2
    have hlt := flat_dist_le a.pos b.pos hmx.le m0' m1'
    have hin : twoDBin.inRange (dist a.pos b.pos ^ 2) a.pos b.pos p := by
      simp only [twoDBin]
      rw [if_neg]
      · exact max_lt m0' m1'
      · rw [not_or]
        refine ⟨?_, hsq⟩
        intro h0
        have : dist a.pos b.pos = 0 := by simpa using h0
        exact hpix.1 (by rw [dist_eq_zero.1 this, sub_self])
    rw [if_neg (fun h => hsq h.1), if_neg (by
      rintro ⟨-, h⟩
      rw [add_zero] at h
      have := le_of_sq_le_sq h r0
      linarith), if_pos hin] at h
    cases h

theorem InPixelFrom.unique {p : Params} {n k k' : ℤ} (hp : TwoDGrid p n) {q : Obj Flat2 × Obj Flat2}
    (h : InPixelFrom p n k q) (h' : InPixelFrom p n k' q) : k = k' := pixel_unique hp.binsize h.1 h'.1

theorem twoD_leafExact {p : Params} {n : ℤ} (hp : TwoDGrid p n) (R : Bool) :
    LeafExact twoDBinD p R (InPixelFrom p n) where
  sound := twoDBinD_sound
  dir := by
    intro a b e la lb ba bb h q h1 h2 k
    have := ((twoD_leaf hp R la lb ba bb h1 h2).1 e h).1
    constructor
    · intro hk; exact this.unique hp hk
    · rintro rfl; exact this
  drop := by
    intro a b la lb ba bb wa wb h q h1 h2 k
    exact (twoD_leaf hp R la lb ba bb h1 h2).2 wa wb h k
  stop := fun a b la lb => leaf_stop R (fun r _ _ => twoD_leaf_single p hp.b r _ _) la lb

/-! ### `brute = True` -/

/-- **C45, cross, Log.** With `brute = True` every bin holds exactly the pairs whose separation lies in it, whatever `bin_slop`, `angle_slop`
and `min_size` are. -/
theorem cross_log_brute [PseudoMetricSpace P] (A1 A2 : StdAlg P) (g : Geom P) (hg : g.Dominates) (fp1 fp2 : FieldParams)
    {p : Params} (hp : LogGrid p) (l1 l2 : List (Obj P)) (hw1 : ∀ o ∈ l1, o.Valid) (hw2 : ∀ o ∈ l2, o.Valid) :
    ∃ es, processCrossD (logBinD P) p true true (buildFieldD A1 g fp1 true l1) (buildFieldD A2 g fp2 true l2) = some es ∧
      ∀ k, let prs := pairsIn (crossPairs l1 l2) (InLogBin p.minsep p.binsize p.nbins k)
        (accumulate Acc.zero es).weight k = bruteW prs ∧
        (accumulate Acc.zero es).nk k = bruteNK prs ∧
        (accumulate Acc.zero es).kk k = bruteKK prs ∧
        ((∀ o ∈ l1, 0 < o.w) → (∀ o ∈ l2, 0 < o.w) →
          (accumulate Acc.zero es).npairs k = bruteN prs) :=
  crossD_exact_of A1 A2 g hg fp1 fp2 l1 l2 (log_leafExact hp false) (by
    intro f1 f2 h q hx hy k hin
    have := InLogBin.range hp.noSlop hin
    rcases sep_far h hx hy with h | h
    · exact absurd this.1 (not_le.2 h)
    · exact absurd this.2 (not_lt.2 h)) hw1 hw2

/-- **C45, auto, Log.** The same for the unordered pairs of distinct rows; pairs separated by exactly `min_sep` are counted too (compare
`auto_min_sep_dropped`). -/
theorem auto_log_brute [PseudoMetricSpace P] (A : StdAlg P) (g : Geom P) (hg : g.Dominates) (fp : FieldParams)
    {p : Params} (hp : LogGrid p) (l : List (Obj P)) (hw : ∀ o ∈ l, o.Valid) :
    ∃ es, processAutoD (decide11D (logBinD P) p false true true) p true (buildFieldD A g fp true l).cells = some es ∧
      ∀ k, let prs := pairsIn (autoPairs l) (InLogBin p.minsep p.binsize p.nbins k)
        (accumulate Acc.zero es).weight k = bruteW prs ∧
        (accumulate Acc.zero es).kk k = bruteKK prs ∧
        ((∀ o ∈ l, 0 < o.w) → (accumulate Acc.zero es).npairs k = bruteN prs) :=
  autoD_exact_of A g hg fp hp.minsep.le l (log_leafExact hp false) (by
    intro q _ _ k hin
    exact absurd (InLogBin.range hp.noSlop hin).1 (not_le.2 hp.minsep)) hw

/-- **C45, cross, Linear.** No separation is excluded (compare `linear_edge_misplaced`). -/
theorem cross_linear_brute [PseudoMetricSpace P] (A1 A2 : StdAlg P) (g : Geom P) (hg : g.Dominates) (fp1 fp2 : FieldParams)
    {p : Params} (hp : LinGrid p) (l1 l2 : List (Obj P)) (hw1 : ∀ o ∈ l1, o.Valid) (hw2 : ∀ o ∈ l2, o.Valid) :
    ∃ es, processCrossD (linearBinD P) p true true (buildFieldD A1 g fp1 true l1) (buildFieldD A2 g fp2 true l2) = some es ∧
      ∀ k, let prs := pairsIn (crossPairs l1 l2) (InLinBin p.minsep p.binsize p.nbins k)
        (accumulate Acc.zero es).weight k = bruteW prs ∧
        (accumulate Acc.zero es).nk k = bruteNK prs ∧
        (accumulate Acc.zero es).kk k = bruteKK prs ∧
        ((∀ o ∈ l1, 0 < o.w) → (∀ o ∈ l2, 0 < o.w) →
          (accumulate Acc.zero es).npairs k = bruteN prs) :=
  crossD_exact_of A1 A2 g hg fp1 fp2 l1 l2 (linear_leafExact hp false) (by
    intro f1 f2 h q hx hy k hin
    have := LinGrid.range hp hin
    rcases sep_far (show fieldsTooFar (logBin P) (plainMetric P) p f1 f2 from h) hx hy with h | h
    · exact absurd this.1 (not_le.2 h)
    · exact absurd this.2 (not_lt.2 h)) hw1 hw2

/-- **C45, auto, Linear.** When `min_sep = 0` no two rows may be at the same position (see `linear_brute_coincident`). -/
theorem auto_linear_brute_partial [PseudoMetricSpace P] (A : StdAlg P) (g : Geom P) (hg : g.Dominates) (fp : FieldParams)
    {p : Params} (hp : LinGrid p) (l : List (Obj P)) (hw : ∀ o ∈ l, o.Valid)
    (hne : p.minsep = 0 → ∀ q ∈ autoPairs l, dist q.1.pos q.2.pos ≠ 0) :
    ∃ es, processAutoD (decide11D (linearBinD P) p false true true) p true (buildFieldD A g fp true l).cells = some es ∧
      ∀ k, let prs := pairsIn (autoPairs l) (InLinBin p.minsep p.binsize p.nbins k)
        (accumulate Acc.zero es).weight k = bruteW prs ∧
        (accumulate Acc.zero es).kk k = bruteKK prs ∧
        ((∀ o ∈ l, 0 < o.w) → (accumulate Acc.zero es).npairs k = bruteN prs) :=
  autoD_exact_of A g hg fp hp.minsep l (linear_leafExact hp false) (by
    intro q hq h0 k hin
    have := (LinGrid.range hp hin).1
    exact hne (le_antisymm this hp.minsep) q hq h0) hw

/-- **C45, cross, TwoD.** Every pixel holds exactly the pairs whose separation vector lies in it, in the open square and not shorter than
`min_sep`, for any `min_sep` and any slop. -/
theorem cross_twoD_brute (A1 A2 : StdAlg Flat2) (fp1 fp2 : FieldParams) {p : Params} {n : ℤ} (hp : TwoDGrid p n)
    (l1 l2 : List (Obj Flat2)) (hw1 : ∀ o ∈ l1, o.Valid) (hw2 : ∀ o ∈ l2, o.Valid) :
    ∃ es, processCrossD twoDBinD p true true (buildFieldD A1 (euclidGeom 2) fp1 true l1)
        (buildFieldD A2 (euclidGeom 2) fp2 true l2) = some es ∧
      ∀ k, let prs := (crossPairs l1 l2).filter (InPixelFrom p n k)
        (accumulate Acc.zero es).weight k = bruteW prs ∧
        (accumulate Acc.zero es).nk k = bruteNK prs ∧
        (accumulate Acc.zero es).kk k = bruteKK prs ∧
        ((∀ o ∈ l1, 0 < o.w) → (∀ o ∈ l2, 0 < o.w) →
          (accumulate Acc.zero es).npairs k = bruteN prs) :=
  crossD_exact_of A1 A2 _ (euclidGeom_dominates 2) fp1 fp2 l1 l2 (twoD_leafExact hp false) (by
    intro f1 f2 h q hx hy k ⟨_, hd, m0, m1⟩
    have hn := dist_near hx hy
    have hs0 : 0 ≤ f1.size + f2.size := add_nonneg (dist_nonneg.trans hx) (dist_nonneg.trans hy)
    simp only [fieldsTooFar, plainMetric, false_or, and_true] at h
    rcases h with h | h
    · obtain ⟨_, h2, h3⟩ := h
      have : dist f1.center f2.center < p.minsep - (f1.size + f2.size) := lt_of_pow_lt_pow_left₀ 2 (by linarith) h3
      have := abs_le.1 hn
      linarith
    · have h3 := tooLarge2_sound dist_nonneg hn h.2
      have h4 := flat_dist_le q.1.pos q.2.pos hp.noSlop.maxsep_pos.le
        (by rw [abs_sub_comm]; simpa using m0) (by rw [abs_sub_comm]; simpa using m1)
      exact absurd h3 (not_le.2 h4)) hw1 hw2

/-- **C45, auto, TwoD.** The same for the ordered pairs of distinct rows; vectors on grid lines are allowed (compare
`twoD_grid_line_misplaced`). -/
theorem auto_twoD_brute (A : StdAlg Flat2) (fp : FieldParams) {p : Params} {n : ℤ} (hp : TwoDGrid p n)
    (l : List (Obj Flat2)) (hw : ∀ o ∈ l, o.Valid) :
    ∃ es, processAutoD (decide11D twoDBinD p true true true) p true (buildFieldD A (euclidGeom 2) fp true l).cells = some es ∧
      ∀ k, let prs := (orderedPairs l).filter (InPixelFrom p n k)
        (accumulate Acc.zero es).weight k = bruteW prs ∧
        (accumulate Acc.zero es).kk k = bruteKK prs ∧
        ((∀ o ∈ l, 0 < o.w) → (accumulate Acc.zero es).npairs k = bruteN prs) := by
  have hx := twoD_leafExact hp true
  obtain ⟨es, hes, hc⟩ := autoD_covers A (euclidGeom 2) (euclidGeom_dominates 2) fp hp.minsep l hx hw
  refine ⟨es, hes, ?_⟩
  intro k
  have hperm : (objsOf (buildFieldD A (euclidGeom 2) fp true l).cells).Perm l := buildField_objs A _ _ l
  have hsum := hc.sumsOK (decide11D_honest hx.sound _ _ _ _) (fun _ h => h.1.1.2)
  obtain ⟨D, D2, hD, he, hd, hd2⟩ := hc
  have dec := brute_exactDecide hx l l
  have swap_in : ∀ {k} {q : Obj Flat2 × Obj Flat2}, InPixelFrom p n k q.swap → ∃ k', InPixelFrom p n k' q := by
    rintro k q ⟨h1, h2, h3, h4⟩
    simp only [Prod.fst_swap, Prod.snd_swap] at h1 h2 h3 h4
    have h3' : |q.2.pos 0 - q.1.pos 0| < p.maxsep := by rw [abs_sub_comm]; simpa using h3
    have h4' : |q.2.pos 1 - q.1.pos 1| < p.maxsep := by rw [abs_sub_comm]; simpa using h4
    obtain ⟨x1, _⟩ := binK_inPixel hp.noSlop h3' h4' (by rw [← neg_sub]; exact neg_ne_zero.2 h1.1)
    exact ⟨_, x1, by rwa [dist_comm], by simpa using h3', by simpa using h4'⟩
  have drops : ∀ q : Obj Flat2 × Obj Flat2, q ∈ D → (InPixelFrom p n k q ∨ InPixelFrom p n k q.swap) → ZeroPair q := by
    intro q hq hor
    obtain ⟨a, b, qa, qb, hab, q1, q2⟩ := hd q hq
    rcases hor with h | h
    · exact dec.drop a b qa qb hab q q1 q2 k h
    · obtain ⟨k', h⟩ := swap_in h
      exact dec.drop a b qa qb hab q q1 q2 k' h
  have smalls : ∀ q : Obj Flat2 × Obj Flat2, q ∈ D2 → (InPixelFrom p n k q ∨ InPixelFrom p n k q.swap) → ZeroPair q := by
    intro q hq hor
    obtain ⟨c, qc, hcase, q1, q2⟩ := hd2 q hq
    rcases hcase with h | h
    · exact Or.inl (qc.1.zero h q1)
    · exfalso
      have hs : c.size = 0 := le_antisymm (by simpa using h) qc.1.1.1.size_nonneg
      have e1 := pos_eq_of_size qc.1.1.1 hs q1
      have e2 := pos_eq_of_size qc.1.1.1 hs q2
      rcases hor with h | h
      · exact h.1.1 (by rw [e1, e2, sub_self])
      · exact h.1.1 (by simp [e1, e2])
  have fwd : pairsAt es k = (pairsOf es).filter (InPixelFrom p n k) := by
    apply pairsAt_eq_filter es k (InPixelFrom p n)
    intro e hmem q h1 h2
    obtain ⟨a, b, qa, qb, hab⟩ := he e hmem
    obtain ⟨e1, e2⟩ := dec.honest a b e hab
    rw [e1] at h1
    rw [e2] at h2
    exact dec.dir a b e qa qb hab q h1 h2 k
  have rev : pairsAtRev es k = (pairsOf es).filter (fun q => InPixelFrom p n k q.swap) := by
    apply pairsAtRev_eq_filter
    intro e hmem q h1 h2 _
    obtain ⟨a, b, qa, qb, hab⟩ := he e hmem
    obtain ⟨e1, e2⟩ := dec.honest a b e hab
    rw [e1] at h1
    rw [e2] at h2
    obtain ⟨la, lb, hab'⟩ := decide11D_direct hx.sound hab
    obtain ⟨k2, hk2, hp2⟩ := ((twoD_leaf hp true (la rfl) (lb rfl) qa.1.1.1 qb.1.1.1 h1 h2).1 e hab').2 rfl
    rw [hk2]
    constructor
    · intro hk; rw [hp2.unique hp hk]
    · intro hk
      injection hk with hk
      rw [hk] at hp2
      exact hp2
  have hsplit : ∀ B : Obj Flat2 × Obj Flat2 → Prop, (pairsOf es).filter B + (D.filter B + D2.filter B)
      = (autoPairs (objsOf (buildFieldD A (euclidGeom 2) fp true l).cells)).filter B := by
    intro B
    rw [← hD, Multiset.filter_add, Multiset.filter_add, add_assoc]
  apply sums_of_exact_rev hsum hperm (A := InPixelFrom p n k) (D := D.filter (InPixelFrom p n k) + D2.filter (InPixelFrom p n k))
    (D' := D.filter (fun q => InPixelFrom p n k q.swap) + D2.filter (fun q => InPixelFrom p n k q.swap))
  · rw [fwd]; exact hsplit _
  · rw [rev]; exact hsplit (fun q => InPixelFrom p n k q.swap)
  · intro q hq
    rcases Multiset.mem_add.1 hq with hq | hq
    · rw [Multiset.mem_filter] at hq; exact drops q hq.1 (Or.inl hq.2)
    · rw [Multiset.mem_filter] at hq; exact smalls q hq.1 (Or.inl hq.2)
  · intro q hq
    rcases Multiset.mem_add.1 hq with hq | hq
    · rw [Multiset.mem_filter] at hq; exact drops q hq.1 (Or.inr hq.2)
    · rw [Multiset.mem_filter] at hq; exact smalls q hq.1 (Or.inr hq.2)

/-! ### `brute = 1` and `brute = 2` -/

/-- **C45, no field.** With `brute = False` the decision for a pair of cells is the usual one, for every kind of bins. -/
theorem brute_off [PseudoMetricSpace P] (p : Params) (R : Bool) (c1 c2 : Cell P) :
    decide11D (logBinD P) p R false false c1 c2 = decide11 (logBin P) (plainMetric P) p R c1 c2 ∧
    decide11D (linearBinD P) p R false false c1 c2 = decide11 (linearBin P) (plainMetric P) p R c1 c2 :=
  ⟨decide11D_fin logBinD_sound p R (sizeD_false c1) (sizeD_false c2),
    decide11D_fin linearBinD_sound p R (sizeD_false c1) (sizeD_false c2)⟩

/-- The same for TwoD. -/
theorem brute_off_twoD (p : Params) (R : Bool) (c1 c2 : Cell Flat2) :
    decide11D twoDBinD p R false false c1 c2 = decide11 twoDBin (plainMetric Flat2) p R c1 c2 :=
  decide11D_fin twoDBinD_sound p R (sizeD_false c1) (sizeD_false c2)

/-- **C45, one field.** Whatever is counted, the cell of a field with `brute` is a leaf, and the pair is counted as it would be without
`brute`. -/
theorem brute_one_leaf [PseudoMetricSpace P] {B : BinHelperD P} (hB : B.Sound) {p : Params} {b1 b2 : Bool} {f1 f2 : Field P}
    {es : List (Emit P)} (h : processCrossD B p b1 b2 f1 f2 = some es) :
    ∀ e ∈ es, (b1 = true → e.c1.IsLeaf) ∧ (b2 = true → e.c2.IsLeaf) ∧
      decide11 B.base (plainMetric P) p false e.c1 e.c2 = .direct e := by
  intro e he
  rw [processCrossD] at h
  split_ifs at h
  · injection h with h
    rw [← h] at he
    cases he
  · obtain ⟨_, _, hdir, _⟩ := crossLoop_covers _ (decide11D_honest hB p false b1 b2) (fun _ => True) (fun _ => True)
      (fun _ _ _ _ _ => ⟨trivial, trivial⟩) (fun _ _ _ _ _ => ⟨trivial, trivial⟩) _ _
      (fun _ _ => trivial) (fun _ _ => trivial) es h
    obtain ⟨a, b, _, _, hab⟩ := hdir e he
    obtain ⟨e1, e2⟩ := decide11D_honest hB p false b1 b2 a b e hab
    rw [e1, e2]
    exact decide11D_direct hB hab

/-- **C45, one field.** The rows of the cell of a field built with `brute` are all at the position of that cell: `brute = 1`. -/
theorem brute_first_points [PseudoMetricSpace P] {B : BinHelperD P} (hB : B.Sound) (A : StdAlg P) (g : Geom P) (hg : g.Dominates)
    (fp : FieldParams) {p : Params} {b2 : Bool} {l : List (Obj P)} (hw : ∀ o ∈ l, o.Valid) {f2 : Field P} {es : List (Emit P)}
    (h : processCrossD B p true b2 (buildFieldD A g fp true l) f2 = some es) :
    ∀ e ∈ es, ∀ o ∈ e.c1.objs, o ∈ l ∧ dist o.pos e.c1.pos = 0 := by
  intro e he o ho
  have hleaf := (brute_one_leaf hB h e he).1 rfl
  rw [processCrossD] at h
  split_ifs at h
  · injection h with h
    rw [← h] at he
    cases he
  · obtain ⟨_, _, hdir, _⟩ := crossLoop_covers _ (decide11D_honest hB p false true b2) (CellOf l) (fun _ => True)
      (hered_cellOf l) (fun _ _ _ _ _ => ⟨trivial, trivial⟩) _ _
      (by simpa [buildFieldD] using buildField_cellOf A g hg { fp with minsize := 0 } rfl l hw) (fun _ _ => trivial) es h
    obtain ⟨a, b, qa, _, hab⟩ := hdir e he
    obtain ⟨e1, _⟩ := decide11D_honest hB p false true b2 a b e hab
    rw [e1] at ho hleaf ⊢
    refine ⟨qa.2 o ho, ?_⟩
    have hb : a.Bounded 0 := qa.1.1.1
    have := hb.dist_le le_rfl ho
    rw [hleaf.size, add_zero] at this
    exact le_antisymm this dist_nonneg

/-- `brute = 2` -/
theorem brute_second_points [PseudoMetricSpace P] {B : BinHelperD P} (hB : B.Sound) (A : StdAlg P) (g : Geom P) (hg : g.Dominates)
    (fp : FieldParams) {p : Params} {b1 : Bool} {l : List (Obj P)} (hw : ∀ o ∈ l, o.Valid) {f1 : Field P} {es : List (Emit P)}
    (h : processCrossD B p b1 true f1 (buildFieldD A g fp true l) = some es) :
    ∀ e ∈ es, ∀ o ∈ e.c2.objs, o ∈ l ∧ dist o.pos e.c2.pos = 0 := by
  intro e he o ho
  have hleaf := (brute_one_leaf hB h e he).2.1 rfl
  rw [processCrossD] at h
  split_ifs at h
  · injection h with h
    rw [← h] at he
    cases he
  · obtain ⟨_, _, hdir, _⟩ := crossLoop_covers _ (decide11D_honest hB p false b1 true) (fun _ => True) (CellOf l)
      (fun _ _ _ _ _ => ⟨trivial, trivial⟩) (hered_cellOf l) _ _
      (fun _ _ => trivial) (by simpa [buildFieldD] using buildField_cellOf A g hg { fp with minsize := 0 } rfl l hw) es h
    obtain ⟨a, b, _, qb, hab⟩ := hdir e he
    obtain ⟨_, e2⟩ := decide11D_honest hB p false b1 true a b e hab
    rw [e2] at ho hleaf ⊢
    refine ⟨qb.2 o ho, ?_⟩
    have hb : b.Bounded 0 := qb.1.1.1
    have := hb.dist_le le_rfl ho
    rw [hleaf.size, add_zero] at this
    exact le_antisymm this dist_nonneg

/-- **C45, one field, `bin_slop = 0`.** With any combination of the flags the counts are the exact ones. -/
theorem cross_log_brute_any [PseudoMetricSpace P] (A1 A2 : StdAlg P) (g : Geom P) (hg : g.Dominates) (fp1 fp2 : FieldParams)
    {b1 b2 : Bool} (hf1 : b1 = true ∨ fp1.minsize = 0) (hf2 : b2 = true ∨ fp2.minsize = 0)
    {p : Params} (hp : LogParams p) (hb : p.b = 0) (l1 l2 : List (Obj P)) (hw1 : ∀ o ∈ l1, o.Valid) (hw2 : ∀ o ∈ l2, o.Valid) :
    ∃ es, processCrossD (logBinD P) p b1 b2 (buildFieldD A1 g fp1 b1 l1) (buildFieldD A2 g fp2 b2 l2) = some es ∧
      ∀ k, let prs := pairsIn (crossPairs l1 l2) (InLogBin p.minsep p.binsize p.nbins k)
        (accumulate Acc.zero es).weight k = bruteW prs ∧
        (accumulate Acc.zero es).nk k = bruteNK prs ∧
        (accumulate Acc.zero es).kk k = bruteKK prs ∧
        ((∀ o ∈ l1, 0 < o.w) → (∀ o ∈ l2, 0 < o.w) →
          (accumulate Acc.zero es).npairs k = bruteN prs) :=
  crossD_exact_dec A1 A2 g hg fp1 fp2 l1 l2 logBinD_sound hf1 hf2
    (mixed_exactDecide logBinD_sound (log_exactDecide hp hb false l1 l2) b1 b2) (by
    intro f1 f2 h q hx hy k hin
    have := InLogBin.range hp hin
    rcases sep_far h hx hy with h | h
    · exact absurd this.1 (not_le.2 h)
    · exact absurd this.2 (not_lt.2 h)) hw1 hw2

/-! ### The values of the option -/

/-- **C45, the option.** `True` is for both fields, 1 for the first, 2 for the second, `False` and 0 for none; in an auto-correlation any
of `True`, 1 and 2 is for the one field. -/
theorem brute_option :
    (BruteOpt.bool true).cross = (true, true) ∧ (BruteOpt.int 1).cross = (true, false) ∧
    (BruteOpt.int 2).cross = (false, true) ∧ (BruteOpt.bool false).cross = (false, false) ∧
    (BruteOpt.int 0).cross = (false, false) ∧
    (BruteOpt.bool true).auto = true ∧ (BruteOpt.int 1).auto = true ∧ (BruteOpt.int 2).auto = true ∧
    (BruteOpt.bool false).auto = false ∧ (BruteOpt.int 0).auto = false ∧
    (∀ n : ℤ, (BruteOpt.int n).allowed2 = true ↔ n = 0 ∨ n = 1 ∨ n = 2) := by
  refine ⟨?_, ?_, ?_, ?_, ?_, ?_, ?_, ?_, ?_, ?_, ?_⟩
  all_goals simp [BruteOpt.cross, BruteOpt.isTrue, BruteOpt.eqInt, BruteOpt.auto, BruteOpt.allowed2, or_assoc]

/-- **C45 fails for numpy booleans**: `brute = np.True_` passes the check and is taken for 1, so that only the first of two fields is
brute. -/
theorem brute_numpy_wrong : (BruteOpt.npbool true).allowed2 = true ∧ (BruteOpt.npbool true).cross = (true, false) ∧
    (BruteOpt.npbool true).cross ≠ (BruteOpt.bool true).cross := by
  simp [BruteOpt.cross, BruteOpt.isTrue, BruteOpt.eqInt, BruteOpt.allowed2]

/-- **The three-point classes document `brute = 2` but reject it.** -/
theorem brute3_two_wrong : (BruteOpt.int 2).allowed3 = false ∧ (BruteOpt.int 1).allowed3 = true ∧
    (BruteOpt.bool true).allowed3 = true := by
  simp [BruteOpt.eqInt, BruteOpt.allowed3]

/-! ### The hypotheses can be met, and what does not hold -/

noncomputable section

/-- Bins of width 1 and a slop of 5. -/
def exBrute : Params := { exLog with b := 5, a := 7 }

theorem exBrute_ok : LogGrid exBrute := by
  constructor <;> norm_num [exBrute, exLog]

/-- Huge slop and tree cells of any size: (0,0) against (2,0) and (5,0) still gives one pair in bin 0. -/
example : ∃ es, processCrossD (logBinD _) exBrute true true
    (buildFieldD (sortAlg _ 0) (euclidGeom 2) { exFp with minsize := 50 } true [ob 0 0 0])
    (buildFieldD (sortAlg _ 0) (euclidGeom 2) { exFp with minsize := 50 } true [ob 2 0 0, ob 5 0 1]) = some es ∧
    (accumulate Acc.zero es).npairs 0 = 1 := by
  obtain ⟨es, h, hk⟩ := cross_log_brute (sortAlg _ 0) (sortAlg _ 0) (euclidGeom 2)
    (euclidGeom_dominates 2) { exFp with minsize := 50 } { exFp with minsize := 50 } exBrute_ok [ob 0 0 0]
    [ob 2 0 0, ob 5 0 1] (by simp [ob_valid]) (by simp [ob_valid])
  refine ⟨es, h, ?_⟩
  rw [(hk 0).2.2.2 (by simp [ob]) (by simp [ob])]
  have e : crossPairs [ob 0 0 0] [ob 2 0 0, ob 5 0 1] = {(ob 0 0 0, ob 2 0 0), (ob 0 0 0, ob 5 0 1)} := by
    rw [crossPairs_singleton]; rfl
  have d1 : dist (pt 0 0) (pt 2 0) = 2 := by rw [dist_pt_x]; norm_num
  have d2 : dist (pt 0 0) (pt 5 0) = 5 := by rw [dist_pt_x]; norm_num
  have h1 : InLogBin 1 1 3 0 2 := inLog0 _ (by norm_num) (by norm_num)
  have h2 : ¬ InLogBin 1 1 3 0 5 := not_inLog0 _ (by norm_num)
  rw [e]
  simp [pairsIn, Multiset.insert_eq_cons, Multiset.filter_singleton, exBrute, exLog, d1, d2, h1, h2, bruteN]

/-- The pair at exactly `min_sep`, which the usual auto-correlation loses (`auto_min_sep_dropped`), is counted with `brute`. -/
example : ∃ es, processAutoD (decide11D (logBinD _) exBrute false true true) exBrute true
    (buildFieldD (sortAlg _ 0) (euclidGeom 2) exFp true [ob 0 0 0, ob 1 0 1]).cells = some es ∧
    (accumulate Acc.zero es).npairs 0 = 1 := by
  obtain ⟨es, h, hk⟩ := auto_log_brute (sortAlg _ 0) (euclidGeom 2) (euclidGeom_dominates 2) exFp exBrute_ok
    [ob 0 0 0, ob 1 0 1] (by simp [ob_valid])
  refine ⟨es, h, ?_⟩
  rw [(hk 0).2.2 (by simp [ob])]
  have d1 : dist (pt 0 0) (pt 1 0) = 1 := by rw [dist_pt_x]; norm_num
  have e : autoPairs [ob 0 0 0, ob 1 0 1] = {(ob 0 0 0, ob 1 0 1)} := rfl
  have h1 : InLogBin 1 1 3 0 1 := inLog0 _ (by norm_num) (by norm_num)
  rw [e]
  simp [pairsIn, Multiset.filter_singleton, exBrute, exLog, d1, h1, bruteN]

/-- The other grids: slop of half a bin and more. -/
example : LinGrid { exLin with b := 3 } := by constructor <;> norm_num [exLin]
example : TwoDGrid { exTwoD with b := 3, minsep := 1 } 3 := by constructor <;> norm_num [exTwoD]
example : (∀ o ∈ [ob 0 0 0, ob 0 0 1, ob 3 4 2], o.Valid) ∧ LogParams exLog ∧ exLog.b = 0 :=
  ⟨by simp [ob_valid], exLog_ok, rfl⟩

/-- In the auto-correlation with `min_sep = 0` and Linear bins, two rows at the same position belong to bin 0 but are not counted even with
`brute`: they are in one leaf. -/
theorem linear_brute_coincident : ∃ (p : Params) (l : List (Obj (EuclideanSpace ℝ (Fin 2)))), LinGrid p ∧ (∀ o ∈ l, 0 < o.w) ∧
    processAutoD (decide11D (linearBinD _) p false true true) p true
      (buildFieldD (sortAlg _ 0) (euclidGeom 2) exFp true l).cells = some [] ∧
    bruteN (pairsIn (autoPairs l) (InLinBin p.minsep p.binsize p.nbins 0)) = 1 := by
  have hm : (euclidGeom 2).mean [ob 0 0 0, ob 0 0 1] = pt 0 0 := by
    ext i
    fin_cases i <;> norm_num [euclidGeom, wmean, ob, pt]
  have hs : calcSizeSq (euclidGeom 2) (pt 0 0) [ob 0 0 0, ob 0 0 1] = 0 := by
    simp [calcSizeSq, euclidGeom]
  refine ⟨{ exLin with minsep := 0, maxsep := 3 }, [ob 0 0 0, ob 0 0 1], by constructor <;> norm_num [exLin], by simp [ob], ?_, ?_⟩
  · simp only [buildFieldD, if_true, buildField]
    rw [topCells, hm, hs, if_pos (Or.inl rfl)]
    simp only [List.map_cons, List.map_nil]
    rw [buildCell, if_neg (by simp only [cellData]; rw [hm, hs]; norm_num)]
    simp [processAutoD, process2D, cellData, Cell.sizeD, Dbl.le, ob]
  · have e : autoPairs [ob 0 0 0, ob 0 0 1] = {(ob 0 0 0, ob 0 0 1)} := rfl
    have h1 : InLinBin 0 1 3 0 0 := by norm_num [InLinBin, linEdge]
    rw [e]
    simp [pairsIn, Multiset.filter_singleton, exLin, h1, bruteN]

/-- A row of weight −1. -/
def negOb (x y : ℝ) (i : ℕ) : Obj (EuclideanSpace ℝ (Fin 2)) := { ob x y i with w := -1 }

/-- **C45 fails for weights of both signs**: a cell of total weight 0 is skipped before its size is looked at, so all its rows are lost,
although each of them has a weight.  (0,0) against (2,0) of weight 1 and (5,0) of weight −1: the pair at separation 2 belongs to bin 0. -/
theorem brute_sign_wrong : ∃ l1 l2 : List (Obj (EuclideanSpace ℝ (Fin 2))),
    (∀ o ∈ l1 ++ l2, o.w ≠ 0) ∧
    processCrossD (logBinD _) exLog true true (buildFieldD (sortAlg _ 0) (euclidGeom 2) exFp true l1)
      (buildFieldD (sortAlg _ 0) (euclidGeom 2) exFp true l2) = some [] ∧
    bruteW (pairsIn (crossPairs l1 l2) (InLogBin exLog.minsep exLog.binsize exLog.nbins 0)) = 1 := by
  refine ⟨[ob 0 0 0], [ob 2 0 0, negOb 5 0 1], by simp [negOb], ?_, ?_⟩
  · have ht : topCells (sortAlg _ 0) (euclidGeom 2) exFp.sm (exFp.maxsize * exFp.maxsize) exFp.mintop
        exFp.maxtop [ob 2 0 0, negOb 5 0 1] = [[ob 2 0 0, negOb 5 0 1]] := by
      have hm : (euclidGeom 2).mean [ob 2 0 0, negOb 5 0 1] = pt (7 / 2) 0 := by
        ext i
        fin_cases i <;> norm_num [euclidGeom, wmean, negOb, ob, pt]
      have hs : calcSizeSq (euclidGeom 2) (pt (7 / 2) 0) [ob 2 0 0, negOb 5 0 1] = 9 / 4 := by
        have e1 : (euclidGeom 2).normSq (pt (7 / 2) 0) (pt 2 0) = 9 / 4 := by
          simp only [euclidGeom]; rw [← dist_eq_norm, dist_pt_x]; norm_num
        have e2 : (euclidGeom 2).normSq (pt (7 / 2) 0) (pt 5 0) = 9 / 4 := by
          simp only [euclidGeom]; rw [← dist_eq_norm, dist_pt_x]; norm_num [abs_of_neg]
        simp only [calcSizeSq, List.foldl, negOb, ob_pos, e1, e2]
        norm_num
      rw [topCells, hm, hs, if_pos (by norm_num [exFp])]
    have hw : (buildCell (sortAlg _ 0) (euclidGeom 2) exFp.sm (0 * 0) [ob 2 0 0, negOb 5 0 1]).w = 0 := by
      rw [buildCell]
      split_ifs <;> simp [Cell.w, Cell.data, cellData, negOb]
    rw [processCrossD]
    split_ifs
    · rfl
    · have h1 : topCells (sortAlg _ 0) (euclidGeom 2) exFp.sm (exFp.maxsize * exFp.maxsize) exFp.mintop
          exFp.maxtop [ob 0 0 0] = [[ob 0 0 0]] := by rw [topCells]
      simp only [buildFieldD, if_true, buildField, ht, h1, List.map_cons, List.map_nil]
      have hd : decide11D (logBinD _) exLog false true true (buildCell (sortAlg _ 0) (euclidGeom 2) exFp.sm (0 * 0) [ob 0 0 0])
          (buildCell (sortAlg _ 0) (euclidGeom 2) exFp.sm (0 * 0) [ob 2 0 0, negOb 5 0 1]) = .drop := by
        rw [decide11D, if_pos (Or.inr hw)]
      have hp : process11 (decide11D (logBinD _) exLog false true true)
          (buildCell (sortAlg _ 0) (euclidGeom 2) exFp.sm (0 * 0) [ob 0 0 0])
          (buildCell (sortAlg _ 0) (euclidGeom 2) exFp.sm (0 * 0) [ob 2 0 0, negOb 5 0 1]) = some [] := by
        rw [process11.eq_def, hd]
      simp only [processCrossLoop, processCrossRow, List.mapM_cons, List.mapM_nil, hp]
      rfl
  · have e : crossPairs [ob 0 0 0] [ob 2 0 0, negOb 5 0 1] = {(ob 0 0 0, ob 2 0 0), (ob 0 0 0, negOb 5 0 1)} := by
      rw [crossPairs_singleton]; rfl
    have d1 : dist (pt 0 0) (pt 2 0) = 2 := by rw [dist_pt_x]; norm_num
    have d2 : dist (pt 0 0) (pt 5 0) = 5 := by rw [dist_pt_x]; norm_num
    have h1 : InLogBin 1 1 3 0 2 := inLog0 _ (by norm_num) (by norm_num)
    have h2 : ¬ InLogBin 1 1 3 0 5 := not_inLog0 _ (by norm_num)
    rw [e]
    simp [pairsIn, Multiset.insert_eq_cons, Multiset.filter_singleton, exLog, d1, d2, h1, h2, bruteW, negOb, ob]

end
end TreeCorr
