import Verif.Proofs.AtMostOnce
import Verif.Proofs.LinearExact
import Verif.Proofs.SlopWitness
import Verif.Props.LogCounts
import Verif.Props.Binning
import Verif.Model.Sizes
import Verif.Spec.Slop

/-!
C05: how far from its bin a pair can be counted.  `pairsAt es k` are the pairs of rows that a run with the
`finishProcess` calls `es` counted in bin `k`, `pairsOf es` all the pairs it counted.
-/

namespace TreeCorr
open Classical
variable {P : Type}

/-- Pairs put in bins and pairs left out, for a cross-correlation with decisions of known accuracy. -/
theorem cross_slop_of [PseudoMetricSpace P] (A1 A2 : StdAlg P) (g : Geom P) (hg : g.Dominates)
    (fp1 fp2 : FieldParams) {δ : ℝ} (hδ : 0 ≤ δ) (h1 : fp1.minsize = δ) (h2 : fp2.minsize = δ)
    (l1 l2 : List (Obj P)) (hw1 : ∀ o ∈ l1, 0 < o.w) (hw2 : ∀ o ∈ l2, 0 < o.w)
    {B : BinHelper P} {p : Params} {near : ℤ → ℝ → Prop} {out : ℝ → Prop}
    (hsafe : SafeSplit (decide11 B (plainMetric P) p false) (Cell.Bounded δ) (Cell.Bounded δ))
    (hdir : ∀ a b e, GoodCell δ a → GoodCell δ b → decide11 B (plainMetric P) p false a b = .direct e →
      ∀ o1 ∈ a.objs, ∀ o2 ∈ b.objs, near e.k (dist o1.pos o2.pos))
    (hdrop : ∀ a b, GoodCell δ a → GoodCell δ b → decide11 B (plainMetric P) p false a b = .drop →
      ∀ o1 ∈ a.objs, ∀ o2 ∈ b.objs, out (dist o1.pos o2.pos))
    (hfar : fieldsTooFar B (plainMetric P) p (buildField A1 g fp1 l1) (buildField A2 g fp2 l2) →
      ∀ o1 ∈ l1, ∀ o2 ∈ l2, out (dist o1.pos o2.pos)) :
    ∃ es, processCross B (plainMetric P) p (buildField A1 g fp1 l1) (buildField A2 g fp2 l2) = some es ∧
      (∀ k, ∀ q ∈ pairsAt es k, near k (dist q.1.pos q.2.pos)) ∧
      ∃ D, pairsOf es + D = crossPairs l1 l2 ∧ ∀ q ∈ D, out (dist q.1.pos q.2.pos) := by
  subst h1
  have g1 := buildField_good A1 g hg fp1 hδ l1 hw1
  have g2 := buildField_good A2 g hg fp2 (h2 ▸ hδ) l2 hw2
  rw [h2] at g2
  unfold processCross
  split
  · rename_i hf
    refine ⟨[], rfl, ?_, crossPairs l1 l2, by simp, ?_⟩
    · intro k q hq; simp [pairsAt] at hq
    · intro q hq
      simp only [crossPairs, Multiset.mem_product, Multiset.mem_coe] at hq
      exact hfar hf _ hq.1 _ hq.2
  · obtain ⟨es, hes⟩ := crossLoop_total (decide11 B (plainMetric P) p false) (Cell.Bounded fp1.minsize)
      (Cell.Bounded fp1.minsize) (hered_bounded _) (hered_bounded _) hsafe _ _ (fun c hc => (g1 c hc).1.1)
      (fun c hc => (g2 c hc).1.1)
    have hc := crossLoop_covers (decide11 B (plainMetric P) p false) (decide11_honest _ _ _ _)
      (GoodCell fp1.minsize) (GoodCell fp1.minsize) (hered_good _) (hered_good _) _ _ g1 g2 es hes
    obtain ⟨D, hD, he, hd⟩ := hc
    refine ⟨es, hes, ?_, D, ?_, ?_⟩
    · intro k q hq
      obtain ⟨e, hmem, rfl, q1, q2⟩ := mem_pairsAt hq
      obtain ⟨a, b, qa, qb, hab⟩ := he e hmem
      obtain ⟨e1, e2⟩ := decide11_honest _ _ _ _ a b e hab
      rw [e1] at q1
      rw [e2] at q2
      exact hdir a b e qa qb hab _ q1 _ q2
    · rw [hD]
      exact crossPairs_perm (buildField_objs A1 g fp1 l1) (buildField_objs A2 g fp2 l2)
    · intro q hq
      obtain ⟨a, b, qa, qb, hab, q1, q2⟩ := hd q hq
      exact hdrop a b qa qb hab _ q1 _ q2

/-- The same for an auto-correlation.  The pairs are unordered. -/
theorem auto_slop_of [PseudoMetricSpace P] (A : StdAlg P) (g : Geom P) (hg : g.Dominates)
    (fp : FieldParams) (hδ : 0 ≤ fp.minsize) (l : List (Obj P)) (hw : ∀ o ∈ l, 0 < o.w)
    {B : BinHelper P} {p : Params} (hm : 0 ≤ p.minsep) {near : ℤ → ℝ → Prop} {out : ℝ → Prop}
    (hsafe : SafeSplit (decide11 B (plainMetric P) p false) (Cell.Bounded fp.minsize) (Cell.Bounded fp.minsize))
    (hdir : ∀ a b e, GoodCell fp.minsize a → GoodCell fp.minsize b →
      decide11 B (plainMetric P) p false a b = .direct e →
      ∀ o1 ∈ a.objs, ∀ o2 ∈ b.objs, near e.k (dist o1.pos o2.pos))
    (hdrop : ∀ a b, GoodCell fp.minsize a → GoodCell fp.minsize b →
      decide11 B (plainMetric P) p false a b = .drop →
      ∀ o1 ∈ a.objs, ∀ o2 ∈ b.objs, out (dist o1.pos o2.pos))
    (hnear : ∀ d, d ≤ p.minsep + 2 * fp.minsize → 0 ≤ d → out d) :
    ∃ es, processAuto (decide11 B (plainMetric P) p false) p (buildField A g fp l).cells = some es ∧
      (∀ k, ∀ q ∈ pairsAt es k, near k (dist q.1.pos q.2.pos)) ∧
      ∃ D : Multiset (Obj P × Obj P), ((pairsOf es + D).map fun q => s(q.1, q.2)) =
        (autoPairs l).map (fun q => s(q.1, q.2)) ∧ ∀ q ∈ D, out (dist q.1.pos q.2.pos) := by
  have g1 := buildField_good A g hg fp hδ l hw
  obtain ⟨es, hes⟩ := processAuto_total (decide11 B (plainMetric P) p false) p hm (Cell.Bounded fp.minsize)
    (hered_bounded _) hsafe _ (fun c hc => (g1 c hc).1.1)
  have hc := processAuto_covers (decide11 B (plainMetric P) p false) (decide11_honest _ _ _ _) p
    (GoodCell fp.minsize) (hered_good _) _ g1 es hes
  obtain ⟨D, D2, hD, he, hd, hd2⟩ := hc
  refine ⟨es, hes, ?_, D + D2, ?_, ?_⟩
  · intro k q hq
    obtain ⟨e, hmem, rfl, q1, q2⟩ := mem_pairsAt hq
    obtain ⟨a, b, qa, qb, hab⟩ := he e hmem
    obtain ⟨e1, e2⟩ := decide11_honest _ _ _ _ a b e hab
    rw [e1] at q1
    rw [e2] at q2
    exact hdir a b e qa qb hab _ q1 _ q2
  · rw [← add_assoc, hD]
    exact autoPairs_sym_perm (buildField_objs A g fp l)
  · intro q hq
    rcases Multiset.mem_add.1 hq with hq | hq
    · obtain ⟨a, b, qa, qb, hab, q1, q2⟩ := hd q hq
      exact hdrop a b qa qb hab _ q1 _ q2
    · obtain ⟨c, qc, h, q1, q2⟩ := hd2 q hq
      rcases h with h | h
      · exact (qc.w_ne h).elim
      · apply hnear _ _ dist_nonneg
        have t1 := qc.1.1.dist_le hδ q1
        have t2 := qc.1.1.dist_le hδ q2
        have := dist_triangle_right q.1.pos q.2.pos c.pos
        have e : (0.5 : ℝ) * p.minsep = p.minsep / 2 := by norm_num; ring
        linarith

/-- **C05, Log, cross.** At any slop: a pair counted in bin `k` lies in that bin widened by `b` above and `b+b²`
below, where `b = bin_slop*bin_size`; the separation is uncertain by twice the `min_size` of the tree, below which
rows are merged.  A pair that is not counted lies outside the range, narrowed by the same amounts.
Missing from the documented claim: the excess `b²` on the lower side (`log_slop_exceeded`) and the merging. -/
theorem cross_log_slop_partial [PseudoMetricSpace P] (A1 A2 : StdAlg P) (g : Geom P) (hg : g.Dominates)
    (fp1 fp2 : FieldParams) {δ : ℝ} (hδ : 0 ≤ δ) (h1 : fp1.minsize = δ) (h2 : fp2.minsize = δ)
    {p : Params} (hp : LogParams p)
    (l1 l2 : List (Obj P)) (hw1 : ∀ o ∈ l1, 0 < o.w) (hw2 : ∀ o ∈ l2, 0 < o.w) :
    ∃ es, processCross (logBin P) (plainMetric P) p (buildField A1 g fp1 l1) (buildField A2 g fp2 l2)
        = some es ∧
      (∀ k, ∀ q ∈ pairsAt es k, NearLogBin p (p.b + p.b ^ 2) p.b (2 * δ) k (dist q.1.pos q.2.pos)) ∧
      ∃ D, pairsOf es + D = crossPairs l1 l2 ∧ ∀ q ∈ D, OutsideLog p (2 * δ) (dist q.1.pos q.2.pos) := by
  apply cross_slop_of A1 A2 g hg fp1 fp2 hδ h1 h2 l1 l2 hw1 hw2 (log_safeSplit p _ _ false)
  · intro a b e ga gb h o1 m1 o2 m2
    exact log_direct hp hδ ga.1.1 gb.1.1 h m1 m2
  · intro a b ga gb h o1 m1 o2 m2
    obtain ⟨d', hd, h⟩ := log_drop hp hδ ga.1.1 gb.1.1 ga.w_ne gb.w_ne h m1 m2
    exact ⟨d', hd, h.imp le_of_lt id⟩
  · intro hf o1 m1 o2 m2
    have k1 := buildField_center A1 g hg fp1 l1 o1 m1
    have k2 := buildField_center A2 g hg fp2 l2 o2 m2
    refine ⟨dist o1.pos o2.pos, by simp [hδ], ?_⟩
    have hb := hp.b
    rcases sep_far hf k1 k2 with h | h
    · left
      have : p.minsep * 1 ≤ p.minsep * Real.exp p.b :=
        mul_le_mul_of_nonneg_left (Real.one_le_exp hb) hp.minsep.le
      linarith
    · right
      have : p.maxsep * Real.exp (-(p.b + p.b ^ 2)) ≤ p.maxsep * 1 :=
        mul_le_mul_of_nonneg_left (Real.exp_le_one_iff.2 (by nlinarith)) hp.maxsep_pos.le
      linarith

/-- **C05, Log, auto.** -/
theorem auto_log_slop_partial [PseudoMetricSpace P] (A : StdAlg P) (g : Geom P) (hg : g.Dominates)
    (fp : FieldParams) (hδ : 0 ≤ fp.minsize) {p : Params} (hp : LogParams p)
    (l : List (Obj P)) (hw : ∀ o ∈ l, 0 < o.w) :
    ∃ es, processAuto (decide11 (logBin P) (plainMetric P) p false) p (buildField A g fp l).cells = some es ∧
      (∀ k, ∀ q ∈ pairsAt es k,
        NearLogBin p (p.b + p.b ^ 2) p.b (2 * fp.minsize) k (dist q.1.pos q.2.pos)) ∧
      ∃ D : Multiset (Obj P × Obj P), ((pairsOf es + D).map fun q => s(q.1, q.2)) =
        (autoPairs l).map (fun q => s(q.1, q.2)) ∧
        ∀ q ∈ D, OutsideLog p (2 * fp.minsize) (dist q.1.pos q.2.pos) := by
  apply auto_slop_of A g hg fp hδ l hw hp.minsep.le (log_safeSplit p _ _ false)
  · intro a b e ga gb h o1 m1 o2 m2
    exact log_direct hp hδ ga.1.1 gb.1.1 h m1 m2
  · intro a b ga gb h o1 m1 o2 m2
    obtain ⟨d', hd, h⟩ := log_drop hp hδ ga.1.1 gb.1.1 ga.w_ne gb.w_ne h m1 m2
    exact ⟨d', hd, h.imp le_of_lt id⟩
  · intro d hd hd0
    have : p.minsep * 1 ≤ p.minsep * Real.exp p.b :=
      mul_le_mul_of_nonneg_left (Real.one_le_exp hp.b) hp.minsep.le
    refine ⟨min d p.minsep, ?_, Or.inl ((min_le_right _ _).trans (by linarith))⟩
    rcases min_cases d p.minsep with ⟨h1, h2⟩ | ⟨h1, h2⟩ <;> rw [h1]
    · simp [hδ]
    · rw [abs_of_nonneg (by linarith)]; linarith

/-- **C05, Linear, cross.** A pair counted in bin `k` lies in that bin widened by `b` on both sides, up to the
merging radius of the tree. -/
theorem cross_linear_slop_partial [PseudoMetricSpace P] (A1 A2 : StdAlg P) (g : Geom P) (hg : g.Dominates)
    (fp1 fp2 : FieldParams) {δ : ℝ} (hδ : 0 ≤ δ) (h1 : fp1.minsize = δ) (h2 : fp2.minsize = δ)
    {p : Params} (hp : LinParams p)
    (l1 l2 : List (Obj P)) (hw1 : ∀ o ∈ l1, 0 < o.w) (hw2 : ∀ o ∈ l2, 0 < o.w) :
    ∃ es, processCross (linearBin P) (plainMetric P) p (buildField A1 g fp1 l1) (buildField A2 g fp2 l2)
        = some es ∧
      (∀ k, ∀ q ∈ pairsAt es k, NearLinBin p p.b (2 * δ) k (dist q.1.pos q.2.pos)) ∧
      ∃ D, pairsOf es + D = crossPairs l1 l2 ∧ ∀ q ∈ D, OutsideLin p (2 * δ) (dist q.1.pos q.2.pos) := by
  apply cross_slop_of A1 A2 g hg fp1 fp2 hδ h1 h2 l1 l2 hw1 hw2 (linear_safeSplit p hp.b _ _ false)
  · intro a b e ga gb h o1 m1 o2 m2
    obtain ⟨k1, k2, d', hd, h3, h4, _⟩ := linear_direct hp hδ ga.1.1 gb.1.1 h m1 m2
    refine ⟨k1, k2, d', hd, h3, ?_⟩
    simpa [linEdge] using h4
  · intro a b ga gb h o1 m1 o2 m2
    obtain ⟨d', hd, h⟩ := linear_drop hp hδ ga.1.1 gb.1.1 ga.w_ne gb.w_ne h m1 m2
    exact ⟨d', hd, h.imp le_of_lt id⟩
  · intro hf o1 m1 o2 m2
    have k1 := buildField_center A1 g hg fp1 l1 o1 m1
    have k2 := buildField_center A2 g hg fp2 l2 o2 m2
    refine ⟨dist o1.pos o2.pos, by simp [hδ], ?_⟩
    have hb := hp.b
    rcases sep_far (p := p) hf k1 k2 with h | h
    · left; linarith
    · right; linarith

/-- **C05, Linear, auto.** -/
theorem auto_linear_slop_partial [PseudoMetricSpace P] (A : StdAlg P) (g : Geom P) (hg : g.Dominates)
    (fp : FieldParams) (hδ : 0 ≤ fp.minsize) {p : Params} (hp : LinParams p)
    (l : List (Obj P)) (hw : ∀ o ∈ l, 0 < o.w) :
    ∃ es, processAuto (decide11 (linearBin P) (plainMetric P) p false) p (buildField A g fp l).cells = some es ∧
      (∀ k, ∀ q ∈ pairsAt es k, NearLinBin p p.b (2 * fp.minsize) k (dist q.1.pos q.2.pos)) ∧
      ∃ D : Multiset (Obj P × Obj P), ((pairsOf es + D).map fun q => s(q.1, q.2)) =
        (autoPairs l).map (fun q => s(q.1, q.2)) ∧
        ∀ q ∈ D, OutsideLin p (2 * fp.minsize) (dist q.1.pos q.2.pos) := by
  apply auto_slop_of A g hg fp hδ l hw hp.minsep (linear_safeSplit p hp.b _ _ false)
  · intro a b e ga gb h o1 m1 o2 m2
    obtain ⟨k1, k2, d', hd, h3, h4, _⟩ := linear_direct hp hδ ga.1.1 gb.1.1 h m1 m2
    refine ⟨k1, k2, d', hd, h3, ?_⟩
    simpa [linEdge] using h4
  · intro a b ga gb h o1 m1 o2 m2
    obtain ⟨d', hd, h⟩ := linear_drop hp hδ ga.1.1 gb.1.1 ga.w_ne gb.w_ne h m1 m2
    exact ⟨d', hd, h.imp le_of_lt id⟩
  · intro d hd hd0
    have := hp.b
    refine ⟨min d p.minsep, ?_, Or.inl ((min_le_right _ _).trans (by linarith))⟩
    rcases min_cases d p.minsep with ⟨h1, h2⟩ | ⟨h1, h2⟩ <;> rw [h1]
    · simp [hδ]
    · rw [abs_of_nonneg (by linarith)]; linarith

/-- The merging radius of the automatic `min_size`: twice it is at most `b*min_sep` (Log) or `b` (Linear), so that
merging at most doubles the slop. -/
theorem min_size_slop {p : Params} (ha : 0 ≤ p.a) (hb : 0 ≤ p.b) (hm : 0 ≤ p.minsep) :
    2 * (logMinMaxSize p).1 ≤ p.b * p.minsep ∧ 2 * (linMinMaxSize p).1 ≤ p.b := by
  constructor
  · simp only [logMinMaxSize]
    have h0 : 0 ≤ min p.a p.b := le_min ha hb
    have h1 : min p.a p.b ≤ p.b := min_le_right _ _
    rw [← mul_div_assoc, div_le_iff₀ (by linarith)]
    have h2 := mul_le_mul_of_nonneg_left h1 hm
    have h3 : 0 ≤ p.b * p.minsep * (3 * min p.a p.b) := by positivity
    nlinarith
  · simp only [linMinMaxSize]
    have := min_le_right (p.a * p.minsep / (2 + 3 * p.a)) (p.b / 2)
    linarith

/-! ### Examples and counterexamples -/

noncomputable section

/-- Three Log bins of one e-folding from `min_sep = 10`, `bin_slop = 0.1`, `angle_slop = 1` (the default for
counts and scalars). -/
def exSlop : Params := { minsep := 10, maxsep := 10 * Real.exp 3, nbins := 3, binsize := 1, b := 1 / 10, a := 1 }

/-- The same with a bin size small enough for `LogParams`. -/
def exSlop2 : Params :=
  { minsep := 10, maxsep := 10 * Real.exp (3 * (1 / 2)), nbins := 3, binsize := 1 / 2, b := 1 / 20, a := 1 }

theorem exSlop2_ok : LogParams exSlop2 := by
  constructor <;> norm_num [exSlop2]

/-- The tree parameters that go with binning parameters `p`, sizes `mm`. -/
def autoFp (mm : ℝ × ℝ) : FieldParams :=
  { minsize := mm.1, maxsize := mm.2, sm := .mean, mintop := 0, maxtop := 10 }

/-- C05 applies to the automatic tree sizes, any catalogue with positive weights. -/
example (l1 l2 : List (Obj (EuclideanSpace ℝ (Fin 2)))) (hw1 : ∀ o ∈ l1, 0 < o.w) (hw2 : ∀ o ∈ l2, 0 < o.w) :=
  cross_log_slop_partial (sortAlg _ 0) (sortAlg _ 0) (euclidGeom 2) (euclidGeom_dominates 2)
    (autoFp (logMinMaxSize exSlop2)) (autoFp (logMinMaxSize exSlop2))
    (by norm_num [autoFp, logMinMaxSize, exSlop2]) rfl rfl exSlop2_ok l1 l2 hw1 hw2

/-- Linear bins of width 1 from 10, `bin_slop = 1`. -/
def exLinSlop : Params := { minsep := 10, maxsep := 13, nbins := 3, binsize := 1, b := 1, a := 1 }

theorem exLinSlop_ok : LinParams exLinSlop := by
  constructor <;> norm_num [exLinSlop]

example (l : List (Obj (EuclideanSpace ℝ (Fin 2)))) (hw : ∀ o ∈ l, 0 < o.w) :=
  auto_linear_slop_partial (sortAlg _ 0) (euclidGeom 2) (euclidGeom_dominates 2)
    (autoFp (linMinMaxSize exLinSlop)) (by norm_num [autoFp, linMinMaxSize, exLinSlop]) exLinSlop_ok l hw

theorem exp_three_gt : (8 : ℝ) < Real.exp 3 := by
  have := Real.exp_one_gt_d9
  have e : Real.exp 3 = Real.exp 1 * Real.exp 1 * Real.exp 1 := by
    rw [← Real.exp_add, ← Real.exp_add]; norm_num
  rw [e]
  have h2 : (2 : ℝ) < Real.exp 1 := by linarith
  nlinarith [mul_pos (Real.exp_pos 1) (Real.exp_pos 1), mul_lt_mul'' h2 h2 (by norm_num) (by norm_num)]

/-- **C05, negation for Log bins.** With `bin_slop = 0.1`, a pair at separation 9 is counted in the bin
[10, 10e), further below it than the allowed `bin_slop*bin_size = 0.1` in log r. -/
theorem log_slop_exceeded : ∃ (l1 l2 : List (Obj (EuclideanSpace ℝ (Fin 2)))) (es : List (Emit _)),
    (∀ o ∈ l1, 0 < o.w) ∧ (∀ o ∈ l2, 0 < o.w) ∧
    processCross (logBin _) (plainMetric _) exSlop
      (buildField (sortAlg _ 0) (euclidGeom 2) (autoFp (logMinMaxSize exSlop)) l1)
      (buildField (sortAlg _ 0) (euclidGeom 2) (autoFp (logMinMaxSize exSlop)) l2) = some es ∧
    ∃ q ∈ pairsAt es 0, Real.log (dist q.1.pos q.2.pos) < Real.log exSlop.minsep - exSlop.b := by
  have h8 := exp_three_gt
  obtain ⟨es, hes, hk⟩ := cross_two (B := logBin _) (p := exSlop) (autoFp (logMinMaxSize exSlop))
    (autoFp (logMinMaxSize exSlop)) (r := 10) (s := 1) (k := 0) (by norm_num) (by norm_num)
    (by norm_num [autoFp, logMinMaxSize, exSlop]; linarith) (by norm_num [autoFp])
    (by norm_num [autoFp, logMinMaxSize, exSlop]) (by norm_num [autoFp, logMinMaxSize, exSlop])
    (by
      rintro (h | h)
      · norm_num [logBin, exSlop] at h
      · have := h.2
        norm_num [logBin, exSlop] at this
        nlinarith)
    {} (by norm_num [logBin, logSingleBin, exSlop])
    (by
      refine ⟨by norm_num [exSlop], ?_⟩
      simp only [exSlop]
      nlinarith)
    (by
      intro c1 c2 h1 h2
      have e : Real.sqrt (10 ^ 2) = 10 := Real.sqrt_sq (by norm_num)
      simp only [directProcess11, logBin, exSlop, e]
      norm_num [truncInt])
  refine ⟨_, _, es, by simp, by simp, hes, (ob 0 0 0, ob (10 - 1) 0 0), ?_, ?_⟩
  · rw [hk, crossPairs_singleton]; simp
  · have d : dist (ob 0 0 0).pos (ob (10 - 1) 0 0).pos = 9 := by
      rw [ob_pos, ob_pos, dist_pt_x]; norm_num
    simp only [d, exSlop]
    have h := Real.log_lt_sub_one_of_pos (x := 9 / 10) (by norm_num) (by norm_num)
    rw [Real.log_div (by norm_num) (by norm_num)] at h
    linarith

/-- The user's choice of Linear bins with every slop left to its default, in units of `u` radians. -/
def exUnits (u : ℝ) : BinConfig where
  minsep := .val 10
  maxsep := .val 13
  nbins := .val 3
  binsize := .absent
  binSlop := .absent
  angleSlop := .absent
  sepUnits := u

/-- **C05, negation for Linear bins with `sep_units`.** `b` is computed in the user's units but used in radians.
For any unit of at most 1/13 radian (degrees, arcminutes, arcseconds), bins of width 1 from 10 to 13 units with
default slop: pairs at 5 and at 15 units are counted in the bin [10,11), although at most one bin width of error
is allowed. -/
theorem linear_units_slop_exceeded (u : ℝ) (hu : 0 < u) (hu1 : u ≤ 1 / 13) :
    ∃ B p, makeBins .linear (exUnits u) = .ok B ∧ p = cppParams .linear (exUnits u) 1 B ∧
    p.minsep = 10 * u ∧ p.binsize = u ∧ p.maxsep = 13 * u ∧ p.nbins = 3 ∧ binSlop .linear (exUnits u) B = 1 ∧
    ∃ (l1 l2 : List (Obj (EuclideanSpace ℝ (Fin 2)))) (es : List (Emit _)),
    (∀ o ∈ l1, 0 < o.w) ∧ (∀ o ∈ l2, 0 < o.w) ∧
    processCross (linearBin _) (plainMetric _) p
      (buildField (sortAlg _ 0) (euclidGeom 2) (autoFp (linMinMaxSize p)) l1)
      (buildField (sortAlg _ 0) (euclidGeom 2) (autoFp (linMinMaxSize p)) l2) = some es ∧
    (∃ q ∈ pairsAt es 0, dist q.1.pos q.2.pos = 5 * u) ∧ (∃ q ∈ pairsAt es 0, dist q.1.pos q.2.pos = 15 * u) := by
  have hB : makeBins .linear (exUnits u) = .ok ⟨10, 13, 3, 1⟩ := by
    have h1 : parseBins .linear (exUnits u) = .ok (.noSize 10 13 3) := by
      simp [parseBins, exUnits, Arg.get, getMinSep, bind, Except.bind]
      norm_num
    have h2 : linearBins (.noSize 10 13 3) = .ok ⟨10, 13, 3, 1⟩ := by
      simp only [linearBins, linearStage, pyDiv]
      norm_num [bind, Except.bind, pure, Except.pure]
      norm_num [linearFinish, pyDiv, bind, Except.bind, pure, Except.pure]
    simp only [makeBins, h1, bind, Except.bind, h2]
  have hs : binSlop .linear (exUnits u) ⟨10, 13, 3, 1⟩ = 1 := by
    simp only [binSlop, exUnits, Arg.get, maxGoodSlop]
    norm_num
  have hp : cppParams .linear (exUnits u) 1 ⟨10, 13, 3, 1⟩
      = { minsep := 10 * u, maxsep := 13 * u, nbins := 3, binsize := u, b := 1, a := 1 } := by
    simp only [cppParams, hs]
    simp [exUnits, Arg.get]
  refine ⟨_, _, hB, rfl, ?_, ?_, ?_, ?_, hs, ?_⟩ <;> rw [hp]
  have hsz : linMinMaxSize { minsep := 10 * u, maxsep := 13 * u, nbins := 3, binsize := u, b := 1, a := 1 }
      = (2 * u, 13 * u) := by
    simp only [linMinMaxSize]
    congr 1
    · rw [min_eq_left (by linarith)]; ring
    · rw [min_eq_left (by linarith)]; ring
  rw [hsz]
  obtain ⟨es, hes, hk⟩ := cross_two (B := linearBin _)
    (p := { minsep := 10 * u, maxsep := 13 * u, nbins := 3, binsize := u, b := 1, a := 1 }) (autoFp (2 * u, 13 * u))
    (autoFp (2 * u, 13 * u)) (r := 10 * u) (s := 5 * u) (k := 0) (by linarith) (by linarith)
    (by simp only [autoFp]; linarith) (by norm_num [autoFp])
    (by simp only [autoFp]; linarith) (by simp only [autoFp]; linarith)
    (by
      rintro (h | h)
      · simp [linearBin] at h
      · have := h.1
        simp only at this
        nlinarith)
    {} (by
      simp only [linearBin, linearSingleBin]
      rw [if_neg (by nlinarith), if_pos (by linarith)])
    (by
      refine ⟨le_rfl, ?_⟩
      simp only
      nlinarith)
    (by
      intro c1 c2 h1 h2
      have e : Real.sqrt ((10 * u) ^ 2) = 10 * u := Real.sqrt_sq (by linarith)
      simp only [directProcess11, linearBin, e]
      norm_num [truncInt])
  refine ⟨_, _, es, by simp, by simp, hes, ⟨(ob 0 0 0, ob (10 * u - 5 * u) 0 0), ?_, ?_⟩,
    ⟨(ob 0 0 0, ob (10 * u + 5 * u) 0 1), ?_, ?_⟩⟩
  · rw [hk, crossPairs_singleton]; simp
  · rw [ob_pos, ob_pos, dist_pt_x, abs_of_neg (by linarith)]; ring
  · rw [hk, crossPairs_singleton]; simp
  · rw [ob_pos, ob_pos, dist_pt_x, abs_of_neg (by linarith)]; ring

/-- One Log bin [1, e⁴), `bin_slop = 0`, `angle_slop = 1`. -/
def exWide : Params := { minsep := 1, maxsep := Real.exp 4, nbins := 1, binsize := 4, b := 0, a := 1 }

/-- **C01, negation for very wide bins.** With `bin_slop = 0`, `bin_size = 4` and `angle_slop = 1`, a pair closer
than `min_sep` is counted: the lower-edge test of `singleBin` uses `log(1-x) ≥ -x-x²`, which fails for
`x = s/r = 0.9`. -/
theorem log_wide_bin_misplaced : ∃ (l1 l2 : List (Obj (EuclideanSpace ℝ (Fin 2)))) (es : List (Emit _)),
    (∀ o ∈ l1, 0 < o.w) ∧ (∀ o ∈ l2, 0 < o.w) ∧
    processCross (logBin _) (plainMetric _) exWide
      (buildField (sortAlg _ 0) (euclidGeom 2) { autoFp (0, 10) with minsize := 0 } l1)
      (buildField (sortAlg _ 0) (euclidGeom 2) { autoFp (0, 10) with minsize := 0 } l2) = some es ∧
    ∃ q ∈ pairsAt es 0, dist q.1.pos q.2.pos < exWide.minsep := by
  set r := Real.exp (171 / 100) with hr
  have hr0 : 0 < r := Real.exp_pos _
  have hr1 : 1 < r := Real.one_lt_exp_iff.2 (by norm_num)
  have h9 : Real.exp 2 < 9 := by
    have e : Real.exp 2 = Real.exp 1 * Real.exp 1 := by rw [← Real.exp_add]; norm_num
    rw [e]
    have := Real.exp_one_lt_three
    nlinarith [Real.exp_pos 1]
  have hr9 : r < 9 := lt_trans (Real.exp_lt_exp.2 (by norm_num)) h9
  have hm : r < Real.exp 4 := Real.exp_lt_exp.2 (by norm_num)
  have hlog : 0.5 * Real.log (r ^ 2) = 171 / 100 := by
    rw [Real.log_pow, hr, Real.log_exp]; norm_num
  obtain ⟨es, hes, hk⟩ := cross_two (B := logBin _) (p := exWide) { autoFp (0, 10) with minsize := 0 }
    { autoFp (0, 10) with minsize := 0 } (r := r) (s := 9 / 10 * r) (k := 0) hr0 (by linarith)
    (by simp only [autoFp]; linarith) (by norm_num [autoFp])
    (by norm_num) (by simp only; linarith)
    (by
      rintro (h | h)
      · have := h.1
        simp only [exWide] at this
        nlinarith
      · have := h.1
        simp only [exWide] at this
        nlinarith)
    ⟨0, Real.sqrt (r ^ 2), 0.5 * Real.log (r ^ 2)⟩ (by
      have ht : truncInt ((171 / 100 - 0) / 4) = 0 := by norm_num [truncInt]
      simp only [logBin, logSingleBin, exWide, Real.log_one, hlog, ht]
      have hsq : 0 < r ^ 2 := by positivity
      have hdiv : 9 / 10 * r * (9 / 10 * r) / r ^ 2 = 81 / 100 := by
        field_simp
        norm_num
      rw [hdiv, if_neg (by positivity), if_neg (by nlinarith), if_neg (by nlinarith), if_neg (by nlinarith)]
      have hmin : min ((171 / 100 - 0) / 4 - ((0 : ℤ) : ℝ)) (1 - ((171 / 100 - 0) / 4 - ((0 : ℤ) : ℝ))) = 171 / 400 := by
        norm_num
      rw [hmin, if_neg (by nlinarith), if_neg (by norm_num; nlinarith)])
    (by
      refine ⟨?_, ?_⟩ <;> simp only [exWide] <;> nlinarith)
    (by
      intro c1 c2 h1 h2
      simp [directProcess11, exWide])
  refine ⟨_, _, es, by simp, by simp, hes, (ob 0 0 0, ob (r - 9 / 10 * r) 0 0), ?_, ?_⟩
  · rw [hk, crossPairs_singleton]; simp
  · rw [ob_pos, ob_pos, dist_pt_x, abs_of_neg (by linarith)]
    simp only [exWide]
    linarith

end
end TreeCorr
