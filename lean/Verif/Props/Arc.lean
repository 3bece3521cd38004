import Mathlib.Analysis.Real.Pi.Bounds
import Verif.Proofs.Arc
import Verif.Props.Trivial

/-!
C40: the `Arc` metric.  The angle between two positions is Mathlib's `InnerProductGeometry.angle`.
-/

namespace TreeCorr
open Classical InnerProductGeometry
noncomputable section

/-- **C40, the distance of two points of the sphere** is the angle between them, in `[0, π]`. -/
theorem arc_is_angle (p q : S2) (s1 s2 : ℝ) :
    arcMetric.distSq p q s1 s2 = (angle p.vec q.vec ^ 2, s1, s2) := by
  simp only [arcMetric, arc_eq p.unit q.unit]

/-- **C40, cross, sphere, Log.** For catalogues of any extent on the sphere: a pair that is not counted is outside
the range of separations, up to the merging radius and up to `2 (π-2)`; with all rows of each catalogue within a
chord `R < √2` of each other, up to `2 (2 asin (R/2) - R)`, about `R³/12`.  Pairs that are counted are in their bin up to
the same amount.  Missing: that amount should be 0 (`arc_pair_dropped_wrong`). -/
theorem arc_cross_log_partial (A1 A2 : StdAlg S2) (fp1 fp2 : FieldParams) {m γ : ℝ} (hm : 0 ≤ m)
    (h1 : fp1.minsize = m) (h2 : fp2.minsize = m) {p : Params} (hp : LogParams p) (l1 l2 : List (Obj S2))
    (hw1 : ∀ o ∈ l1, 0 < o.w) (hw2 : ∀ o ∈ l2, 0 < o.w)
    (hγ : γ = Real.pi - 2 ∨ ∃ R, 0 ≤ R ∧ R < Real.sqrt 2 ∧ γ = 2 * Real.arcsin (R / 2) - R ∧
      ∀ l, (l = l1 ∨ l = l2) → (∀ o ∈ l, 0 ≤ o.wpos) ∧ ∀ o ∈ l, ∀ o' ∈ l, ‖o.pos.vec - o'.pos.vec‖ ≤ R) :
    ∃ es, processCross (logBin S2) arcMetric p (buildField A1 s2Geom fp1 l1) (buildField A2 s2Geom fp2 l2)
        = some es ∧
      (∀ k, ∀ q ∈ pairsAt es k,
        NearLogBin p (p.b + p.b ^ 2) p.b (2 * (m + γ)) k (angle q.1.pos.vec q.2.pos.vec)) ∧
      ∃ D, pairsOf es + D = crossPairs l1 l2 ∧
        ∀ q ∈ D, OutsideLog p (2 * (m + γ)) (angle q.1.pos.vec q.2.pos.vec) := by
  rw [arcMetric_eq]
  have h2' : Real.sqrt 2 ≤ 2 := by rw [Real.sqrt_le_left (by norm_num)]; norm_num
  have e2 : arcGap 2 = Real.pi - 2 := by
    unfold arcGap; rw [div_self two_ne_zero, Real.arcsin_one]; ring
  rcases hγ with rfl | ⟨R, r0, r1, rfl, h⟩
  · rw [← e2]
    exact cross_log_excess A1 A2 s2Geom fp1 fp2 hm (arcGap_nonneg (by norm_num) le_rfl) h1 h2 hp l1 l2
      (s2_excess_two l1) (s2_excess_two l2) hw1 hw2
  · exact cross_log_excess A1 A2 s2Geom fp1 fp2 hm (arcGap_nonneg r0 (by linarith)) h1 h2 hp l1 l2
      (s2_excess_small r1 l1 (h l1 (Or.inl rfl)).1 (h l1 (Or.inl rfl)).2)
      (s2_excess_small r1 l2 (h l2 (Or.inr rfl)).1 (h l2 (Or.inr rfl)).2) hw1 hw2

/-- **C40, auto, sphere, Log.** -/
theorem arc_auto_log_partial (A : StdAlg S2) (fp : FieldParams) (hm : 0 ≤ fp.minsize) {γ : ℝ}
    {p : Params} (hp : LogParams p) (l : List (Obj S2)) (hw : ∀ o ∈ l, 0 < o.w)
    (hγ : γ = Real.pi - 2 ∨ ∃ R, 0 ≤ R ∧ R < Real.sqrt 2 ∧ γ = 2 * Real.arcsin (R / 2) - R ∧
      (∀ o ∈ l, 0 ≤ o.wpos) ∧ ∀ o ∈ l, ∀ o' ∈ l, ‖o.pos.vec - o'.pos.vec‖ ≤ R) :
    ∃ es, processAuto (decide11 (logBin S2) arcMetric p false) p (buildField A s2Geom fp l).cells = some es ∧
      (∀ k, ∀ q ∈ pairsAt es k,
        NearLogBin p (p.b + p.b ^ 2) p.b (2 * (fp.minsize + γ)) k (angle q.1.pos.vec q.2.pos.vec)) ∧
      ∃ D : Multiset (Obj S2 × Obj S2), ((pairsOf es + D).map fun q => s(q.1, q.2)) =
        (autoPairs l).map (fun q => s(q.1, q.2)) ∧
        ∀ q ∈ D, OutsideLog p (2 * (fp.minsize + γ)) (angle q.1.pos.vec q.2.pos.vec) := by
  rw [arcMetric_eq]
  have h2' : Real.sqrt 2 ≤ 2 := by rw [Real.sqrt_le_left (by norm_num)]; norm_num
  have e2 : arcGap 2 = Real.pi - 2 := by
    unfold arcGap; rw [div_self two_ne_zero, Real.arcsin_one]; ring
  rcases hγ with rfl | ⟨R, r0, r1, rfl, h⟩
  · rw [← e2]
    exact auto_log_excess A s2Geom fp hm (arcGap_nonneg (by norm_num) le_rfl) hp l (s2_excess_two l) hw
  · exact auto_log_excess A s2Geom fp hm (arcGap_nonneg r0 (by linarith)) hp l (s2_excess_small r1 l h.1 h.2) hw

/-- A point of the sphere in the plane of the equator. -/
def eq2 (x y : ℝ) (h : x ^ 2 + y ^ 2 = 1) : S2 where
  vec := pt3 x y 0
  unit := by rw [norm_pt3]; simp [h]

/-- A row of weight 1. -/
def obS (p : S2) (i : ℕ) : Obj S2 := { pos := p, w := 1, wk := 0, idx := i }

/-- The hypotheses of the partial theorems are met by two rows in range of each other. -/
example (A : StdAlg S2) : ∃ es, processCross (logBin S2) arcMetric exLog
    (buildField A s2Geom exFp [obS (eq2 1 0 (by norm_num)) 0])
    (buildField A s2Geom exFp [obS (eq2 (3 / 5) (4 / 5) (by norm_num)) 0]) = some es := by
  obtain ⟨es, h, _⟩ := arc_cross_log_partial A A exFp exFp (m := exFp.minsize) (γ := Real.pi - 2) (by simp [exFp]) rfl rfl
    exLog_ok [obS (eq2 1 0 (by norm_num)) 0] [obS (eq2 (3 / 5) (4 / 5) (by norm_num)) 0]
    (by simp [obS]) (by simp [obS]) (Or.inl rfl)
  exact ⟨es, h⟩

theorem S2.ext {p q : S2} (h : p.vec = q.vec) : p = q := by
  cases p; cases q; simp only at h; subst h; rfl

/-- **C40, negation on the sphere.** Catalogue 1 is the point (0,1,0), catalogue 2 the points (0.6, ±0.8, 0).  The
angle between (0,1,0) and (0.6, 0.8, 0) is above `min_sep` = 0.1 and below `max_sep` = 0.67, but the run counts nothing: the
angle from (0,1,0) to the centre (1,0,0) of catalogue 2 is π/2, more than `max_sep` plus its size, which is the chord
0.894 and not the arc 0.927.  At any slop and any tree parameters. -/
theorem arc_pair_dropped_wrong (A1 A2 : StdAlg S2) (fp1 fp2 : FieldParams) :
    ∃ (l1 l2 : List (Obj S2)) (p : Params), LogParams p ∧ p.b = 0 ∧ (∀ o ∈ l1 ++ l2, o.w = 1) ∧
      processCross (logBin S2) arcMetric p (buildField A1 s2Geom fp1 l1) (buildField A2 s2Geom fp2 l2) = some [] ∧
      ∃ o1 ∈ l1, ∃ o2 ∈ l2, p.minsep < angle o1.pos.vec o2.pos.vec ∧ angle o1.pos.vec o2.pos.vec < p.maxsep := by
  set P := eq2 0 1 (by norm_num) with hP
  set a := eq2 (3 / 5) (4 / 5) (by norm_num) with ha
  set b := eq2 (3 / 5) (-4 / 5) (by norm_num) with hb
  set c := eq2 1 0 (by norm_num) with hc
  have hlog : Real.log (67 / 10) > 0 := Real.log_pos (by norm_num)
  have c1 : s2Geom.mean [obS P 0] = P := by
    apply S2.ext
    have : P.vec = pt3 0 1 0 := rfl
    have n : ‖P.vec‖ = 1 := P.unit
    simp [s2Geom, S2.mean, obS, S2.normalize, sphereNormalize, n]
  have c2 : s2Geom.mean [obS a 0, obS b 1] = c := by
    apply S2.ext
    have e : ((1:ℝ) + 1)⁻¹ • (a.vec + b.vec) = pt3 (3 / 5) 0 0 := by
      show ((1:ℝ) + 1)⁻¹ • (pt3 (3 / 5) (4 / 5) 0 + pt3 (3 / 5) (-4 / 5) 0) = pt3 (3 / 5) 0 0
      ext i; fin_cases i <;> simp [pt3] <;> norm_num
    have n : ‖pt3 (3 / 5) 0 0‖ = 3 / 5 := by
      rw [norm_pt3, show ((3 / 5 : ℝ) ^ 2 + 0 ^ 2 + 0 ^ 2) = (3 / 5) ^ 2 by norm_num, Real.sqrt_sq (by norm_num)]
    have : (s2Geom.mean [obS a 0, obS b 1]).vec = sphereNormalize (((1:ℝ) + 1)⁻¹ • (a.vec + b.vec)) := by
      simp [s2Geom, S2.mean, obS, S2.normalize]
    rw [this, e]
    unfold sphereNormalize
    rw [n, if_neg (by norm_num)]
    show (3 / 5 : ℝ)⁻¹ • pt3 (3 / 5) 0 0 = pt3 1 0 0
    ext i; fin_cases i <;> simp [pt3]
  have nsq : ∀ x y z x' y' z', ‖pt3 x y z - pt3 x' y' z'‖ ^ 2 = (x - x') ^ 2 + (y - y') ^ 2 + (z - z') ^ 2 := by
    intro x y z x' y' z'
    rw [← dist_eq_norm, dist_pt3, Real.sq_sqrt (by positivity)]
  have s1 : calcSizeSq s2Geom P [obS P 0] = 0 := by simp [calcSizeSq, obS, s2Geom]
  have s2 : calcSizeSq s2Geom c [obS a 0, obS b 1] = 4 / 5 := by
    have e1 : s2Geom.normSq c a = 4 / 5 := by
      show ‖pt3 1 0 0 - pt3 (3 / 5) (4 / 5) 0‖ ^ 2 = 4 / 5
      rw [nsq]; norm_num
    have e2 : s2Geom.normSq c b = 4 / 5 := by
      show ‖pt3 1 0 0 - pt3 (3 / 5) (-4 / 5) 0‖ ^ 2 = 4 / 5
      rw [nsq]; norm_num
    simp only [calcSizeSq, obS, List.foldl_cons, List.foldl_nil, e1, e2]
    norm_num
  have dPc : dist P c = Real.pi / 2 := by
    rw [S2.dist_eq]
    apply (inner_eq_zero_iff_angle_eq_pi_div_two _ _).1
    show inner ℝ (pt3 0 1 0) (pt3 1 0 0) = 0
    simp [pt3, PiLp.inner_apply, Fin.sum_univ_three]
  refine ⟨[obS P 0], [obS a 0, obS b 1],
    { minsep := 1 / 10, maxsep := 67 / 100, nbins := 1, binsize := Real.log (67 / 10), b := 0, a := 0 },
    ?_, rfl, ?_, ?_, ?_⟩
  · constructor <;> simp [hlog]
    · rw [Real.exp_log (by norm_num)]; norm_num
  · intro o ho
    simp only [List.cons_append, List.nil_append, List.mem_cons, List.not_mem_nil, or_false] at ho
    rcases ho with rfl | rfl | rfl <;> rfl
  · unfold processCross
    rw [if_pos]
    rw [arcMetric_eq]
    have hs : Real.sqrt (4 / 5) ≤ 895 / 1000 := by
      rw [Real.sqrt_le_left (by norm_num)]; norm_num
    have hs0 := Real.sqrt_nonneg (4 / 5)
    have hpi := Real.pi_gt_d2
    simp only [fieldsTooFar, buildField, c1, c2, s1, s2, plainMetric, logBin, dPc, Real.sqrt_zero, zero_add,
      and_true, false_or]
    right
    constructor
    · nlinarith
    · have : (67 / 100 + Real.sqrt (4 / 5)) ≤ Real.pi / 2 := by linarith
      exact pow_le_pow_left₀ (by positivity) this 2
  · refine ⟨obS P 0, by simp, obS a 0, by simp, ?_⟩
    have n2 : ‖P.vec - a.vec‖ ^ 2 = 2 / 5 := by
      show ‖pt3 0 1 0 - pt3 (3 / 5) (4 / 5) 0‖ ^ 2 = 2 / 5
      rw [nsq]; norm_num
    have n0 := norm_nonneg (P.vec - a.vec)
    simp only [obS]
    rw [← arc_eq P.unit a.unit]
    constructor
    · have h3 : Real.sin (1 / 10) ≤ ‖P.vec - a.vec‖ / 2 :=
        (Real.sin_le (by norm_num)).trans (by nlinarith)
      have := (Real.le_arcsin_iff_sin_le (x := 1 / 10) (y := ‖P.vec - a.vec‖ / 2)
        ⟨by linarith [Real.two_le_pi], by linarith [Real.two_le_pi]⟩ ⟨by linarith, by nlinarith⟩).2 h3
      linarith
    · have h3 : ‖P.vec - a.vec‖ / 2 < Real.sin (67 / 200) :=
        lt_of_lt_of_le (b := (67 / 200 - (67 / 200) ^ 3 / 6 : ℝ)) (by nlinarith)
          (Real.sin_gt_sub_cube (by norm_num)).le
      have := (Real.arcsin_lt_iff_lt_sin (x := ‖P.vec - a.vec‖ / 2) (y := 67 / 200) ⟨by linarith, by nlinarith⟩
        ⟨by linarith [Real.two_le_pi], by linarith [Real.two_le_pi]⟩).2 h3
      linarith

/-! ### Three-dimensional positions -/

theorem crossNorm_eq (p q : EuclideanSpace ℝ (Fin 3)) (hp : p ≠ 0) (hq : q ≠ 0) :
    crossNorm p q / (‖p‖ * ‖q‖) = Real.sin (angle p q) := by
  have n1 : 0 < ‖p‖ := norm_pos_iff.2 hp
  have n2 : 0 < ‖q‖ := norm_pos_iff.2 hq
  rw [div_eq_iff (by positivity)]
  have h0 := sin_angle_nonneg p q
  rw [← sq_eq_sq₀ (show 0 ≤ crossNorm p q from Real.sqrt_nonneg _) (by positivity)]
  have hc := cos_angle_mul_norm_mul_norm p q
  have hs := Real.sin_sq_add_cos_sq (angle p q)
  have e1 : ‖p‖ ^ 2 = p 0 ^ 2 + p 1 ^ 2 + p 2 ^ 2 := by
    rw [EuclideanSpace.norm_sq_eq]; simp [Fin.sum_univ_three, sq_abs]
  have e2 : ‖q‖ ^ 2 = q 0 ^ 2 + q 1 ^ 2 + q 2 ^ 2 := by
    rw [EuclideanSpace.norm_sq_eq]; simp [Fin.sum_univ_three, sq_abs]
  have e3 : (inner ℝ p q : ℝ) = p 0 * q 0 + p 1 * q 1 + p 2 * q 2 := by
    simp [PiLp.inner_apply, Fin.sum_univ_three]; ring
  have e4 : (Real.sin (angle p q) * (‖p‖ * ‖q‖)) ^ 2 = ‖p‖ ^ 2 * ‖q‖ ^ 2 - (inner ℝ p q : ℝ) ^ 2 := by
    rw [← hc]
    have : Real.sin (angle p q) ^ 2 = 1 - Real.cos (angle p q) ^ 2 := by linarith
    rw [mul_pow, this]; ring
  rw [e4, e1, e2, e3]
  unfold crossNorm
  rw [Real.sq_sqrt (by positivity)]
  ring

/-- **C40, the distance of two points of space**, none of them the origin, as it is computed: the angle between them if that is at
most 90°, otherwise the angle to the opposite point. -/
theorem arc3_distance (p q : EuclideanSpace ℝ (Fin 3)) (hp : p ≠ 0) (hq : q ≠ 0) (s1 s2 : ℝ) :
    arc3Metric.distSq p q s1 s2 = (min (angle p q) (Real.pi - angle p q) ^ 2, s1 / ‖p‖, s2 / ‖q‖) := by
  have h0 := angle_nonneg p q
  have h1 := angle_le_pi p q
  have : Real.arcsin (Real.sin (angle p q)) = min (angle p q) (Real.pi - angle p q) := by
    by_cases h : angle p q ≤ Real.pi / 2
    · rw [Real.arcsin_sin (by linarith) h, min_eq_left (by linarith)]
    · rw [← Real.sin_pi_sub, Real.arcsin_sin (by linarith) (by linarith), min_eq_right (by linarith)]
  simp only [arc3Metric, crossNorm_eq p q hp hq, this]

example : (pt3 1 0 0 ≠ 0) ∧ (pt3 0 2 0 ≠ 0) := by
  constructor <;> intro h <;> have := congrArg norm h <;> rw [norm_pt3, norm_zero] at this <;> norm_num at this

/-- **C40, partial, for points of space:** angles up to 90° are right. -/
theorem arc3_is_angle_partial (p q : EuclideanSpace ℝ (Fin 3)) (hp : p ≠ 0) (hq : q ≠ 0)
    (h : angle p q ≤ Real.pi / 2) (s1 s2 : ℝ) : (arc3Metric.distSq p q s1 s2).1 = angle p q ^ 2 := by
  rw [arc3_distance p q hp hq, min_eq_left (by linarith)]

/-- **C40, negation for points of space.** Opposite directions have distance 0: with `min_sep` = 1 and
`max_sep` = 4, a range of angles that contains π, the pair (1,0,0), (-2,0,0) is not counted. -/
theorem arc3_opposite_dropped_wrong (A1 A2 : StdAlg (EuclideanSpace ℝ (Fin 3))) (fp1 fp2 : FieldParams) :
    ∃ p : Params, LogParams p ∧ p.minsep < angle (pt3 1 0 0) (pt3 (-2) 0 0) ∧
      angle (pt3 1 0 0) (pt3 (-2) 0 0) < p.maxsep ∧
      processCross (logBin _) arc3Metric p (buildField A1 (euclidGeom 3) fp1 [ob3 1 0 0 0])
        (buildField A2 (euclidGeom 3) fp2 [ob3 (-2) 0 0 0]) = some [] := by
  have hlog : Real.log 4 > 0 := Real.log_pos (by norm_num)
  have hang : angle (pt3 1 0 0) (pt3 (-2) 0 0) = Real.pi := by
    rw [angle_eq_pi_iff]
    refine ⟨?_, -2, by norm_num, ?_⟩
    · intro h; have := congrArg norm h; rw [norm_pt3, norm_zero] at this; norm_num at this
    · ext i; fin_cases i <;> simp [pt3]
  refine ⟨{ minsep := 1, maxsep := 4, nbins := 1, binsize := Real.log 4, b := 0, a := 0 }, ?_, ?_, ?_, ?_⟩
  · constructor <;> simp [hlog]
    · rw [Real.exp_log (by norm_num)]
  · rw [hang]; linarith [Real.two_le_pi]
  · rw [hang]; exact Real.pi_lt_four
  · have c : ∀ x, (euclidGeom 3).mean [ob3 x 0 0 0] = pt3 x 0 0 := by
      intro x; ext i; fin_cases i <;> simp [euclidGeom, wmean, ob3, pt3]
    have s : ∀ x, calcSizeSq (euclidGeom 3) (pt3 x 0 0) [ob3 x 0 0 0] = 0 := by
      intro x; simp [calcSizeSq, ob3, euclidGeom]
    have d : crossNorm (pt3 1 0 0) (pt3 (-2) 0 0) = 0 := by simp [crossNorm, pt3]
    unfold processCross
    rw [if_pos]
    simp only [fieldsTooFar, buildField, c, s, arc3Metric, logBin, d, Real.sqrt_zero, zero_div, zero_add,
      and_true, false_or, Real.arcsin_zero]
    left
    norm_num

end
end TreeCorr
