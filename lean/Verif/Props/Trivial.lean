import Verif.Proofs.Trivial
import Verif.Props.LogCounts

/-!
C08: skipping a pair of catalogues or patches because they are too far apart loses nothing.
-/

namespace TreeCorr
open Classical
variable {P : Type}

/-- **C08, whole fields.** If the cross-correlation of two catalogues exits early, no pair of rows has a
separation in `[min_sep, max_sep)`: Log and Linear bins, any space whose distance the tree sizes
dominate (so also the sphere with chord distances). -/
theorem early_exit_sound [PseudoMetricSpace P] (A1 A2 : StdAlg P) (g : Geom P) (hg : g.Dominates)
    (fp1 fp2 : FieldParams) (l1 l2 : List (Obj P)) (p : Params) (B : BinHelper P)
    (hB : B = logBin P ∨ B = linearBin P)
    (h : fieldsTooFar B (plainMetric P) p (buildField A1 g fp1 l1) (buildField A2 g fp2 l2)) :
    ∀ o1 ∈ l1, ∀ o2 ∈ l2, dist o1.pos o2.pos < p.minsep ∨ p.maxsep ≤ dist o1.pos o2.pos := by
  intro o1 h1 o2 h2
  have k1 := buildField_center A1 g hg fp1 l1 o1 h1
  have k2 := buildField_center A2 g hg fp2 l2 o2 h2
  rcases hB with rfl | rfl
  · exact sep_far h k1 k2
  · exact sep_far (p := p) h k1 k2

/-- **C08, whole fields, TwoD bins.** -/
theorem early_exit_sound_twoD (A1 A2 : StdAlg Flat2) (fp1 fp2 : FieldParams) (l1 l2 : List (Obj Flat2))
    (p : Params) (hm : 0 ≤ p.maxsep)
    (h : fieldsTooFar twoDBin (plainMetric Flat2) p (buildField A1 (euclidGeom 2) fp1 l1)
      (buildField A2 (euclidGeom 2) fp2 l2)) :
    ∀ o1 ∈ l1, ∀ o2 ∈ l2, dist o1.pos o2.pos < p.minsep ∨
      ¬ (|o1.pos 0 - o2.pos 0| < p.maxsep ∧ |o1.pos 1 - o2.pos 1| < p.maxsep) := by
  intro o1 h1 o2 h2
  have hd := dist_near (buildField_center A1 _ (euclidGeom_dominates 2) fp1 l1 o1 h1)
    (buildField_center A2 _ (euclidGeom_dominates 2) fp2 l2 o2 h2)
  simp only [fieldsTooFar, plainMetric, twoDBin, false_or, and_true] at h
  rcases h with ⟨_, h2, h3⟩ | ⟨_, h3⟩
  · left; exact tooSmall_sound hd h2 h3
  · right
    rintro ⟨a0, a1⟩
    have := tooLarge2_sound dist_nonneg hd h3
    have := flat_dist_le o1.pos o2.pos hm a0 a1
    linarith

/-- **C08, patches.** If a pair of patches is skipped as trivially zero, flat or 3d coordinates with the
Euclidean metric, no pair of rows is closer than `max_sep`: Log and Linear bins.
Missing: spherical coordinates, for which the claim is false (`sphere_trivially_zero_wrong`). -/
theorem trivially_zero_sound_partial {d : ℕ} (l1 l2 : List (Obj (EuclideanSpace ℝ (Fin d)))) (p : Params)
    (B : BinHelper (EuclideanSpace ℝ (Fin d))) (hB : B = logBin _ ∨ B = linearBin _)
    (h : patchesTriviallyZero B (plainMetric _) p l1 l2) :
    ∀ o1 ∈ l1, ∀ o2 ∈ l2, p.maxsep ≤ dist o1.pos o2.pos := by
  intro o1 h1 o2 h2
  have hd := dist_near (centerSize_le l1 o1 h1) (centerSize_le l2 o2 h2)
  rcases hB with rfl | rfl <;>
  · simp only [patchesTriviallyZero, triviallyZero, plainMetric, logBin, linearBin, and_true] at h
    exact tooLarge_sound dist_nonneg hd h.2

/-- **C08, patches, TwoD bins.** -/
theorem trivially_zero_sound_twoD (l1 l2 : List (Obj Flat2)) (p : Params) (hm : 0 ≤ p.maxsep)
    (h : patchesTriviallyZero (d := 2) twoDBin (plainMetric Flat2) p l1 l2) :
    ∀ o1 ∈ l1, ∀ o2 ∈ l2,
      ¬ (|o1.pos 0 - o2.pos 0| < p.maxsep ∧ |o1.pos 1 - o2.pos 1| < p.maxsep) := by
  intro o1 h1 o2 h2
  have hd := dist_near (centerSize_le l1 o1 h1) (centerSize_le l2 o2 h2)
  simp only [patchesTriviallyZero, triviallyZero, plainMetric, twoDBin, and_true] at h
  rintro ⟨a0, a1⟩
  have := tooLarge2_sound dist_nonneg hd h.2
  have := flat_dist_le o1.pos o2.pos hm a0 a1
  linarith

/-! ### The hypotheses can be met -/

noncomputable section

/-- (0,0) and (1,0) against (30,0), `max_sep = exp 3 < 27`. -/
example : patchesTriviallyZero (logBin _) (plainMetric _) exLog [ob 0 0 0, ob 1 0 1] [ob 30 0 0] := by
  have c1 : (centerSize [ob 0 0 0, ob 1 0 1]).1 = pt (1 / 2) 0 := by
    ext i; fin_cases i <;> simp [centerSize, ob, pt]
  have c2 : (centerSize [ob 30 0 0]).1 = pt 30 0 := by
    ext i; fin_cases i <;> simp [centerSize, ob, pt]
  have s1 : (centerSize [ob 0 0 0, ob 1 0 1]).2 = 1 / 2 := by
    have : (centerSize [ob 0 0 0, ob 1 0 1]).2
      = Real.sqrt (calcSizeSq (euclidGeom 2) (centerSize [ob 0 0 0, ob 1 0 1]).1 [ob 0 0 0, ob 1 0 1]) := rfl
    rw [this, c1]
    have e := sizeSq_two 0 1 0 0 0 1
    norm_num at e
    norm_num
    rw [e, show (1 / 4 : ℝ) = (1 / 2) ^ 2 by norm_num, Real.sqrt_sq (by norm_num)]
  have s2 : (centerSize [ob 30 0 0]).2 = 0 := by
    have : (centerSize [ob 30 0 0]).2
      = Real.sqrt (calcSizeSq (euclidGeom 2) (centerSize [ob 30 0 0]).1 [ob 30 0 0]) := rfl
    rw [this, c2]
    simp [calcSizeSq, normSq_pt]
  have e3 : Real.exp 3 < 27 := by
    have h := Real.exp_one_lt_three
    have h0 := Real.exp_pos 1
    have : Real.exp 3 = Real.exp 1 ^ 3 := by rw [← Real.exp_nat_mul]; norm_num
    rw [this]
    calc Real.exp 1 ^ 3 < 3 ^ 3 := by gcongr
      _ = 27 := by norm_num
  have dd : dist (pt (1 / 2) 0) (pt 30 0) = 59 / 2 := by rw [dist_pt_x]; norm_num [abs_of_neg]
  have hpos := Real.exp_pos 3
  simp only [patchesTriviallyZero, triviallyZero, plainMetric, logBin, c1, c2, s1, s2, dd, exLog, and_true]
  constructor <;> nlinarith

/-- A point of space. -/
def pt3 (x y z : ℝ) : EuclideanSpace ℝ (Fin 3) := !₂[x, y, z]

theorem dist_pt3 (x y z x' y' z' : ℝ) :
    dist (pt3 x y z) (pt3 x' y' z') = Real.sqrt ((x - x') ^ 2 + (y - y') ^ 2 + (z - z') ^ 2) := by
  rw [EuclideanSpace.dist_eq]
  simp [pt3, Fin.sum_univ_three, Real.dist_eq, sq_abs]

theorem norm_pt3 (x y z : ℝ) : ‖pt3 x y z‖ = Real.sqrt (x ^ 2 + y ^ 2 + z ^ 2) := by
  rw [EuclideanSpace.norm_eq]
  simp [pt3, Fin.sum_univ_three, sq_abs]

/-- A row of weight 1. -/
def ob3 (x y z : ℝ) (i : ℕ) : Obj (EuclideanSpace ℝ (Fin 3)) :=
  { pos := pt3 x y z, w := 1, wk := 0, idx := i }

/-- **C08, negation for spherical coordinates.** Catalogue 1 is the two poles of the unit sphere (any
catalogue covering the sky has its mean near the centre of the sphere), catalogue 2 the point
(-0.6, 0, 0.8).  The chord between the north pole and that point is below 0.7 = `max_sep` and above
`min_sep`, but the pair of patches is skipped as trivially zero: the centre is pushed out to the unit
sphere, and the size is still measured from the mean. -/
theorem sphere_trivially_zero_wrong : ∃ (l1 l2 : List (Obj (EuclideanSpace ℝ (Fin 3)))) (p : Params),
    LogParams p ∧ (∀ o ∈ l1 ++ l2, ‖o.pos‖ = 1 ∧ o.w = 1) ∧
    patchesTriviallyZeroSphere (logBin _) (plainMetric _) p l1 l2 ∧
    ∃ o1 ∈ l1, ∃ o2 ∈ l2, p.minsep < dist o1.pos o2.pos ∧ dist o1.pos o2.pos < p.maxsep := by
  have hlog : Real.log (7 / 2) > 0 := Real.log_pos (by norm_num)
  refine ⟨[ob3 0 0 1 0, ob3 0 0 (-1) 1], [ob3 (-3/5) 0 (4/5) 0],
    { minsep := 1 / 5, maxsep := 7 / 10, nbins := 1, binsize := Real.log (7 / 2), b := 0, a := 0 },
    ?_, ?_, ?_, ?_⟩
  · constructor <;> simp [hlog]
    · rw [Real.exp_log (by norm_num)]; norm_num
  · intro o ho
    simp only [List.cons_append, List.nil_append, List.mem_cons, List.not_mem_nil, or_false] at ho
    rcases ho with rfl | rfl | rfl <;> refine ⟨?_, rfl⟩ <;> simp only [ob3] <;> rw [norm_pt3] <;> norm_num
  · have c1 : (centerSize [ob3 0 0 1 0, ob3 0 0 (-1) 1]).1 = pt3 0 0 0 := by
      ext i; fin_cases i <;> simp [centerSize, ob3, pt3]
    have c2 : (centerSize [ob3 (-3/5) 0 (4/5) 0]).1 = pt3 (-3/5) 0 (4/5) := by
      ext i; fin_cases i <;> simp [centerSize, ob3, pt3]
    have nsq : ∀ x y z x' y' z', (euclidGeom 3).normSq (pt3 x y z) (pt3 x' y' z')
        = (x - x') ^ 2 + (y - y') ^ 2 + (z - z') ^ 2 := by
      intro x y z x' y' z'
      simp only [euclidGeom]
      rw [← dist_eq_norm, dist_pt3, Real.sq_sqrt (by positivity)]
    have s1 : (centerSize [ob3 0 0 1 0, ob3 0 0 (-1) 1]).2 = 1 := by
      have : (centerSize [ob3 0 0 1 0, ob3 0 0 (-1) 1]).2
        = Real.sqrt (calcSizeSq (euclidGeom 3) (centerSize [ob3 0 0 1 0, ob3 0 0 (-1) 1]).1
          [ob3 0 0 1 0, ob3 0 0 (-1) 1]) := rfl
      rw [this, c1]
      simp [calcSizeSq, ob3, nsq]
    have s2 : (centerSize [ob3 (-3/5) 0 (4/5) 0]).2 = 0 := by
      have : (centerSize [ob3 (-3/5) 0 (4/5) 0]).2
        = Real.sqrt (calcSizeSq (euclidGeom 3) (centerSize [ob3 (-3/5) 0 (4/5) 0]).1
          [ob3 (-3/5) 0 (4/5) 0]) := rfl
      rw [this, c2]
      simp [calcSizeSq, ob3, nsq]
    have n1 : sphereNormalize (pt3 0 0 0) = pt3 1 0 0 := by
      unfold sphereNormalize
      rw [if_pos (by rw [norm_pt3]; norm_num)]
      rfl
    have n2 : sphereNormalize (pt3 (-3/5) 0 (4/5)) = pt3 (-3/5) 0 (4/5) := by
      have : ‖pt3 (-3/5) 0 (4/5)‖ = 1 := by rw [norm_pt3]; norm_num
      unfold sphereNormalize
      rw [this, if_neg (by norm_num)]
      simp
    have dd : dist (pt3 1 0 0) (pt3 (-3/5) 0 (4/5)) ^ 2 = 16 / 5 := by
      rw [dist_pt3, Real.sq_sqrt (by positivity)]; norm_num
    simp only [patchesTriviallyZeroSphere, triviallyZero, plainMetric, logBin, c1, c2, s1, s2, n1, n2, dd,
      and_true]
    norm_num
  · refine ⟨ob3 0 0 1 0, by simp, ob3 (-3/5) 0 (4/5) 0, by simp, ?_⟩
    have : dist (pt3 0 0 1) (pt3 (-3/5) 0 (4/5)) ^ 2 = 2 / 5 := by
      rw [dist_pt3, Real.sq_sqrt (by positivity)]; norm_num
    have h0 : 0 ≤ dist (pt3 0 0 1) (pt3 (-3/5) 0 (4/5)) := dist_nonneg
    simp only [ob3]
    constructor <;> nlinarith

end
end TreeCorr
