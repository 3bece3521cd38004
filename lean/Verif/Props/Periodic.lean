import Verif.Model.Periodic
import Verif.Props.LogCounts
import Verif.Props.LinearCounts

/-!
C39: the `Periodic` metric.
-/

namespace TreeCorr
open Classical
noncomputable section

/-! ### Specification: the smallest distance in the periodically repeating space -/

/-- The translation by `m i` periods in each direction. -/
def image {d : ℕ} (L : Fin d → ℝ) (m : Fin d → ℤ) : EuclideanSpace ℝ (Fin d) := WithLp.toLp 2 fun i => m i * L i

/-- The smallest distance from `p` to an image of `q`. -/
def perDist {d : ℕ} (L : Fin d → ℝ) (p q : EuclideanSpace ℝ (Fin d)) : ℝ := ⨅ m : Fin d → ℤ, ‖p - q + image L m‖

/-- The plane or space with periods `L`. -/
def PerSpace {d : ℕ} (_ : Fin d → ℝ) : Type := EuclideanSpace ℝ (Fin d)

section dist
variable {d : ℕ} (L : Fin d → ℝ)

theorem perDist_le (p q : EuclideanSpace ℝ (Fin d)) (m : Fin d → ℤ) : perDist L p q ≤ ‖p - q + image L m‖ :=
  ciInf_le ⟨0, by rintro _ ⟨m, rfl⟩; exact norm_nonneg _⟩ m

theorem image_add (m n : Fin d → ℤ) : image L (m + n) = image L m + image L n := by
  ext i
  simp [image]
  ring

theorem image_neg (m : Fin d → ℤ) : image L (-m) = -image L m := by
  ext i
  simp [image]

theorem image_zero : image L 0 = 0 := by
  ext i
  simp [image]

theorem perDist_self (p : EuclideanSpace ℝ (Fin d)) : perDist L p p = 0 := by
  apply le_antisymm
  · refine (perDist_le L p p 0).trans ?_
    rw [image_zero]
    simp
  · exact le_ciInf fun m => norm_nonneg _

theorem perDist_comm (p q : EuclideanSpace ℝ (Fin d)) : perDist L p q = perDist L q p := by
  have : ∀ p q, perDist L p q ≤ perDist L q p := by
    intro p q
    refine le_ciInf fun m => ?_
    refine (perDist_le L p q (-m)).trans (le_of_eq ?_)
    rw [image_neg, ← norm_neg]
    congr 1
    abel
  exact le_antisymm (this p q) (this q p)

theorem perDist_triangle (p q r : EuclideanSpace ℝ (Fin d)) : perDist L p r ≤ perDist L p q + perDist L q r := by
  refine le_ciInf_add_ciInf fun m n => ?_
  refine (perDist_le L p r (m + n)).trans ?_
  rw [image_add]
  refine le_trans (le_of_eq ?_) (norm_add_le _ _)
  congr 1
  abel

end dist

/-- The periodic distance is symmetric and obeys the triangle inequality, whatever the periods. -/
instance {d : ℕ} (L : Fin d → ℝ) : PseudoMetricSpace (PerSpace L) where
  dist := perDist L
  dist_self := perDist_self L
  dist_comm := perDist_comm L
  dist_triangle := perDist_triangle L

/-! ### The loops -/

theorem subWhile_mono {L : ℝ} {f : ℕ} {x y : ℝ} (h : subWhile L f x = some y) : ∀ {g}, f ≤ g → subWhile L g x = some y := by
  induction f generalizing x with
  | zero =>
    intro g _
    rw [subWhile] at h
    split at h
    · cases h
    · rename_i hx
      cases g <;> rw [subWhile, if_neg hx, ← h]
  | succ f ih =>
    intro g hg
    obtain ⟨g, rfl⟩ : ∃ g', g = g' + 1 := ⟨g - 1, by omega⟩
    rw [subWhile] at h ⊢
    split at h
    · rename_i hx
      rw [if_pos hx]
      exact ih h (by omega)
    · rename_i hx
      rw [if_neg hx, h]

theorem addWhile_mono {L : ℝ} {f : ℕ} {x y : ℝ} (h : addWhile L f x = some y) : ∀ {g}, f ≤ g → addWhile L g x = some y := by
  induction f generalizing x with
  | zero =>
    intro g _
    rw [addWhile] at h
    split at h
    · cases h
    · rename_i hx
      cases g <;> rw [addWhile, if_neg hx, ← h]
  | succ f ih =>
    intro g hg
    obtain ⟨g, rfl⟩ : ∃ g', g = g' + 1 := ⟨g - 1, by omega⟩
    rw [addWhile] at h ⊢
    split at h
    · rename_i hx
      rw [if_pos hx]
      exact ih h (by omega)
    · rename_i hx
      rw [if_neg hx, h]

theorem wrapLoops_mono {L : ℝ} {f g : ℕ} {x y : ℝ} (h : wrapLoops L f x = some y) (hg : f ≤ g) : wrapLoops L g x = some y := by
  obtain ⟨z, h1, h2⟩ := Option.bind_eq_some_iff.1 h
  rw [wrapLoops, subWhile_mono h1 hg, Option.bind_some, addWhile_mono h2 hg]

/-- A sum over at most `k` turns is enough. -/
theorem subWhile_ends {L : ℝ} (hL : 0 < L) (k : ℕ) : ∀ x, x ≤ L / 2 + k * L →
    ∃ n : ℕ, subWhile L k x = some (x - n * L) ∧ x - n * L ≤ L / 2 ∧ (n ≠ 0 → -(L / 2) < x - n * L) := by
  induction k with
  | zero =>
    intro x hx
    refine ⟨0, ?_, by simpa using hx, by simp⟩
    rw [subWhile, if_neg (by simp at hx; linarith)]
    simp
  | succ k ih =>
    intro x hx
    by_cases h : x > L / 2
    · obtain ⟨n, h1, h2, h3⟩ := ih (x - L) (by push_cast at hx; linarith)
      have e : x - ((n + 1 : ℕ) : ℝ) * L = x - L - n * L := by push_cast; ring
      refine ⟨n + 1, by rw [subWhile, if_pos h, h1, e], by rw [e]; exact h2, fun _ => ?_⟩
      rw [e]
      by_cases hn : n = 0
      · subst hn
        push_cast
        linarith
      · exact h3 hn
    · refine ⟨0, by rw [subWhile, if_neg h]; simp, by push_cast; linarith, by simp⟩

theorem addWhile_ends {L : ℝ} (hL : 0 < L) (k : ℕ) : ∀ x, -(L / 2) - k * L ≤ x → x ≤ L / 2 →
    ∃ n : ℕ, addWhile L k x = some (x + n * L) ∧ -(L / 2) ≤ x + n * L ∧ x + n * L ≤ L / 2 := by
  induction k with
  | zero =>
    intro x hx hx2
    refine ⟨0, ?_, by simpa using hx, by simpa using hx2⟩
    rw [addWhile, if_neg (by simp at hx; linarith)]
    simp
  | succ k ih =>
    intro x hx hx2
    by_cases h : x < -L / 2
    · obtain ⟨n, h1, h2, h3⟩ := ih (x + L) (by push_cast at hx; linarith) (by linarith)
      have e : x + ((n + 1 : ℕ) : ℝ) * L = x + L + n * L := by push_cast; ring
      exact ⟨n + 1, by rw [addWhile, if_pos h, h1, e], by rw [e]; exact h2, by rw [e]; exact h3⟩
    · refine ⟨0, by rw [addWhile, if_neg h]; simp, by push_cast; linarith, by push_cast; linarith⟩

/-- **C39**: for positive periods the loops of `wrap` end, with a coordinate in `[-L/2, L/2]` that differs from the given one by whole
periods. -/
theorem wrap_ends {L : ℝ} (hL : 0 < L) (x : ℝ) :
    (∃ N, ∀ fuel, N ≤ fuel → wrapLoops L fuel x = some (wrapVal L x)) ∧ |wrapVal L x| ≤ L / 2 ∧ ∃ m : ℤ, wrapVal L x = x + m * L := by
  obtain ⟨k1, hk1⟩ := exists_nat_ge (x / L)
  have hk1' : x ≤ L / 2 + k1 * L := by
    rw [div_le_iff₀ hL] at hk1
    linarith
  obtain ⟨n1, a1, a2, a3⟩ := subWhile_ends hL k1 x hk1'
  set y := x - n1 * L with hy
  obtain ⟨k2, hk2⟩ := exists_nat_ge (-y / L)
  have hk2' : -(L / 2) - k2 * L ≤ y := by
    rw [div_le_iff₀ hL] at hk2
    linarith
  obtain ⟨n2, b1, b2, b3⟩ := addWhile_ends hL k2 y hk2' a2
  have hw : ∀ fuel, max k1 k2 ≤ fuel → wrapLoops L fuel x = some (y + n2 * L) := by
    intro fuel hf
    rw [wrapLoops, subWhile_mono a1 (le_trans (le_max_left _ _) hf), Option.bind_some,
      addWhile_mono b1 (le_trans (le_max_right _ _) hf)]
  have hex : ∃ y fuel, wrapLoops L fuel x = some y := ⟨_, _, hw _ le_rfl⟩
  have hv : wrapVal L x = y + n2 * L := by
    rw [wrapVal, dif_pos hex]
    obtain ⟨f, hf⟩ := hex.choose_spec
    have c1 := wrapLoops_mono hf (le_max_left f (max k1 k2))
    rw [hw _ (le_max_right _ _)] at c1
    exact (Option.some.inj c1).symm
  refine ⟨⟨max k1 k2, fun fuel hf => by rw [hv]; exact hw fuel hf⟩, ?_, (n2 : ℤ) - n1, ?_⟩
  · rw [hv, abs_le]
    exact ⟨b2, b3⟩
  · rw [hv, hy]
    push_cast
    ring

/-- No image of the coordinate difference is smaller. -/
theorem wrap_le {L : ℝ} (hL : 0 < L) (x : ℝ) (m : ℤ) : |wrapVal L x| ≤ |x + m * L| := by
  obtain ⟨-, h2, n, hn⟩ := wrap_ends hL x
  by_cases hm : m = n
  · rw [hm, ← hn]
  · have e : x + m * L = wrapVal L x + (m - n : ℤ) * L := by rw [hn]; push_cast; ring
    rw [e]
    have h1 : (1 : ℝ) ≤ |((m - n : ℤ) : ℝ)| := by
      have : (1 : ℤ) ≤ |m - n| := Int.one_le_abs (sub_ne_zero.2 hm)
      exact_mod_cast this
    have h3 : |((m - n : ℤ) : ℝ) * L| ≤ |wrapVal L x + (m - n : ℤ) * L| + |wrapVal L x| := by
      have := abs_sub (wrapVal L x + (m - n : ℤ) * L) (wrapVal L x)
      simpa using this
    rw [abs_mul, abs_of_pos hL] at h3
    nlinarith

/-- **C39**: the documented formula (metric.rst:179-186), for coordinates that differ by at most a period. -/
theorem wrap_formula {L x1 x2 : ℝ} (hL : 0 < L) (h : |x2 - x1| ≤ L) : |wrapVal L (x1 - x2)| = min |x2 - x1| (L - |x2 - x1|) := by
  obtain ⟨-, h2, m, hm⟩ := wrap_ends hL (x1 - x2)
  apply le_antisymm
  · refine le_min ?_ ?_
    · have := wrap_le hL (x1 - x2) 0
      rw [abs_sub_comm x2 x1]
      simpa using this
    · rcases le_total x1 x2 with h0 | h0
      · have := wrap_le hL (x1 - x2) 1
        rw [abs_of_nonneg (by linarith : 0 ≤ x2 - x1)] at h ⊢
        rw [abs_of_nonneg (by push_cast; linarith : 0 ≤ x1 - x2 + (1 : ℤ) * L)] at this
        push_cast at this
        linarith
      · have := wrap_le hL (x1 - x2) (-1)
        rw [abs_of_nonpos (by linarith : x2 - x1 ≤ 0)] at h ⊢
        rw [abs_of_nonpos (by push_cast; linarith : x1 - x2 + (-1 : ℤ) * L ≤ 0)] at this
        push_cast at this
        linarith
  · rw [hm]
    by_cases h0 : m = 0
    · subst h0
      rw [abs_sub_comm x2 x1]
      simp
    · have h1 : (1 : ℝ) ≤ |(m : ℝ)| := by
        have : (1 : ℤ) ≤ |m| := Int.one_le_abs h0
        exact_mod_cast this
      have h3 : |(m : ℝ) * L| ≤ |x1 - x2 + m * L| + |x1 - x2| := by
        have := abs_sub (x1 - x2 + m * L) (x1 - x2)
        simpa using this
      rw [abs_mul, abs_of_pos hL] at h3
      rw [abs_sub_comm x1 x2] at h3
      refine (min_le_right _ _).trans ?_
      nlinarith

/-- A negative period, which is accepted (corr2base.py:1381 only refuses 0), makes the loops run forever, for every coordinate. -/
theorem wrap_negative_hangs {L : ℝ} (hL : L < 0) (x : ℝ) (fuel : ℕ) : wrapLoops L fuel x = none := by
  have h1 : ∀ f x, x > L / 2 → subWhile L f x = none := by
    intro f
    induction f with
    | zero => intro x hx; rw [subWhile, if_pos hx]
    | succ f ih => intro x hx; rw [subWhile, if_pos hx]; exact ih _ (by linarith)
  have h2 : ∀ f x, x < -L / 2 → addWhile L f x = none := by
    intro f
    induction f with
    | zero => intro x hx; rw [addWhile, if_pos hx]
    | succ f ih => intro x hx; rw [addWhile, if_pos hx]; exact ih _ (by linarith)
  by_cases hx : x > L / 2
  · rw [wrapLoops, h1 fuel x hx]; rfl
  · have : subWhile L fuel x = some x := by cases fuel <;> rw [subWhile, if_neg hx]
    rw [wrapLoops, this, Option.bind_some]
    exact h2 fuel x (by linarith)

/-! ### The metric -/

theorem perDist_eq {d : ℕ} {L : Fin d → ℝ} (hL : ∀ i, 0 < L i) (p q : EuclideanSpace ℝ (Fin d)) :
    perDist L p q = Real.sqrt (∑ i, wrapVal (L i) (p i - q i) ^ 2) ∧ ∃ m, perDist L p q = ‖p - q + image L m‖ := by
  choose m hm using fun i => (wrap_ends (hL i) (p i - q i)).2.2
  have e : ‖p - q + image L m‖ = Real.sqrt (∑ i, wrapVal (L i) (p i - q i) ^ 2) := by
    rw [EuclideanSpace.norm_eq]
    congr 1
    refine Finset.sum_congr rfl fun i _ => ?_
    rw [Real.norm_eq_abs, sq_abs, hm i]
    simp [image]
  have le : ∀ n, Real.sqrt (∑ i, wrapVal (L i) (p i - q i) ^ 2) ≤ ‖p - q + image L n‖ := by
    intro n
    rw [EuclideanSpace.norm_eq]
    refine Real.sqrt_le_sqrt (Finset.sum_le_sum fun i _ => ?_)
    have := wrap_le (hL i) (p i - q i) (n i)
    rw [Real.norm_eq_abs, ← sq_abs (wrapVal _ _)]
    refine pow_le_pow_left₀ (abs_nonneg _) (this.trans (le_of_eq ?_)) 2
    simp [image]
  have : perDist L p q = Real.sqrt (∑ i, wrapVal (L i) (p i - q i) ^ 2) :=
    le_antisymm (e ▸ perDist_le L p q m) (le_ciInf le)
  exact ⟨this, m, this.trans e.symm⟩

/-- **C39**: the distance computed by the metric is the smallest of the distances to all the periodic images, which is attained. -/
theorem periodic_minimal_image {d : ℕ} {L : Fin d → ℝ} (hL : ∀ i, 0 < L i) (p q : EuclideanSpace ℝ (Fin d)) (s1 s2 : ℝ) :
    IsLeast (Set.range fun m : Fin d → ℤ => ‖p - q + image L m‖) (Real.sqrt ((perMetric L).distSq p q s1 s2).1) ∧
      ((perMetric L).distSq p q s1 s2).2 = (s1, s2) := by
  obtain ⟨h1, m, h2⟩ := perDist_eq hL p q
  have h3 : Real.sqrt ((perMetric L).distSq p q s1 s2).1 = perDist L p q := h1.symm
  rw [h3]
  refine ⟨⟨⟨m, h2.symm⟩, ?_⟩, rfl⟩
  rintro _ ⟨n, rfl⟩
  exact perDist_le L p q n

/-- So the code of the metric is the generic code for the periodic space. -/
theorem perMetric_eq {d : ℕ} {L : Fin d → ℝ} (hL : ∀ i, 0 < L i) :
    (perMetric L : MetricHelper (EuclideanSpace ℝ (Fin d))) = (plainMetric (PerSpace L) : MetricHelper (PerSpace L)) := by
  have : ∀ p q : EuclideanSpace ℝ (Fin d), ∑ i, wrapVal (L i) (p i - q i) ^ 2 = perDist L p q ^ 2 := by
    intro p q
    rw [(perDist_eq hL p q).1, Real.sq_sqrt (Finset.sum_nonneg fun i _ => sq_nonneg _)]
  unfold perMetric plainMetric
  simp only [this]
  rfl

/-- **C39**: cell sizes, which the tree builder computes without wrapping, bound the periodic distances of the objects from the
centre. -/
theorem perGeom_dominates {d : ℕ} (L : Fin d → ℝ) : Geom.Dominates (P := PerSpace L) (euclidGeom d) := by
  have key : ∀ p q : EuclideanSpace ℝ (Fin d), perDist L p q ^ 2 ≤ ‖q - p‖ ^ 2 := by
    intro p q
    have h := perDist_le L p q 0
    rw [image_zero, add_zero, norm_sub_rev] at h
    exact pow_le_pow_left₀ (le_ciInf fun m => norm_nonneg _) h 2
  exact key

/-- **C39**: cross-correlations with the `Periodic` metric in Log bins with `bin_slop = 0` count each pair in the bin of its
minimal-image separation. -/
theorem periodic_cross_log_exact {d : ℕ} {L : Fin d → ℝ} (hL : ∀ i, 0 < L i) (A1 A2 : StdAlg (EuclideanSpace ℝ (Fin d)))
    (fp1 fp2 : FieldParams) (hf1 : fp1.minsize = 0) (hf2 : fp2.minsize = 0) {p : Params} (hp : LogParams p) (hb : p.b = 0)
    (l1 l2 : List (Obj (EuclideanSpace ℝ (Fin d)))) (hw1 : ∀ o ∈ l1, o.Valid) (hw2 : ∀ o ∈ l2, o.Valid) :
    ∃ es, processCross (logBin _) (perMetric L) p (buildField A1 (euclidGeom d) fp1 l1) (buildField A2 (euclidGeom d) fp2 l2) = some es ∧
      ∀ k, let prs := (crossPairs l1 l2).filter (fun q => InLogBin p.minsep p.binsize p.nbins k (perDist L q.1.pos q.2.pos))
        (accumulate Acc.zero es).weight k = bruteW prs ∧
        (accumulate Acc.zero es).nk k = bruteNK prs ∧
        (accumulate Acc.zero es).kk k = bruteKK prs ∧
        ((∀ o ∈ l1, 0 < o.w) → (∀ o ∈ l2, 0 < o.w) → (accumulate Acc.zero es).npairs k = bruteN prs) := by
  rw [perMetric_eq hL]
  exact cross_log_exact (P := PerSpace L) A1 A2 (euclidGeom d) (perGeom_dominates L) fp1 fp2 hf1 hf2 hp hb l1 l2 hw1 hw2

/-- **C39**: the same for auto-correlations. -/
theorem periodic_auto_log_exact_partial {d : ℕ} {L : Fin d → ℝ} (hL : ∀ i, 0 < L i) (A : StdAlg (EuclideanSpace ℝ (Fin d)))
    (fp : FieldParams) (hf : fp.minsize = 0) {p : Params} (hp : LogParams p) (hb : p.b = 0)
    (l : List (Obj (EuclideanSpace ℝ (Fin d)))) (hw : ∀ o ∈ l, o.Valid)
    (hmin : ∀ q ∈ autoPairs l, perDist L q.1.pos q.2.pos ≠ p.minsep) :
    ∃ es, processAuto (decide11 (logBin _) (perMetric L) p false) p (buildField A (euclidGeom d) fp l).cells = some es ∧
      ∀ k, let prs := (autoPairs l).filter (fun q => InLogBin p.minsep p.binsize p.nbins k (perDist L q.1.pos q.2.pos))
        (accumulate Acc.zero es).weight k = bruteW prs ∧
        (accumulate Acc.zero es).kk k = bruteKK prs ∧
        ((∀ o ∈ l, 0 < o.w) → (accumulate Acc.zero es).npairs k = bruteN prs) := by
  rw [perMetric_eq hL]
  exact auto_log_exact_partial (P := PerSpace L) A (euclidGeom d) (perGeom_dominates L) fp hf hp hb l hw hmin

/-- A square of side 10: (1,0) and (9,0) are 2 apart. -/
example : perDist (fun _ : Fin 2 => 10) (pt 1 0) (pt 9 0) = 2 := by
  rw [(perDist_eq (fun _ => by norm_num) _ _).1]
  have h1 : |wrapVal 10 (1 - 9)| = 2 := by
    rw [wrap_formula (by norm_num) (by norm_num)]
    norm_num
  have h2 : |wrapVal 10 (0 - 0)| = 0 := by
    rw [wrap_formula (by norm_num) (by norm_num)]
    norm_num
  have e1 : wrapVal 10 (1 - 9) ^ 2 = 2 ^ 2 := by rw [← sq_abs, h1]
  have e2 : wrapVal 10 (0 - 0) ^ 2 = 0 := by rw [← sq_abs, h2]; norm_num
  rw [Fin.sum_univ_two]
  change Real.sqrt (wrapVal 10 (1 - 9) ^ 2 + wrapVal 10 (0 - 0) ^ 2) = 2
  rw [e1, e2, add_zero, Real.sqrt_sq (by norm_num)]

end
end TreeCorr
