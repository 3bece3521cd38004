import Verif.Props.ToSas

/-!
C70, continued: cases, and where the conversion does not give what the documentation promises.
-/

namespace TreeCorr
open Classical
noncomputable section

/-! ### One triangle -/

/-- The multipoles, up to `N`, of one triangle of weight 1 whose angle from point 3 to point 2 is `x`. -/
def oneMp (N : ℕ) (x : ℝ) : MpObj Unit :=
  { maxn := N, weight := fun _ _ m => Complex.exp (-(Complex.I * ((m - N : ℤ) : ℂ) * x)), zeta := 0, ntri := 1, meand2 := 1, meanlogd2 := 0,
    meand3 := 1, meanlogd3 := 0, tot := 1, results := [] }

theorem toSas_one (N : ℕ) (x : ℝ) (B : PhiBins) (i j k : ℤ) :
    (toSas (oneMp N x) B).weightr i j k = B.size / (2 * Real.pi) * dirichlet N (B.phi k - x) := by
  have e : (toSas (oneMp N x) B).weightr i j k = _ := transform_eq N B (oneMp N x).weight i j k
  rw [e]
  congr 1
  refine Finset.sum_congr rfl fun n _ => ?_
  have : (oneMp N x).weight i j (n + N) = Complex.exp ((-(n * x) : ℝ) * Complex.I) := by
    simp only [oneMp, add_sub_cancel_right]
    congr 1
    push_cast; ring
  rw [this, Complex.exp_ofReal_mul_I_re, Complex.exp_ofReal_mul_I_im, Real.cos_neg, Real.sin_neg, mul_sub, Real.cos_sub]
  ring

theorem sin_frac_ne {K : ℕ} (hK : 0 < K) {j : ℤ} (h : ∀ l : ℤ, j ≠ l * (2 * K)) : Real.sin (j * (Real.pi / (2 * K))) ≠ 0 := by
  have hKr : (K : ℝ) ≠ 0 := by exact_mod_cast hK.ne'
  intro h0
  rw [Real.sin_eq_zero_iff] at h0
  obtain ⟨l, hl⟩ := h0
  apply h l
  have hp := Real.pi_ne_zero
  field_simp at hl
  have : (j : ℝ) = l * (2 * K) := by linarith
  exact_mod_cast this

theorem dirichlet_even {K : ℕ} (hK : 0 < K) {j : ℤ} (h : ∀ l : ℤ, j ≠ l * (2 * K)) : dirichlet (2 * K) (j * (Real.pi / K)) = 1 := by
  have hKr : (K : ℝ) ≠ 0 := by exact_mod_cast hK.ne'
  have hs := sin_frac_ne hK h
  have := dirichlet_closed (2 * K) (j * (Real.pi / K))
  have e1 : (j : ℝ) * (Real.pi / K) / 2 = j * (Real.pi / (2 * K)) := by field_simp
  have e2 : (((2 * K : ℕ) : ℝ) + 1 / 2) * (j * (Real.pi / K)) = j * (Real.pi / (2 * K)) + j * (2 * Real.pi) := by
    push_cast; field_simp; ring
  rw [e1, e2, Real.sin_add_int_mul_two_pi] at this
  exact mul_right_cancel₀ hs (by rw [this, one_mul])

theorem dirichlet_odd {K : ℕ} (hK : 0 < K) (j : ℤ) : dirichlet (2 * K) ((2 * j + 1) * (Real.pi / (2 * K))) = -1 := by
  have hKr : (K : ℝ) ≠ 0 := by exact_mod_cast hK.ne'
  have hs : Real.sin ((2 * j + 1) * (Real.pi / (2 * K)) / 2) ≠ 0 := by
    have := sin_frac_ne (K := 2 * K) (by omega) (j := 2 * j + 1) (fun l h => by
      have h' : 2 * j + 1 = 2 * (l * (2 * K)) := by rw [h]; push_cast; ring
      omega)
    have e : ((2 * j + 1 : ℤ) : ℝ) * (Real.pi / (2 * ((2 * K : ℕ) : ℝ))) = (2 * j + 1) * (Real.pi / (2 * K)) / 2 := by
      push_cast; field_simp
    rwa [e] at this
  have := dirichlet_closed (2 * K) ((2 * j + 1) * (Real.pi / (2 * K)))
  have e2 : (((2 * K : ℕ) : ℝ) + 1 / 2) * ((2 * j + 1) * (Real.pi / (2 * K))) =
      (2 * j + 1) * (Real.pi / (2 * K)) / 2 + Real.pi + j * (2 * Real.pi) := by
    push_cast; field_simp; ring
  rw [e2, Real.sin_add_int_mul_two_pi, Real.sin_add_pi] at this
  exact mul_right_cancel₀ hs (by rw [this, neg_one_mul])

/-- **C70, negation.** The default `max_n` of `process` is twice the number of bins.  With it a triangle of weight 1 whose angle is at the
centre of a bin has more than twice its weight in that bin, and all others get some of it too; the sum over the bins is 5/2. -/
theorem toSas_center_wrong {K : ℕ} (hK : 0 < K) (u : ℝ) (i j : ℤ) {l : ℤ} (h0 : 0 ≤ l) (hl : l < K) :
    let S := toSas (oneMp ((PhiBins.mk 0 Real.pi K u).maxN none) (PhiBins.phi ⟨0, Real.pi, K, u⟩ l)) ⟨0, Real.pi, K, u⟩
    S.weightr i j l = 2 + 1 / (2 * K) ∧ (∀ k : ℤ, 0 ≤ k → k < K → k ≠ l → S.weightr i j k = 1 / (2 * K)) ∧
      ∑ k ∈ Finset.Ico (0 : ℤ) K, S.weightr i j k = 5 / 2 := by
  have hKr : (K : ℝ) ≠ 0 := by exact_mod_cast hK.ne'
  have hp := Real.pi_ne_zero
  rw [maxN_default hK]
  intro S
  have hw : ∀ k, S.weightr i j k = _ := fun k => toSas_one _ _ _ i j k
  have h1 : S.weightr i j l = 2 + 1 / (2 * K) := by
    rw [hw, sub_self, dirichlet_zero]
    simp only [PhiBins.size]
    push_cast; field_simp; ring
  have h2 : ∀ k : ℤ, 0 ≤ k → k < K → k ≠ l → S.weightr i j k = 1 / (2 * K) := by
    intro k k0 hk hkl
    have e : PhiBins.phi ⟨0, Real.pi, K, u⟩ k - PhiBins.phi ⟨0, Real.pi, K, u⟩ l = ((k - l : ℤ) : ℝ) * (Real.pi / K) := by
      rw [phi_half hK, phi_half hK]; push_cast; field_simp; ring
    rw [hw, e, dirichlet_even hK (fun m hm => by
      have : (0 : ℤ) < 2 * K := by omega
      have h3 : m < 1 := by by_contra hc; nlinarith
      have h4 : -1 < m := by by_contra hc; nlinarith
      have : m = 0 := by omega
      subst this; omega)]
    simp only [PhiBins.size]
    field_simp; ring
  refine ⟨h1, h2, ?_⟩
  have hm : l ∈ Finset.Ico (0 : ℤ) K := Finset.mem_Ico.2 ⟨h0, hl⟩
  rw [← Finset.add_sum_erase _ _ hm, h1, Finset.sum_congr rfl fun k hk => by
    have hk := Finset.mem_erase.1 hk
    exact h2 k (Finset.mem_Ico.1 hk.2).1 (Finset.mem_Ico.1 hk.2).2 hk.1, Finset.sum_const, Finset.card_erase_of_mem hm]
  simp only [Int.card_Ico, sub_zero, Int.toNat_natCast, nsmul_eq_mul]
  rw [Nat.cast_sub (by omega)]
  push_cast; field_simp; ring

/-- **C70, negation.** With its angle at the border of two bins, all bins get a negative weight. -/
theorem toSas_border_wrong {K : ℕ} (hK : 0 < K) (u : ℝ) (i j l k : ℤ) :
    (toSas (oneMp ((PhiBins.mk 0 Real.pi K u).maxN none) (l * (Real.pi / K))) ⟨0, Real.pi, K, u⟩).weightr i j k = -(1 / (2 * K)) := by
  have hKr : (K : ℝ) ≠ 0 := by exact_mod_cast hK.ne'
  have hp := Real.pi_ne_zero
  have e : PhiBins.phi ⟨0, Real.pi, K, u⟩ k - l * (Real.pi / K) = (2 * ((k - l : ℤ) : ℝ) + 1) * (Real.pi / (2 * K)) := by
    rw [phi_half hK]; push_cast; field_simp; ring
  rw [maxN_default hK, toSas_one, e, dirichlet_odd hK]
  simp only [PhiBins.size]
  field_simp; ring

/-! ### The information -/

/-- **C70, negation.** "An object containing the same information": without arguments the object has `max_n` angle bins, and in these the
real parts of the last multipoles cannot be seen at all. -/
theorem toSas_information_wrong {K : Type} (M : MpObj K) (hN : 0 < M.maxn) (c : ℝ) (i j k : ℤ) :
    ∃ S S', toSasDefault M = some S ∧
      toSasDefault { M with weight := fun i j m => M.weight i j m + (if m = 0 ∨ m = 2 * M.maxn then (c : ℂ) else 0) } = some S' ∧
      S'.weightr i j k = S.weightr i j k := by
  have hNr : (M.maxn : ℝ) ≠ 0 := by exact_mod_cast hN.ne'
  refine ⟨_, _, if_neg hN.ne', if_neg hN.ne', ?_⟩
  refine (transform_eq M.maxn _ _ i j k).trans (Eq.trans ?_ (transform_eq M.maxn _ _ i j k).symm)
  congr 1
  refine Finset.sum_congr rfl fun n hn => ?_
  have hn := Finset.mem_Icc.1 hn
  by_cases h : n + (M.maxn : ℤ) = 0 ∨ n + (M.maxn : ℤ) = 2 * M.maxn
  · have hc : Real.cos (n * PhiBins.phi ⟨0, Real.pi, M.maxn, 1⟩ k) = 0 := by
      have hmax : Real.cos ((M.maxn : ℝ) * PhiBins.phi ⟨0, Real.pi, M.maxn, 1⟩ k) = 0 := by
        rw [phi_half hN]
        have : (M.maxn : ℝ) * ((2 * k + 1) * (Real.pi / (2 * M.maxn))) = (2 * k + 1) * Real.pi / 2 := by field_simp
        rw [this]
        exact Real.cos_eq_zero_iff.2 ⟨k, rfl⟩
      rcases h with h | h
      · have : n = -(M.maxn : ℤ) := by omega
        rw [this]; push_cast
        rw [neg_mul, Real.cos_neg, hmax]
      · have : n = (M.maxn : ℤ) := by omega
        rw [this]; push_cast; exact hmax
    simp only [if_pos h, Complex.add_re, Complex.add_im, Complex.ofReal_re, Complex.ofReal_im, hc, mul_zero, add_zero]
  · simp only [if_neg h, add_zero]

/-- **C70, negation.** `max_n = 0` is accepted by the constructor, but `toSAS` without arguments divides by zero. -/
theorem toSas_zero_wrong {K : Type} (M : MpObj K) (h : M.maxn = 0) : toSasDefault M = none := if_pos h

/-! ### The flags of `process` -/

/-- **C70, negation.** `initialize=False` is to add to what the object holds; all of it is lost. -/
theorem processSas_initialize_wrong {K : Type} (run : MpObj K → Option (MpObj K)) (F : FinParams3) (logd2 logd3 : ℤ → ℤ → ℤ → ℝ)
    (B : PhiBins) (given : Option ℕ) (fin : Bool) (self self' : SasObj K) :
    processSas run F logd2 logd3 B given false fin self = processSas run F logd2 logd3 B given true fin self' := by
  rw [processSas_eq, processSas_eq]

/-- **C70, negation.** With `finalize=False`, to be completed by `finalize` later, the number of triangles is lost: it is taken from a place
where only `finalize` of the multipole object would have put it. -/
theorem processSas_finalize_wrong {K P : Type} [PseudoMetricSpace P] (p : Params) (ph : P → P → ℂ) (cells : List (Cell P)) (F : FinParams3)
    (logd2 logd3 : ℤ → ℤ → ℤ → ℝ) (B : PhiBins) (given : Option ℕ) (hN : 0 < B.maxN given) (init : Bool) (self S : SasObj K)
    (h : processSas (runAuto p ph cells) F logd2 logd3 B given init false self = some S) (i j k : ℤ) :
    S.ntri i j k = 0 ∧ S.meand2 i j k = 0 ∧ S.meand3 i j k = 0 := by
  rw [processSas_eq] at h
  obtain ⟨M, hM, rfl⟩ := Option.map_eq_some_iff.1 h
  obtain ⟨out, -, rfl⟩ := Option.map_eq_some_iff.1 hM
  have h0 : ∀ f : MpVals → ℝ, (if (0 : ℤ) = ((B.maxN given : ℕ) : ℤ) then (0 : ℝ) + mpTotal f out i j else 0) = 0 :=
    fun f => if_neg (by omega)
  refine ⟨?_, h0 MpVals.meand2, h0 MpVals.meand3⟩
  have e : (toSas ((MpObj.new K (B.maxN given)).add out) B).ntri i j k = (toSas ((MpObj.new K (B.maxN given)).add out) B).weightr i j k *
      allocRatio B ((if (0 : ℤ) = ((B.maxN given : ℕ) : ℤ) then (0 : ℝ) + mpTotal MpVals.ntri out i j else 0))
        ((toSas ((MpObj.new K (B.maxN given)).add out) B).weightr i j) := rfl
  refine Eq.trans e ?_
  rw [h0 MpVals.ntri]
  simp [allocRatio]

/-! ### From the catalogue -/

theorem angle_right : planeAngle (pt 0 0) (pt 2 0) (pt 0 2) = Real.pi / 2 ∧ planeAngle (pt 0 0) (pt 0 2) (pt 2 0) = -(Real.pi / 2) := by
  have e1 : (⟨(pt 2 0) 0 - (pt 0 0) 0, (pt 2 0) 1 - (pt 0 0) 1⟩ : ℂ) = 2 := by apply Complex.ext <;> simp [pt]
  have e2 : (⟨(pt 0 2) 0 - (pt 0 0) 0, (pt 0 2) 1 - (pt 0 0) 1⟩ : ℂ) = 2 * Complex.I := by apply Complex.ext <;> simp [pt]
  constructor
  · rw [planeAngle, e1, e2, mul_div_cancel_left₀ _ (by norm_num), Complex.arg_I]
  · rw [planeAngle, e1, e2, show (2 : ℂ) / (2 * Complex.I) = -Complex.I by
      rw [div_eq_iff (by simp)]; linear_combination 2 * Complex.I_mul_I, Complex.arg_neg_I]

theorem exRight_far : InLogBin exMp.minsep exMp.binsize exMp.nbins 1 (Real.sqrt 8) := by
  have h1 := Real.exp_one_lt_d9
  have h4 : (7 : ℝ) < Real.exp 2 := by
    have := Real.exp_one_gt_d9
    have e : Real.exp 2 = Real.exp 1 * Real.exp 1 := by rw [← Real.exp_add]; norm_num
    rw [e]; nlinarith
  have h5 : (2.8 : ℝ) ≤ Real.sqrt 8 := Real.le_sqrt_of_sq_le (by norm_num)
  have h6 : Real.sqrt 8 ≤ 3 := Real.sqrt_le_iff.2 ⟨by norm_num, by norm_num⟩
  refine ⟨by norm_num, by norm_num [exMp], ?_, ?_⟩
  · simp [logEdge, exMp]; linarith
  · simp [logEdge, exMp]; norm_num; linarith

theorem exRight : Apart [ob 0 0 0, ob 2 0 1, ob 0 2 2] ∧
    (orderedTriples [ob 0 0 0, ob 2 0 1, ob 0 2 2]).filter (InSides exMp 0 0) =
      {(ob 0 0 0, ob 2 0 1, ob 0 2 2), (ob 0 0 0, ob 0 2 2, ob 2 0 1)} := by
  have d1 : dist (pt 0 0) (pt 2 0) = 2 := by rw [dist_pt_x]; norm_num
  have d2 : dist (pt 0 0) (pt 0 2) = 2 := by
    rw [dist_pt, show ((0 : ℝ) - 0) ^ 2 + (0 - 2) ^ 2 = 2 ^ 2 by norm_num, Real.sqrt_sq (by norm_num)]
  have d3 : dist (pt 2 0) (pt 0 2) = Real.sqrt 8 := by rw [dist_pt]; norm_num
  have d1' := d1; have d2' := d2; have d3' := d3
  rw [dist_comm] at d1' d2' d3'
  have s8 : Real.sqrt 8 ≠ 0 := by norm_num
  have a2 := exMp_bin0 (d := 2) (by norm_num) le_rfl
  have n8 := exMp_not exRight_far (k := 0) (by norm_num)
  constructor
  · have e1 : pt 0 0 ≠ pt 2 0 := dist_ne_zero.1 (by rw [d1]; norm_num)
    have e2 : pt 0 0 ≠ pt 0 2 := dist_ne_zero.1 (by rw [d2]; norm_num)
    have e3 : pt 2 0 ≠ pt 0 2 := dist_ne_zero.1 (by rw [d3]; exact s8)
    simp [Apart, e1, e2, e3]
  · simp [orderedTriples, autoTriples, autoPairs, orders6, Multiset.filter_add, Multiset.filter_cons, Multiset.filter_singleton, InSides, side2,
      side3, d1, d2, d3, d1', d2', d3', a2, n8]

/-- **C70, negation, from the catalogue.** Three rows of weight 1 with a right angle, two angle bins and the defaults: the entry of the two
short sides holds one triangle, of weight 1, and both bins report the weight -1/2. -/
theorem processSas_weight_wrong (F : FinParams3) (logd2 logd3 : ℤ → ℤ → ℤ → ℝ) (init : Bool) (self : SasObj Unit) :
    ∃ S, processSas (runAuto exMp (flatPhase dist) (buildField (sortAlg _ 0) (euclidGeom 2) exFp [ob 0 0 0, ob 2 0 1, ob 0 2 2]).cells)
        F logd2 logd3 ⟨0, Real.pi, 2, 1⟩ none init true self = some S ∧
      S.weightr 0 0 0 = -(1 / 2) ∧ S.weightr 0 0 1 = -(1 / 2) ∧ S.ntri 0 0 0 + S.ntri 0 0 1 = 1 := by
  have hp := Real.pi_ne_zero
  obtain ⟨S, e, h⟩ := processSas_plane_partial (K := Unit) exMp_ok (by norm_num [exMp]) rfl (sortAlg _ 0) (euclidGeom 2) (euclidGeom_dominates 2)
    exFp rfl _ exRight.1 F logd2 logd3 ⟨0, Real.pi, 2, 1⟩ none init self
  have k0 : exMp.hasBin 0 := by norm_num [Params.hasBin, exMp]
  obtain ⟨h1, h2⟩ := h 0 0 k0 k0
  rw [exRight.2, maxN_default (by norm_num)] at h1
  rw [exRight.2] at h2
  have w : ∀ k, S.weightr 0 0 k = -(1 / 2) := by
    intro k
    rw [(h1 k).1]
    simp only [spreadSum, Multiset.insert_eq_cons, Multiset.map_cons, Multiset.map_singleton, Multiset.sum_cons, Multiset.sum_singleton,
      tripleW, ob_pos, ob_w, angle_right]
    have e1 : PhiBins.phi ⟨0, Real.pi, 2, 1⟩ k - Real.pi / 2 = (2 * ((k - 1 : ℤ) : ℝ) + 1) * (Real.pi / (2 * (2 : ℕ))) := by
      rw [phi_half (by norm_num)]; push_cast; ring
    have e2 : PhiBins.phi ⟨0, Real.pi, 2, 1⟩ k - -(Real.pi / 2) = (2 * ((k + 1 : ℤ) : ℝ) + 1) * (Real.pi / (2 * (2 : ℕ))) := by
      rw [phi_half (by norm_num)]; push_cast; ring
    rw [e1, e2, dirichlet_odd (by norm_num), dirichlet_odd (by norm_num)]
    simp only [PhiBins.size]
    push_cast
    field_simp; norm_num
  refine ⟨S, e, w 0, w 1, ?_⟩
  have hI : Finset.Ico (0 : ℤ) ((2 : ℕ) : ℤ) = {0, 1} := by decide
  simp only [hI] at h2
  rw [Finset.sum_pair (by norm_num), Finset.sum_pair (by norm_num), w 0, w 1] at h2
  rw [h2 (by norm_num)]
  simp [brute3N]
  norm_num
  field_simp

/-- C70 (`toSas_weight_total_partial`) applied: multipoles 1 up to `max_n = 3` and two bins. -/
example : ∑ k ∈ Finset.Ico (0 : ℤ) (2 : ℕ), (toSas (oneMp 3 0) ⟨0, Real.pi, 2, 1⟩).weightr 0 0 k = 1 / 2 := by
  rw [toSas_weight_total_partial (oneMp 3 0) (by norm_num) 1 0 0 (by intro m; simp [oneMp]) (by simp [oneMp])]
  simp [oneMp]

/-- C70 (`toSas_weight_total_default`) applied: with `max_n = 4` the sum is -1/2. -/
example : ∑ k ∈ Finset.Ico (0 : ℤ) (2 : ℕ), (toSas (oneMp 4 0) ⟨0, Real.pi, 2, 1⟩).weightr 0 0 k = -(1 / 2) := by
  rw [toSas_weight_total_default (oneMp 4 0) (by norm_num) 1 0 0 (by intro m; simp [oneMp]) rfl (by simp [oneMp])]
  simp [oneMp]; norm_num

/-- C70 (`toSas_information_partial`) applied: three bins tell a triangle of angle 0 from one of angle π. -/
example : ∃ k : ℤ, 0 ≤ k ∧ k < 3 ∧
    (toSas (oneMp 1 0) ⟨0, Real.pi, 3, 1⟩).weightr 0 0 k ≠ (toSas (oneMp 1 Real.pi) ⟨0, Real.pi, 3, 1⟩).weightr 0 0 k := by
  by_contra hc
  push Not at hc
  have conj : ∀ (x : ℝ) (n : ℤ), (oneMp 1 x).weight 0 0 (-n + 1) = (starRingEnd ℂ) ((oneMp 1 x).weight 0 0 (n + 1)) := by
    intro x n
    simp [oneMp, ← Complex.exp_conj]
  have := toSas_information_partial (M := oneMp 1 0) (M' := oneMp 1 Real.pi) (B := ⟨0, Real.pi, 3, 1⟩)
    ⟨le_rfl, Real.pi_pos, le_rfl, by norm_num⟩ (by simp [oneMp]) rfl 0 0 (fun n _ => conj 0 n) (fun n _ => conj Real.pi n)
    (fun k h0 hk => hc k h0 (by exact_mod_cast hk)) 2 (by norm_num) (by simp [oneMp])
  simp [oneMp] at this
  rw [show Complex.I * (2 - 1) * (Real.pi : ℂ) = Real.pi * Complex.I by ring, Complex.exp_neg, Complex.exp_pi_mul_I] at this
  norm_num at this

end
end TreeCorr
