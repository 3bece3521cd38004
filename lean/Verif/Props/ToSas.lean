import Verif.Proofs.ToSas
import Verif.Props.MultipoleAngle

/-!
C70: `toSAS` and `process` of a `LogSAS` object by way of multipoles.
-/

namespace TreeCorr
open Classical
noncomputable section

/-! ### The angles -/

theorem plane_opposite {p1 p2 p3 : EuclideanSpace ℝ (Fin 2)} (h2 : p2 ≠ p1) (h3 : p3 ≠ p1) : Opposite planeAngle p1 p2 p3 := by
  unfold Opposite
  rw [← flat_phase_angle h2 h3, ← flat_phase_angle h3 h2]
  have hne : ∀ q : EuclideanSpace ℝ (Fin 2), q ≠ p1 → flatPhase dist p1 q ≠ 0 := by
    intro q hq h0
    have h := flat_phase_angle hq hq
    rw [h0, div_zero] at h
    exact Complex.exp_ne_zero _ h.symm
  have a := hne _ h2
  have b := hne _ h3
  field_simp

theorem sky_opposite (p1 p2 p3 : EuclideanSpace ℝ (Fin 3)) : Opposite skyAngle p1 p2 p3 := by
  unfold Opposite skyAngle
  have hd : det3 p1 p3 p2 = -det3 p1 p2 p3 := by unfold det3; ring
  rw [hd, real_inner_comm p2 p3, mul_comm (inner ℝ p1 p3), neg_neg]
  set x := inner ℝ p2 p3 - inner ℝ p1 p2 * inner ℝ p1 p3
  set y := det3 p1 p2 p3
  by_cases h0 : x = 0 ∧ y = 0
  · rw [h0.1, h0.2]
    have : (⟨0, 0⟩ : ℂ) = 0 := rfl
    simp [this]
  · have hp : 0 < x * x + y * y := by
      rcases not_and_or.1 h0 with h | h
      · have := mul_self_pos.2 h; nlinarith [mul_self_nonneg y]
      · have := mul_self_pos.2 h; nlinarith [mul_self_nonneg x]
    have e : (⟨x, y⟩ : ℂ) * ⟨x, -y⟩ = ((x * x + y * y : ℝ) : ℂ) := by
      apply Complex.ext
      · simp
      · simp; ring
    refine exp_arg_opposite ?_ ?_ ?_
    · rw [e]; exact_mod_cast hp.ne'
    · rw [e]; exact_mod_cast hp
    · rw [e]; simp

/-! ### What is computed -/

/-- The product of the three weights. -/
def tripleW {P : Type} (q : Obj P × Obj P × Obj P) : ℝ := q.1.w * q.2.1.w * q.2.2.w

/-- The product of the three weighted values. -/
def tripleK {P : Type} (q : Obj P × Obj P × Obj P) : ℝ := q.1.wk * q.2.1.wk * q.2.2.wk

/-- **C70**: if the multipoles are those of a set of triangles, then `weight` in an angle bin is the sum of their weights, each spread by
the Dirichlet kernel around its angle from point 3 to point 2, at the centre of the bin; and the same for the correlation. -/
theorem toSas_spread {K P : Type} {φ : P → P → P → ℝ} (M : MpObj K) (B : PhiBins) (i j : ℤ) (m : Multiset (Obj P × Obj P × Obj P))
    (ho : ∀ q ∈ m, Opposite φ q.1.pos q.2.1.pos q.2.2.pos)
    (hw : ∀ n : ℤ, n.natAbs ≤ M.maxn → M.weight i j (n + M.maxn) = angleW φ n m)
    (hz : ∀ n : ℤ, n.natAbs ≤ M.maxn → M.zeta i j (n + M.maxn) = angleZ φ n m) (k : ℤ) :
    (toSas M B).weightr i j k = B.size / (2 * Real.pi) * spreadSum tripleW M.maxn φ m (B.phi k) ∧
    ((toSas M B).weightr i j k ≠ 0 →
      (toSas M B).z1 i j k * (toSas M B).weightr i j k = B.size / (2 * Real.pi) * spreadSum tripleK M.maxn φ m (B.phi k)) := by
  have h1 : (toSas M B).weightr i j k = B.size / (2 * Real.pi) * spreadSum tripleW M.maxn φ m (B.phi k) :=
    transform_spread tripleW M.maxn B M.weight i j k m ho hw
  have h2 : transform M.maxn B M.zeta i j k = B.size / (2 * Real.pi) * spreadSum tripleK M.maxn φ m (B.phi k) :=
    transform_spread tripleK M.maxn B M.zeta i j k m ho hz
  refine ⟨h1, fun h => ?_⟩
  have e : (toSas M B).z1 i j k = transform M.maxn B M.zeta i j k / (toSas M B).weightr i j k := if_pos h
  rw [e, div_mul_cancel₀ _ h, h2]

/-- **C70**: the numbers of triangles in the angle bins add up to the number of all ordered triangles with these sides, times the part of
the full turn that the bins cover, unless the weights in the bins add up to zero. -/
theorem toSas_ntri_total {K : Type} (M : MpObj K) (B : PhiBins) (i j : ℤ)
    (h : ∑ k ∈ Finset.Ico (0 : ℤ) B.n, (toSas M B).weightr i j k ≠ 0) :
    ∑ k ∈ Finset.Ico (0 : ℤ) B.n, (toSas M B).ntri i j k = M.ntri i j 0 * ((B.maxphi - B.minphi) / (2 * Real.pi)) := by
  have e : ∀ k, (toSas M B).ntri i j k = (toSas M B).weightr i j k * allocRatio B (M.ntri i j 0) ((toSas M B).weightr i j) := fun k => rfl
  rw [Finset.sum_congr rfl fun k _ => e k, ← Finset.sum_mul]
  unfold allocRatio
  simp only [if_neg h]
  field_simp

/-- **C70**: the sides of every bin make a triangle. -/
theorem toSas_triangle {K : Type} (M : MpObj K) (B : PhiBins) (i j k : ℤ) (h2 : 0 ≤ M.meand2 i j 0) (h3 : 0 ≤ M.meand3 i j 0) :
    |(toSas M B).meand2 i j k - (toSas M B).meand3 i j k| ≤ (toSas M B).meand1 i j k ∧
    (toSas M B).meand1 i j k ≤ (toSas M B).meand2 i j k + (toSas M B).meand3 i j k := by
  show |M.meand2 i j 0 - M.meand3 i j 0| ≤
      Real.sqrt (M.meand2 i j 0 ^ 2 + M.meand3 i j 0 ^ 2 - 2 * M.meand2 i j 0 * M.meand3 i j 0 * Real.cos (B.phi k)) ∧
    Real.sqrt (M.meand2 i j 0 ^ 2 + M.meand3 i j 0 ^ 2 - 2 * M.meand2 i j 0 * M.meand3 i j 0 * Real.cos (B.phi k)) ≤
      M.meand2 i j 0 + M.meand3 i j 0
  set a := M.meand2 i j 0
  set b := M.meand3 i j 0
  have c1 := Real.cos_le_one (B.phi k)
  have c2 := Real.neg_one_le_cos (B.phi k)
  have hab := mul_nonneg h2 h3
  constructor
  · apply Real.abs_le_sqrt
    nlinarith
  · rw [Real.sqrt_le_left (by positivity)]
    nlinarith

/-- **C70**: if the results of the pairs of patches add up to the whole, so they do after the conversion, in every array but `tot`. -/
theorem toSas_results_sum {K : Type} (M : MpObj K) (B : PhiBins) (i j k : ℤ)
    (hw : ∀ m, M.weight i j m = (M.results.map fun r => r.2.weight i j m).sum)
    (hz : ∀ m, M.zeta i j m = (M.results.map fun r => r.2.zeta i j m).sum) :
    (toSas M B).weightr i j k = ((toSas M B).results.map fun r => r.2.weightr i j k).sum ∧
    (toSas M B).ntri i j k = ((toSas M B).results.map fun r => r.2.ntri i j k).sum ∧
    ((toSas M B).weightr i j k ≠ 0 →
      (toSas M B).z1 i j k * (toSas M B).weightr i j k = ((toSas M B).results.map fun r => r.2.z1 i j k).sum) ∧
    (toSas M B).meand1 i j k * (toSas M B).weightr i j k = ((toSas M B).results.map fun r => r.2.meand1 i j k).sum ∧
    (toSas M B).meand2 i j k * (toSas M B).weightr i j k = ((toSas M B).results.map fun r => r.2.meand2 i j k).sum ∧
    (toSas M B).meand3 i j k * (toSas M B).weightr i j k = ((toSas M B).results.map fun r => r.2.meand3 i j k).sum ∧
    (toSas M B).meanphi i j k * (toSas M B).weightr i j k = ((toSas M B).results.map fun r => r.2.meanphi i j k).sum := by
  have lin : ∀ (l : List (K × MpEntry)) (f : MpEntry → ℤ → ℤ → ℤ → ℂ) (w : ℤ → ℤ → ℤ → ℂ), (∀ m, w i j m = (l.map fun r => f r.2 i j m).sum) →
      transform M.maxn B w i j k = (l.map fun r => transform M.maxn B (f r.2) i j k).sum := by
    intro l f
    induction l with
    | nil =>
      intro w h
      unfold transform
      rw [Finset.sum_congr rfl fun n _ => by rw [h, List.map_nil, List.sum_nil, zero_mul]]
      simp
    | cons r l ih =>
      intro w h
      have := ih (fun a b m => (l.map fun r => f r.2 a b m).sum) fun m => rfl
      rw [List.map_cons, List.sum_cons, ← this]
      unfold transform
      rw [Finset.sum_congr rfl fun n _ => by rw [h, List.map_cons, List.sum_cons, add_mul], Finset.sum_add_distrib, Complex.add_re]
      ring
  have mulsum : ∀ (l : List (K × MpEntry)) (c : ℝ) (f : K × MpEntry → ℝ), (l.map fun r => f r * c).sum = (l.map f).sum * c :=
    fun l c f => List.sum_map_mul_right ..
  have h1 : (toSas M B).weightr i j k = (M.results.map fun r => transform M.maxn B r.2.weight i j k).sum :=
    lin M.results MpEntry.weight M.weight hw
  have h2 : transform M.maxn B M.zeta i j k = (M.results.map fun r => transform M.maxn B r.2.zeta i j k).sum :=
    lin M.results MpEntry.zeta M.zeta hz
  have er : ∀ f : SasEntry → ℝ, ((toSas M B).results.map fun r => f r.2).sum = (M.results.map fun r => f
      { weightr := transform M.maxn B r.2.weight
        ntri := fun i j k => transform M.maxn B r.2.weight i j k * allocRatio B (M.ntri i j 0) ((toSas M B).weightr i j)
        z1 := transform M.maxn B r.2.zeta
        meand1 := fun i j k => (toSas M B).meand1 i j k * transform M.maxn B r.2.weight i j k
        meand2 := fun i j k => (toSas M B).meand2 i j k * transform M.maxn B r.2.weight i j k
        meand3 := fun i j k => (toSas M B).meand3 i j k * transform M.maxn B r.2.weight i j k
        meanphi := fun i j k => (toSas M B).meanphi i j k * transform M.maxn B r.2.weight i j k
        tot := r.2.tot }).sum := by
    intro f
    show ((M.results.map _).map _).sum = _
    rw [List.map_map]; rfl
  have mulsum' : ∀ (c : ℝ), (M.results.map fun r => c * transform M.maxn B r.2.weight i j k).sum = c * (toSas M B).weightr i j k := by
    intro c
    rw [h1, List.sum_map_mul_left]
  refine ⟨h1.trans (er fun e => e.weightr i j k).symm, Eq.trans ?_ (er fun e => e.ntri i j k).symm, fun h => ?_,
    (mulsum' _).symm.trans (er fun e => e.meand1 i j k).symm, (mulsum' _).symm.trans (er fun e => e.meand2 i j k).symm,
    (mulsum' _).symm.trans (er fun e => e.meand3 i j k).symm, (mulsum' _).symm.trans (er fun e => e.meanphi i j k).symm⟩
  · rw [mulsum, ← h1]; rfl
  · have e : (toSas M B).z1 i j k = transform M.maxn B M.zeta i j k / (toSas M B).weightr i j k := if_pos h
    rw [e, div_mul_cancel₀ _ h, h2]
    exact (er fun e => e.z1 i j k).symm

/-! ### Totals over the bins from 0 to π -/

/-- **C70**: with the bins from 0 to π and multipoles without imaginary part, the weights in the bins add up to half of the total weight,
provided `max_n` is less than twice the number of bins. -/
theorem toSas_weight_total_partial {K : Type} (M : MpObj K) {n : ℕ} (hn : 0 < n) (u : ℝ) (i j : ℤ) (hr : ∀ m, (M.weight i j m).im = 0)
    (h : M.maxn < 2 * n) :
    ∑ k ∈ Finset.Ico (0 : ℤ) n, (toSas M ⟨0, Real.pi, n, u⟩).weightr i j k = (M.weight i j M.maxn).re / 2 := by
  have hnr : (n : ℝ) ≠ 0 := by exact_mod_cast hn.ne'
  have e : ∀ k, (toSas M ⟨0, Real.pi, n, u⟩).weightr i j k = _ := fun k => transform_eq M.maxn ⟨0, Real.pi, n, u⟩ M.weight i j k
  rw [Finset.sum_congr rfl fun k _ => e k, ← Finset.mul_sum, Finset.sum_comm,
    Finset.sum_eq_single (0 : ℤ)]
  · simp only [zero_add, Int.cast_zero, zero_mul, Real.cos_zero, Real.sin_zero, mul_one, mul_zero, sub_zero, Finset.sum_const, Int.card_Ico,
      PhiBins.size]
    rw [Int.toNat_natCast, nsmul_eq_mul]
    have := Real.pi_ne_zero
    field_simp
  · intro b hb h0
    have hb := Finset.mem_Icc.1 hb
    rw [Finset.sum_congr rfl fun k _ => by rw [hr, zero_mul, sub_zero], ← Finset.mul_sum, sum_cos_bins hn u h0 (by omega), mul_zero]
  · intro h0; exact absurd (Finset.mem_Icc.2 (by omega)) h0

/-- **C70, what happens with the default `max_n`**, twice the number of bins: the last multipole enters too. -/
theorem toSas_weight_total_default {K : Type} (M : MpObj K) {n : ℕ} (hn : 0 < n) (u : ℝ) (i j : ℤ) (hr : ∀ m, (M.weight i j m).im = 0)
    (h : M.maxn = 2 * n) (hc : M.weight i j 0 = M.weight i j (2 * M.maxn)) :
    ∑ k ∈ Finset.Ico (0 : ℤ) n, (toSas M ⟨0, Real.pi, n, u⟩).weightr i j k =
      (M.weight i j M.maxn).re / 2 - (M.weight i j (2 * M.maxn)).re := by
  have hnr : (n : ℝ) ≠ 0 := by exact_mod_cast hn.ne'
  have e : ∀ k, (toSas M ⟨0, Real.pi, n, u⟩).weightr i j k = _ := fun k => transform_eq M.maxn ⟨0, Real.pi, n, u⟩ M.weight i j k
  have hI : Finset.Icc (-(M.maxn : ℤ)) M.maxn = insert (-(M.maxn : ℤ)) (insert (M.maxn : ℤ) (insert 0
      ((Finset.Ioo (-(M.maxn : ℤ)) M.maxn).erase 0))) := by
    ext x; simp only [Finset.mem_Icc, Finset.mem_insert, Finset.mem_erase, Finset.mem_Ioo]; omega
  have card : (Finset.Ico (0 : ℤ) n).card = n := by simp
  have al : ∀ k : ℤ, Real.cos ((M.maxn : ℝ) * PhiBins.phi ⟨0, Real.pi, n, u⟩ k) = -1 := by
    intro k
    have := cos_alias hn u k
    rw [h]; push_cast; exact this
  rw [Finset.sum_congr rfl fun k _ => e k, ← Finset.mul_sum, Finset.sum_comm, hI,
    Finset.sum_insert (by simp [Finset.mem_insert]; omega), Finset.sum_insert (by simp [Finset.mem_insert]; omega),
    Finset.sum_insert (by simp), Finset.sum_eq_zero (s := (Finset.Ioo (-(M.maxn : ℤ)) M.maxn).erase 0)]
  · have s1 : ∀ k ∈ Finset.Ico (0 : ℤ) n, (M.weight i j (-(M.maxn : ℤ) + M.maxn)).re *
        Real.cos (((-(M.maxn : ℤ) : ℤ) : ℝ) * PhiBins.phi ⟨0, Real.pi, n, u⟩ k) - (M.weight i j (-(M.maxn : ℤ) + M.maxn)).im *
        Real.sin (((-(M.maxn : ℤ) : ℤ) : ℝ) * PhiBins.phi ⟨0, Real.pi, n, u⟩ k) = -(M.weight i j (2 * M.maxn)).re := by
      intro k _
      rw [hr, neg_add_cancel, hc]
      push_cast
      rw [neg_mul, Real.cos_neg, al]; ring
    have s2 : ∀ k ∈ Finset.Ico (0 : ℤ) n, (M.weight i j ((M.maxn : ℤ) + M.maxn)).re *
        Real.cos ((((M.maxn : ℤ) : ℤ) : ℝ) * PhiBins.phi ⟨0, Real.pi, n, u⟩ k) - (M.weight i j ((M.maxn : ℤ) + M.maxn)).im *
        Real.sin ((((M.maxn : ℤ) : ℤ) : ℝ) * PhiBins.phi ⟨0, Real.pi, n, u⟩ k) = -(M.weight i j (2 * M.maxn)).re := by
      intro k _
      rw [hr, ← two_mul]
      push_cast
      rw [al]; ring
    rw [Finset.sum_congr rfl s1, Finset.sum_congr rfl s2]
    simp only [zero_add, Int.cast_zero, zero_mul, Real.cos_zero, Real.sin_zero, mul_one, mul_zero, sub_zero, Finset.sum_const, card,
      PhiBins.size, nsmul_eq_mul]
    have := Real.pi_ne_zero
    field_simp
    ring
  · intro b hb
    simp only [Finset.mem_erase, Finset.mem_Ioo] at hb
    rw [Finset.sum_congr rfl fun k _ => by rw [hr, zero_mul, sub_zero], ← Finset.mul_sum, sum_cos_bins hn u hb.1 (by omega), mul_zero]

theorem maxN_default {n : ℕ} (hn : 0 < n) (u : ℝ) : (PhiBins.mk 0 Real.pi n u).maxN none = 2 * n := by
  have hnr : (n : ℝ) ≠ 0 := by exact_mod_cast hn.ne'
  have : 2 * Real.pi / (PhiBins.mk 0 Real.pi n u).size = ((2 * n : ℕ) : ℝ) := by
    have := Real.pi_ne_zero
    simp only [PhiBins.size, sub_zero]
    push_cast
    field_simp
  unfold PhiBins.maxN
  simp only [this, Nat.floor_natCast]

/-! ### Which information is kept -/

/-- **C70**: with at least `2 max_n + 1` angle bins nothing is lost: the weights in the bins determine all multipoles, of which those of
`n` and `-n` are conjugate. -/
theorem toSas_information_partial {K : Type} {M M' : MpObj K} {B : PhiBins} (hB : B.Ok) (hn : 2 * M.maxn + 1 ≤ B.n) (he : M'.maxn = M.maxn)
    (i j : ℤ) (hc : ∀ n : ℤ, n.natAbs ≤ M.maxn → M.weight i j (-n + M.maxn) = (starRingEnd ℂ) (M.weight i j (n + M.maxn)))
    (hc' : ∀ n : ℤ, n.natAbs ≤ M.maxn → M'.weight i j (-n + M.maxn) = (starRingEnd ℂ) (M'.weight i j (n + M.maxn)))
    (h : ∀ k : ℤ, 0 ≤ k → k < B.n → (toSas M B).weightr i j k = (toSas M' B).weightr i j k) :
    ∀ m : ℤ, 0 ≤ m → m ≤ 2 * M.maxn → M.weight i j m = M'.weight i j m := by
  have key := trig_zero M.maxn hB hn (fun m => M.weight i j m - M'.weight i j m) ?_
  · intro m h0 hm
    exact sub_eq_zero.1 (key m h0 hm)
  · intro k h0 hk
    set c : ℤ → ℂ := fun m => M.weight i j m - M'.weight i j m
    set S := ∑ n ∈ Finset.Icc (-(M.maxn : ℤ)) M.maxn, c (n + M.maxn) * Complex.exp (Complex.I * n * B.phi k) with hS
    have hre : S.re = 0 := by
      have e := h k h0 hk
      have e1 : (toSas M B).weightr i j k = transform M.maxn B M.weight i j k := rfl
      have e2 : (toSas M' B).weightr i j k = transform M.maxn B M'.weight i j k := by rw [← he]; rfl
      rw [e1, e2] at e
      unfold transform at e
      have hp := Real.pi_pos
      have hs := hB.size_pos
      have e3 := (div_left_inj' (by positivity : (2 * Real.pi) ≠ 0)).1 (mul_right_cancel₀ hs.ne' e)
      rw [hS, Finset.sum_congr rfl fun n _ => sub_mul _ _ _, Finset.sum_sub_distrib, Complex.sub_re, e3, sub_self]
    have hconj : (starRingEnd ℂ) S = S := by
      rw [hS, map_sum]
      refine Finset.sum_nbij' (fun n => -n) (fun n => -n) ?_ ?_ ?_ ?_ ?_
      · intro n hn; simp only [Finset.mem_Icc] at hn ⊢; omega
      · intro n hn; simp only [Finset.mem_Icc] at hn ⊢; omega
      · intro n _; simp
      · intro n _; simp
      · intro n hn
        have hn := Finset.mem_Icc.1 hn
        have a1 := hc n (by omega)
        have a2 := hc' n (by omega)
        simp only [c, map_mul, map_sub, a1, a2, ← Complex.exp_conj, Complex.conj_I, Complex.conj_ofReal, map_intCast] 
        congr 2
        push_cast; ring
    have him : S.im = 0 := Complex.conj_eq_iff_im.1 hconj
    exact Complex.ext hre him

/-! ### From the catalogue -/

theorem processSas_eq {K : Type} (run : MpObj K → Option (MpObj K)) (F : FinParams3) (logd2 logd3 : ℤ → ℤ → ℤ → ℝ) (B : PhiBins)
    (given : Option ℕ) (init fin : Bool) (self : SasObj K) :
    processSas run F logd2 logd3 B given init fin self = (run (MpObj.new K (B.maxN given))).map fun M =>
      toSas (if fin then M.finalize F logd2 logd3 else M) B := by
  have e : (if init = true then MpObj.new K (MpObj.new K (B.maxN given)).maxn else MpObj.new K (B.maxN given)) =
      MpObj.new K (B.maxN given) := by
    split <;> rfl
  simp only [processSas, e]
  cases run (MpObj.new K (B.maxN given)) <;> rfl

/-- **C70, one catalogue in the plane, partly.** `process` of a `LogSAS` object with the default algorithm and `angle_slop = 0`, no two
rows at the same place: `weight` in an angle bin is the sum over the triangles with these sides, each spread around its angle from point 3
to point 2, at the centre of the bin.  The numbers of triangles in the bins add up to that of all triangles with these sides, times the
part of the full turn that the bins cover, unless the weights in the bins add up to zero. -/
theorem processSas_plane_partial {K : Type} {p : Params} (hp : LogParams p) (hnb : 0 < p.nbins) (ha : p.a = 0)
    (A : StdAlg (EuclideanSpace ℝ (Fin 2))) (g : Geom (EuclideanSpace ℝ (Fin 2))) (hg : g.Dominates) (fp : FieldParams)
    (hf : fp.minsize = 0) (l : List (Obj (EuclideanSpace ℝ (Fin 2)))) (hl : Apart l)
    (F : FinParams3) (logd2 logd3 : ℤ → ℤ → ℤ → ℝ) (B : PhiBins) (given : Option ℕ) (init : Bool) (self : SasObj K) :
    ∃ S, processSas (runAuto p (flatPhase dist) (buildField A g fp l).cells) F logd2 logd3 B given init true self = some S ∧
      ∀ k2 k3, p.hasBin k2 → p.hasBin k3 →
        (∀ k, S.weightr k2 k3 k = B.size / (2 * Real.pi) *
            spreadSum tripleW (B.maxN given) planeAngle ((orderedTriples l).filter (InSides p k2 k3)) (B.phi k) ∧
          (S.weightr k2 k3 k ≠ 0 → S.z1 k2 k3 k * S.weightr k2 k3 k = B.size / (2 * Real.pi) *
            spreadSum tripleK (B.maxN given) planeAngle ((orderedTriples l).filter (InSides p k2 k3)) (B.phi k))) ∧
        (∑ k ∈ Finset.Ico (0 : ℤ) B.n, S.weightr k2 k3 k ≠ 0 →
          ∑ k ∈ Finset.Ico (0 : ℤ) B.n, S.ntri k2 k3 k =
            brute3N ((orderedTriples l).filter (InSides p k2 k3)) * ((B.maxphi - B.minphi) / (2 * Real.pi))) := by
  set N := B.maxN given with hN
  obtain ⟨out, e, h⟩ := multipole_plane_exact_partial hp hnb ha N A g hg fp hf l hl
  obtain ⟨out', e', hc, -⟩ := multipole_auto_exact_partial hp hnb (.inr ha) N (flatPhase dist) A g hg fp hf l
  obtain rfl : out = out' := Option.some.inj (e.symm.trans e')
  refine ⟨toSas (((MpObj.new K N).add out).finalize F logd2 logd3) B, ?_, ?_⟩
  · rw [processSas_eq]
    show Option.map _ ((multipoleAuto p N (flatPhase dist) (buildField A g fp l).cells).map (MpObj.new K N).add) = _
    rw [e]; rfl
  · intro k2 k3 b2 b3
    have ho : ∀ q ∈ (orderedTriples l).filter (InSides p k2 k3), Opposite planeAngle q.1.pos q.2.1.pos q.2.2.pos := by
      rintro ⟨o1, o2, o3⟩ hq
      have := InSides.ne hp (Multiset.mem_filter.1 hq).2
      exact plane_opposite (fun e => this.1 (dist_eq_zero.2 e.symm)) (fun e => this.2 (dist_eq_zero.2 e.symm))
    constructor
    · intro k
      refine toSas_spread (((MpObj.new K N).add out).finalize F logd2 logd3) B k2 k3 _ ho ?_ ?_ k
      · intro n hn
        rw [← (h n hn k2 k3 b2 b3).1]
        show (0 : ℂ) + mpTotal (fun v => v.weight (n + (N : ℤ) - (N : ℤ))) out k2 k3 = _
        rw [zero_add, add_sub_cancel_right]
      · intro n hn
        rw [← (h n hn k2 k3 b2 b3).2]
        show (0 : ℂ) + mpTotal (fun v => v.zeta (n + (N : ℤ) - (N : ℤ))) out k2 k3 = _
        rw [zero_add, add_sub_cancel_right]
    · intro hne
      rw [toSas_ntri_total _ B k2 k3 hne, ← hc k2 k3 b2 b3]
      congr 1
      show (if (N : ℤ) = (N : ℤ) then (0 : ℝ) + mpTotal MpVals.ntri out k2 k3 else _) = _
      rw [if_pos rfl, zero_add]

end
end TreeCorr
