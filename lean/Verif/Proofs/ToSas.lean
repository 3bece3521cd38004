import Verif.Model.ToSas
import Verif.Spec.Dirichlet
import Mathlib.Analysis.SpecialFunctions.Trigonometric.Basic
import Mathlib.Analysis.SpecialFunctions.Complex.Arg
import Mathlib.Algebra.Polynomial.Roots

/-! Helper lemmas for `toSAS`. -/

namespace TreeCorr
open Classical
noncomputable section

theorem dirichlet_closed (N : ℕ) (x : ℝ) : dirichlet N x * Real.sin (x / 2) = Real.sin ((N + 1 / 2) * x) := by
  have succ : ∀ N : ℕ, dirichlet (N + 1) x = dirichlet N x + 2 * Real.cos ((N + 1) * x) := by
    intro N
    unfold dirichlet
    have e : Finset.Icc (-((N + 1 : ℕ) : ℤ)) ((N + 1 : ℕ) : ℤ) = insert (-((N : ℤ) + 1)) (insert ((N : ℤ) + 1) (Finset.Icc (-(N : ℤ)) N)) := by
      ext n
      simp only [Finset.mem_insert, Finset.mem_Icc]
      omega
    rw [e, Finset.sum_insert (by simp; omega), Finset.sum_insert (by simp)]
    push_cast
    rw [neg_mul, Real.cos_neg]
    ring
  induction N with
  | zero => 
    simp [dirichlet]
    congr 1; ring
  | succ N ih =>
    rw [succ, add_mul, ih]
    push_cast
    have e1 : (((N : ℝ) + 1) + 1 / 2) * x = (N + 1) * x + x / 2 := by ring
    have e2 : ((N : ℝ) + 1 / 2) * x = (N + 1) * x - x / 2 := by ring
    rw [e1, e2, Real.sin_add, Real.sin_sub]
    ring

theorem dirichlet_zero (N : ℕ) : dirichlet N 0 = 2 * N + 1 := by
  simp [dirichlet]
  have : ((N : ℤ) + 1 - -(N : ℤ)).toNat = 2 * N + 1 := by omega
  rw [show (N : ℤ) + 1 + N = (N : ℤ) + 1 - -(N : ℤ) by ring, this]
  push_cast; ring

/-- The real part, term by term. -/
theorem transform_eq (maxn : ℕ) (B : PhiBins) (w : ℤ → ℤ → ℤ → ℂ) (i j k : ℤ) :
    transform maxn B w i j k = B.size / (2 * Real.pi) * ∑ n ∈ Finset.Icc (-(maxn : ℤ)) maxn,
      ((w i j (n + maxn)).re * Real.cos (n * B.phi k) - (w i j (n + maxn)).im * Real.sin (n * B.phi k)) := by
  unfold transform
  rw [Complex.re_sum, div_mul_eq_mul_div, mul_comm, mul_div_right_comm]
  congr 1
  refine Finset.sum_congr rfl fun n _ => ?_
  have : Complex.I * n * B.phi k = ((n * B.phi k : ℝ) : ℂ) * Complex.I := by push_cast; ring
  rw [this, Complex.exp_mul_I, Complex.mul_re]
  simp only [Complex.add_re, Complex.add_im, Complex.cos_ofReal_re, Complex.sin_ofReal_re, Complex.cos_ofReal_im, Complex.sin_ofReal_im,
    Complex.mul_re, Complex.mul_im, Complex.I_re, Complex.I_im]
  ring

theorem exp_arg_opposite {z w : ℂ} (h : z * w ≠ 0) (hp : 0 < (z * w).re) (hi : (z * w).im = 0) :
    Complex.exp (Complex.arg z * Complex.I) * Complex.exp (Complex.arg w * Complex.I) = 1 := by
  have hz : z ≠ 0 := left_ne_zero_of_mul h
  have hw : w ≠ 0 := right_ne_zero_of_mul h
  have e1 := Complex.norm_mul_exp_arg_mul_I z
  have e2 := Complex.norm_mul_exp_arg_mul_I w
  have a : (‖z‖ : ℂ) ≠ 0 := by exact_mod_cast norm_ne_zero_iff.2 hz
  have b : (‖w‖ : ℂ) ≠ 0 := by exact_mod_cast norm_ne_zero_iff.2 hw
  have e3 : (z * w) = ((‖z‖ * ‖w‖ : ℝ) : ℂ) := by
    rw [← norm_mul]
    apply Complex.ext
    · rw [Complex.ofReal_re, Complex.norm_eq_sqrt_sq_add_sq, hi]
      rw [show ((z * w).re ^ 2 + 0 ^ 2) = (z * w).re ^ 2 by ring, Real.sqrt_sq hp.le]
    · rw [hi, Complex.ofReal_im]
  have : (‖z‖ : ℂ) * ‖w‖ * (Complex.exp (Complex.arg z * Complex.I) * Complex.exp (Complex.arg w * Complex.I)) = ‖z‖ * ‖w‖ := by
    calc _ = (‖z‖ * Complex.exp (Complex.arg z * Complex.I)) * (‖w‖ * Complex.exp (Complex.arg w * Complex.I)) := by ring
      _ = z * w := by rw [e1, e2]
      _ = _ := by rw [e3]; push_cast; ring
  exact mul_left_cancel₀ (mul_ne_zero a b) (by rw [this, mul_one])

theorem cos_sin_opposite {P : Type} {φ : P → P → P → ℝ} {a b c : P} (h : Opposite φ a b c) (n : ℤ) (x : ℝ) :
    Real.cos (n * φ a b c) * Real.cos (n * x) - Real.sin (n * φ a b c) * Real.sin (n * x) = Real.cos (n * (x - φ a c b)) := by
  have e : Complex.exp ((n * φ a b c : ℝ) * Complex.I) = Complex.exp ((-(n * φ a c b) : ℝ) * Complex.I) := by
    have e1 : Complex.exp (φ a b c * Complex.I) = Complex.exp (-(φ a c b * Complex.I)) := by
      rw [Complex.exp_neg]
      exact (eq_inv_of_mul_eq_one_right h)
    have e2 : ((n * φ a b c : ℝ) : ℂ) * Complex.I = n * (φ a b c * Complex.I) := by push_cast; ring
    have e3 : ((-(n * φ a c b) : ℝ) : ℂ) * Complex.I = n * (-(φ a c b * Complex.I)) := by push_cast; ring
    rw [e2, e3, Complex.exp_int_mul, Complex.exp_int_mul, e1]
  have h1 := congrArg Complex.re e
  have h2 := congrArg Complex.im e
  rw [Complex.exp_ofReal_mul_I_re, Complex.exp_ofReal_mul_I_re, Real.cos_neg] at h1
  rw [Complex.exp_ofReal_mul_I_im, Complex.exp_ofReal_mul_I_im, Real.sin_neg] at h2
  rw [h1, h2, mul_sub, Real.cos_sub]
  ring

/-- With the multipoles of a multiset of triangles the sum is that of the spread triangles. -/
theorem transform_spread {P : Type} {φ : P → P → P → ℝ} (f : Obj P × Obj P × Obj P → ℝ) (maxn : ℕ) (B : PhiBins) (w : ℤ → ℤ → ℤ → ℂ)
    (i j k : ℤ) (m : Multiset (Obj P × Obj P × Obj P)) (ho : ∀ q ∈ m, Opposite φ q.1.pos q.2.1.pos q.2.2.pos)
    (h : ∀ n : ℤ, n.natAbs ≤ maxn → w i j (n + maxn) =
      (m.map fun q => (f q : ℂ) * Complex.exp (n * φ q.1.pos q.2.1.pos q.2.2.pos * Complex.I)).sum) :
    transform maxn B w i j k = B.size / (2 * Real.pi) * spreadSum f maxn φ m (B.phi k) := by
  rw [transform_eq]
  congr 1
  have key : ∀ n : ℤ, ((m.map fun q => (f q : ℂ) * Complex.exp (n * φ q.1.pos q.2.1.pos q.2.2.pos * Complex.I)).sum).re * Real.cos (n * B.phi k) -
      ((m.map fun q => (f q : ℂ) * Complex.exp (n * φ q.1.pos q.2.1.pos q.2.2.pos * Complex.I)).sum).im * Real.sin (n * B.phi k) =
      (m.map fun q => f q * Real.cos (n * (B.phi k - φ q.1.pos q.2.2.pos q.2.1.pos))).sum := by
    intro n
    clear h
    induction m using Multiset.induction with
    | empty => simp
    | cons q m ih =>
      have ih := ih fun q hq => ho q (Multiset.mem_cons_of_mem hq)
      have hq := cos_sin_opposite (ho q (Multiset.mem_cons_self q m)) n (B.phi k)
      rw [Multiset.map_cons, Multiset.sum_cons, Multiset.map_cons, Multiset.sum_cons, ← ih, ← hq]
      have e : (n : ℂ) * φ q.1.pos q.2.1.pos q.2.2.pos * Complex.I = ((n * φ q.1.pos q.2.1.pos q.2.2.pos : ℝ) : ℂ) * Complex.I := by
        push_cast; ring
      rw [Complex.add_re, Complex.add_im, e, Complex.re_ofReal_mul, Complex.im_ofReal_mul, Complex.exp_ofReal_mul_I_re,
        Complex.exp_ofReal_mul_I_im]
      ring
  rw [Finset.sum_congr rfl fun n hn => by
    rw [h n (by have := Finset.mem_Icc.1 hn; omega), key n]]
  unfold spreadSum dirichlet
  clear h ho key
  induction m using Multiset.induction with
  | empty => simp
  | cons q m ih =>
    simp only [Multiset.map_cons, Multiset.sum_cons]
    rw [Finset.sum_add_distrib, ih, Finset.mul_sum]

/-! ### The bins in the angle -/

/-- The binning of a `LogSAS` object that could be constructed, corr3base.py:535-539. -/
structure PhiBins.Ok (B : PhiBins) : Prop where
  min : 0 ≤ B.minphi
  lt : B.minphi < B.maxphi
  max : B.maxphi ≤ Real.pi
  n : 0 < B.n

theorem PhiBins.Ok.size_pos {B : PhiBins} (hB : B.Ok) : 0 < B.size :=
  div_pos (sub_pos.2 hB.lt) (by exact_mod_cast hB.n)

theorem PhiBins.Ok.mul_size {B : PhiBins} (hB : B.Ok) : B.n * B.size = B.maxphi - B.minphi := by
  have : (B.n : ℝ) ≠ 0 := by exact_mod_cast hB.n.ne'
  unfold PhiBins.size
  field_simp

theorem PhiBins.Ok.mem {B : PhiBins} (hB : B.Ok) {k : ℤ} (h0 : 0 ≤ k) (hk : k < B.n) : B.minphi < B.phi k ∧ B.phi k < B.maxphi := by
  have hs := hB.size_pos
  have hm := hB.mul_size
  have h1 : (0 : ℝ) ≤ k := by exact_mod_cast h0
  have h2 : (k : ℝ) + 1 ≤ B.n := by exact_mod_cast hk
  unfold PhiBins.phi
  constructor
  · nlinarith
  · nlinarith

theorem PhiBins.Ok.inj {B : PhiBins} (hB : B.Ok) {k l : ℤ} (h : B.phi k = B.phi l) : k = l := by
  unfold PhiBins.phi at h
  have := mul_right_cancel₀ hB.size_pos.ne' (add_right_cancel h)
  exact_mod_cast this

/-- A trigonometric polynomial of degree `N` with more than `2N` zeros among the bins is zero. -/
theorem trig_zero (N : ℕ) {B : PhiBins} (hB : B.Ok) (hK : 2 * N + 1 ≤ B.n) (c : ℤ → ℂ)
    (h : ∀ k : ℤ, 0 ≤ k → k < B.n → ∑ n ∈ Finset.Icc (-(N : ℤ)) N, c (n + N) * Complex.exp (Complex.I * n * B.phi k) = 0) :
    ∀ m : ℤ, 0 ≤ m → m ≤ 2 * N → c m = 0 := by
  set p : Polynomial ℂ := ∑ m ∈ Finset.range (2 * N + 1), Polynomial.C (c m) * Polynomial.X ^ m with hp
  have hdeg : p.natDegree < B.n := by
    refine lt_of_le_of_lt (Polynomial.natDegree_sum_le_of_forall_le _ _ (n := 2 * N) fun m hm => ?_) (by omega)
    exact (Polynomial.natDegree_C_mul_X_pow_le _ _).trans (by have := Finset.mem_range.1 hm; omega)
  have hz : p = 0 := by
    refine Polynomial.eq_zero_of_natDegree_lt_card_of_eval_eq_zero p
      (f := fun k : Fin B.n => Complex.exp (Complex.I * B.phi ((k : ℕ) : ℤ))) ?_ ?_ (by simpa using hdeg)
    · intro k l e
      have e' := congrArg Complex.re e
      simp only [mul_comm Complex.I, Complex.exp_ofReal_mul_I_re] at e'
      have mem : ∀ k : Fin B.n, B.phi ((k : ℕ) : ℤ) ∈ Set.Icc 0 Real.pi := fun k => by
        have := hB.mem (k := ((k : ℕ) : ℤ)) (by omega) (by exact_mod_cast k.2)
        exact ⟨hB.min.trans this.1.le, this.2.le.trans hB.max⟩
      have := hB.inj (Real.injOn_cos (mem k) (mem l) e')
      exact Fin.ext (by exact_mod_cast this)
    · intro k
      have hk := h ((k : ℕ) : ℤ) (by omega) (by exact_mod_cast k.2)
      set x := B.phi ((k : ℕ) : ℤ)
      have : p.eval (Complex.exp (Complex.I * x)) = Complex.exp (Complex.I * N * x) *
          ∑ n ∈ Finset.Icc (-(N : ℤ)) N, c (n + N) * Complex.exp (Complex.I * n * x) := by
        rw [hp, Polynomial.eval_finset_sum, Finset.mul_sum]
        refine Finset.sum_nbij' (fun m : ℕ => (m : ℤ) - N) (fun n : ℤ => (n + N).toNat) ?_ ?_ ?_ ?_ ?_
        · intro m hm; simp only [Finset.mem_range] at hm; simp only [Finset.mem_Icc]; omega
        · intro n hn; simp only [Finset.mem_Icc] at hn; simp only [Finset.mem_range]; omega
        · intro m hm; simp
        · intro n hn; simp only [Finset.mem_Icc] at hn; omega
        · intro m hm
          rw [Polynomial.eval_mul, Polynomial.eval_C, Polynomial.eval_pow, Polynomial.eval_X, ← Complex.exp_nat_mul]
          have e1 : (m : ℤ) - N + N = m := by ring
          rw [e1, mul_left_comm (Complex.exp _), ← Complex.exp_add]
          congr 2
          push_cast; ring
      rw [this, hk, mul_zero]
  intro m h0 hm
  have := congrArg (fun q : Polynomial ℂ => q.coeff m.toNat) hz
  simp only [hp, Polynomial.finset_sum_coeff, Polynomial.coeff_C_mul, Polynomial.coeff_X_pow, Polynomial.coeff_zero] at this
  rw [Finset.sum_eq_single m.toNat (fun b _ hb => by rw [if_neg (Ne.symm hb), mul_zero])
    (fun hn => absurd (Finset.mem_range.2 (by omega)) hn), if_pos rfl, mul_one, Int.toNat_of_nonneg h0] at this
  exact this

/-! ### Sums over the bins -/

/-- The bins of the whole range from 0 to π. -/
theorem phi_half {K : ℕ} (hK : 0 < K) (u : ℝ) (k : ℤ) : (PhiBins.phi ⟨0, Real.pi, K, u⟩ k) = (2 * k + 1) * (Real.pi / (2 * K)) := by
  have : (K : ℝ) ≠ 0 := by exact_mod_cast hK.ne'
  simp only [PhiBins.phi, PhiBins.size]
  field_simp
  ring

theorem sum_cos_tele (y : ℝ) (K : ℕ) : 2 * Real.sin y * ∑ k ∈ Finset.range K, Real.cos ((2 * (k : ℝ) + 1) * y) = Real.sin (2 * K * y) := by
  induction K with
  | zero => simp
  | succ K ih =>
    rw [Finset.sum_range_succ, mul_add, ih]
    push_cast
    have e1 : 2 * ((K : ℝ) + 1) * y = (2 * K + 1) * y + y := by ring
    have e2 : 2 * (K : ℝ) * y = (2 * K + 1) * y - y := by ring
    rw [e1, e2, Real.sin_add, Real.sin_sub]
    ring

theorem sum_Ico_range (K : ℕ) (f : ℤ → ℝ) : ∑ k ∈ Finset.Ico (0 : ℤ) K, f k = ∑ k ∈ Finset.range K, f k := by
  refine Finset.sum_nbij' (fun m : ℤ => m.toNat) (fun n : ℕ => (n : ℤ)) ?_ ?_ ?_ ?_ ?_
  · intro m hm; simp only [Finset.mem_Ico] at hm; simp only [Finset.mem_range]; omega
  · intro n hn; simp only [Finset.mem_range] at hn; simp only [Finset.mem_Ico]; omega
  · intro m hm; simp only [Finset.mem_Ico] at hm; omega
  · intro n hn; simp
  · intro m hm; simp only [Finset.mem_Ico] at hm; congr 1; omega

theorem sum_cos_bins {K : ℕ} (hK : 0 < K) (u : ℝ) {n : ℤ} (h0 : n ≠ 0) (hn : n.natAbs < 2 * K) :
    ∑ k ∈ Finset.Ico (0 : ℤ) K, Real.cos (n * PhiBins.phi ⟨0, Real.pi, K, u⟩ k) = 0 := by
  have hKr : (0 : ℝ) < K := by exact_mod_cast hK
  rw [sum_Ico_range]
  have e : ∀ k : ℕ, Real.cos (n * PhiBins.phi ⟨0, Real.pi, K, u⟩ (k : ℤ)) = Real.cos ((2 * (k : ℝ) + 1) * (n * (Real.pi / (2 * K)))) := by
    intro k
    rw [phi_half hK]
    congr 1
    push_cast; ring
  rw [Finset.sum_congr rfl fun k _ => e k]
  have hs : Real.sin (n * (Real.pi / (2 * K))) ≠ 0 := by
    intro h
    rw [Real.sin_eq_zero_iff] at h
    obtain ⟨l, hl⟩ := h
    have : (l : ℝ) * (2 * K) = n := by
      have hp := Real.pi_ne_zero
      field_simp at hl
      linarith
    have h2 : l * (2 * (K : ℤ)) = n := by exact_mod_cast this
    have : l ≠ 0 := by rintro rfl; simp at h2; exact h0 h2.symm
    have h3 : n.natAbs = l.natAbs * (2 * K) := by rw [← h2, Int.natAbs_mul]; congr 1
    have h4 : 1 ≤ l.natAbs := Int.natAbs_pos.2 this
    nlinarith
  have := sum_cos_tele (n * (Real.pi / (2 * K))) K
  have e2 : 2 * (K : ℝ) * (n * (Real.pi / (2 * K))) = n * Real.pi := by field_simp
  rw [e2, Real.sin_int_mul_pi] at this
  rcases mul_eq_zero.1 this with h | h
  · exact absurd (by simpa using h) hs
  · exact h

theorem cos_alias {K : ℕ} (hK : 0 < K) (u : ℝ) (k : ℤ) : Real.cos ((2 * K) * PhiBins.phi ⟨0, Real.pi, K, u⟩ k) = -1 := by
  have hKr : (K : ℝ) ≠ 0 := by exact_mod_cast hK.ne'
  rw [phi_half hK]
  have : 2 * (K : ℝ) * ((2 * k + 1) * (Real.pi / (2 * K))) = k * (2 * Real.pi) + Real.pi := by field_simp
  rw [this, Real.cos_int_mul_two_pi_add_pi]

end
end TreeCorr
