import Mathlib.Tactic.Linarith
import Mathlib.Tactic.Ring
import Mathlib.Tactic.NormNum
import Mathlib.Tactic.FieldSimp
import Mathlib.Tactic.Positivity
import Mathlib.Tactic.IntervalCases
import Verif.Model.Ascii
import Verif.Spec.Ascii

/-!
# Rounding, printing and parsing of numbers
-/

namespace TreeCorr
namespace Ascii

/-! ## Rounding -/

theorem roundEven_half (y : ℚ) : |(roundEven y : ℚ) - y| ≤ 1 / 2 := by
  have h1 := Int.floor_add_fract y
  have h2 := Int.fract_nonneg y
  have h3 := Int.fract_lt_one y
  unfold roundEven
  rw [abs_le]
  split_ifs <;> push_cast <;> constructor <;> linarith

theorem roundEven_near (y : ℚ) (z : ℤ) : |(roundEven y : ℚ) - y| ≤ |(z : ℚ) - y| := by
  by_cases h : z = roundEven y
  · rw [h]
  · have h1 : (1 : ℚ) ≤ |(z : ℚ) - roundEven y| := by
      have : (1 : ℤ) ≤ |z - roundEven y| := Int.one_le_abs (sub_ne_zero.2 h)
      exact_mod_cast this
    have h2 := roundEven_half y
    have h3 := abs_sub_le (z : ℚ) y (roundEven y)
    rw [abs_sub_comm y] at h3
    linarith

theorem roundEven_int (z : ℤ) : roundEven (z : ℚ) = z := by
  have h := roundEven_near (z : ℚ) z
  rw [sub_self, abs_zero] at h
  have := abs_nonpos_iff.1 h
  exact_mod_cast sub_eq_zero.1 this

/-! ## Doubles -/

theorem mul_pow_int {m f e : ℤ} (h : e ≤ f) : ∃ n : ℤ, (m : ℚ) * 2 ^ f = n * 2 ^ e := by
  obtain ⟨k, hk⟩ := Int.eq_ofNat_of_zero_le (sub_nonneg.2 h)
  refine ⟨m * 2 ^ k, ?_⟩
  have hf : f = k + e := by omega
  rw [hf, zpow_add₀ two_ne_zero]
  push_cast
  rw [zpow_natCast]
  ring

theorem gap_aux {m n e f : ℤ} (hm : |m| < 2 ^ 53) (hef : e ≤ f) (h : (m : ℚ) * 2 ^ e ≠ n * 2 ^ f) :
    (2 : ℚ) ^ e ≤ |(m : ℚ) * 2 ^ e - n * 2 ^ f| := by
  obtain ⟨k, hk⟩ := mul_pow_int (m := n) hef
  rw [hk] at h ⊢
  have h1 : m - k ≠ 0 := by
    intro h0
    exact h (by rw [sub_eq_zero.1 h0])
  have h2 : (1 : ℚ) ≤ |((m : ℚ) - k)| := by exact_mod_cast Int.one_le_abs h1
  have h3 : (0 : ℚ) < 2 ^ e := zpow_pos two_pos e
  rw [← sub_mul, abs_mul, abs_of_pos h3]
  nlinarith

/-- Two different doubles differ by at least 2⁻⁵³ of either. -/
theorem gap {x d : ℚ} (hx : IsDouble x) (hd : IsDouble d) (h : x ≠ d) : |x| * (1 / 2 ^ 53) ≤ |x - d| := by
  obtain ⟨m, e, hm, -, -, rfl⟩ := hx
  obtain ⟨n, f, hn, -, -, rfl⟩ := hd
  have he : (0 : ℚ) < 2 ^ e := zpow_pos two_pos e
  have hf : (0 : ℚ) < 2 ^ f := zpow_pos two_pos f
  have hm' : |(m : ℚ)| < 2 ^ 53 := by exact_mod_cast hm
  have hn' : |(n : ℚ)| + 1 ≤ 2 ^ 53 := by exact_mod_cast hn
  rcases le_total e f with hef | hef
  · refine le_trans ?_ (gap_aux hm hef h)
    rw [abs_mul, abs_of_pos he, mul_comm |(m : ℚ)|, mul_assoc]
    have : |(m : ℚ)| * (1 / 2 ^ 53) ≤ 1 := by
      rw [mul_one_div, div_le_one (by positivity)]; exact hm'.le
    nlinarith
  · have h1 := gap_aux hn hef (Ne.symm h)
    rw [abs_sub_comm] at h1
    by_cases hb : |(m : ℚ) * 2 ^ e| ≤ 2 ^ 53 * 2 ^ f
    · refine le_trans ?_ h1
      rw [mul_one_div, div_le_iff₀ (by positivity), mul_comm (_ ^ f)]
      exact hb
    · push Not at hb
      have h2 := abs_sub_abs_le_abs_sub ((m : ℚ) * 2 ^ e) (n * 2 ^ f)
      have h3 : |(n : ℚ) * 2 ^ f| ≤ (2 ^ 53 - 1) * 2 ^ f := by
        rw [abs_mul, abs_of_pos hf]
        exact mul_le_mul_of_nonneg_right (by linarith) hf.le
      rw [mul_one_div, div_le_iff₀ (by positivity)]
      nlinarith

theorem double_zero : IsDouble 0 := ⟨0, 0, by norm_num, by norm_num, by norm_num, by norm_num⟩

theorem double_lt {x : ℚ} (hx : IsDouble x) : |x| + 2 ^ 971 ≤ 2 ^ 1024 := by
  obtain ⟨m, e, hm, -, he, rfl⟩ := hx
  have h0 : (0 : ℚ) < 2 ^ e := zpow_pos two_pos e
  have h1 : (2 : ℚ) ^ e ≤ 2 ^ (971 : ℤ) := zpow_le_zpow_right₀ (by norm_num) he
  have hm' : |(m : ℚ)| + 1 ≤ 2 ^ 53 := by exact_mod_cast hm
  rw [abs_mul, abs_of_pos h0]
  have h2 : (2 : ℚ) ^ (971 : ℤ) = 2 ^ 971 := by rw [← zpow_natCast]; rfl
  rw [h2] at h1
  have h3 : (2 : ℚ) ^ 1024 = 2 ^ 53 * 2 ^ 971 := by rw [← pow_add]
  have h4 : |(m : ℚ)| * 2 ^ e ≤ (2 ^ 53 - 1) * 2 ^ 971 :=
    mul_le_mul (by linarith) h1 h0.le (by norm_num)
  rw [h3]
  linarith

theorem double_ge {x : ℚ} (hx : IsDouble x) (h : x ≠ 0) : (2 : ℚ) ^ (-1074 : ℤ) ≤ |x| := by
  obtain ⟨m, e, hm, he, -, rfl⟩ := hx
  have h0 : (0 : ℚ) < 2 ^ e := zpow_pos two_pos e
  have h1 : (2 : ℚ) ^ (-1074 : ℤ) ≤ 2 ^ e := zpow_le_zpow_right₀ (by norm_num) he
  have h2 : m ≠ 0 := by rintro rfl; simp at h
  have h3 : (1 : ℚ) ≤ |(m : ℚ)| := by exact_mod_cast Int.one_le_abs h2
  rw [abs_mul, abs_of_pos h0]
  nlinarith

/-! ## Reading -/

/-- The exponent that `toDouble` uses. -/
def dexp (y : ℚ) : ℤ := max (Int.log 2 |y| - 52) (-1074)

/-- The rounded number, before the test for overflow. -/
def rounded (y : ℚ) : ℚ := roundEven (y / 2 ^ dexp y) * 2 ^ dexp y

theorem toDouble_eq (y : ℚ) : toDouble y = if 2 ^ 1024 ≤ |rounded y| then none else some (rounded y) := rfl

theorem rounded_near_mul (y : ℚ) (n : ℤ) : |rounded y - y| ≤ |(n : ℚ) * 2 ^ dexp y - y| := by
  have h0 : (0 : ℚ) < 2 ^ dexp y := zpow_pos two_pos _
  have h1 := roundEven_near (y / 2 ^ dexp y) n
  have h2 : ∀ z : ℚ, z * 2 ^ dexp y - y = (z - y / 2 ^ dexp y) * 2 ^ dexp y := by
    intro z; field_simp
  unfold rounded
  rw [h2, h2, abs_mul, abs_mul]
  exact mul_le_mul_of_nonneg_right h1 (abs_nonneg _)

/-- `toDouble` rounds to nearest. -/
theorem rounded_near (y : ℚ) {d : ℚ} (hd : IsDouble d) : |rounded y - y| ≤ |d - y| := by
  by_cases hy : y = 0
  · have h := rounded_near_mul y 0
    rw [hy] at h ⊢
    simp only [Int.cast_zero, zero_mul, sub_zero, abs_zero] at h ⊢
    exact h.trans (abs_nonneg _)
  obtain ⟨n, f, hn, hf, -, rfl⟩ := hd
  rcases le_or_gt (dexp y) f with h | h
  · obtain ⟨k, hk⟩ := mul_pow_int (m := n) h
    rw [hk]
    exact rounded_near_mul y k
  · have he : dexp y = Int.log 2 |y| - 52 := by
      unfold dexp at h ⊢
      omega
    have hp : (2 : ℚ) ^ (dexp y + 52) ≤ |y| := by
      have := Int.zpow_log_le_self (b := 2) (r := |y|) (by norm_num) (abs_pos.2 hy)
      rw [he]
      simpa using this
    have hn' : |(n : ℚ)| < 2 ^ 53 := by exact_mod_cast hn
    have hf0 : (0 : ℚ) < 2 ^ f := zpow_pos two_pos _
    have h2 : |(n : ℚ) * 2 ^ f| ≤ 2 ^ (dexp y + 52) := by
      rw [abs_mul, abs_of_pos hf0]
      calc |(n : ℚ)| * 2 ^ f ≤ 2 ^ 53 * 2 ^ f := mul_le_mul_of_nonneg_right hn'.le hf0.le
        _ = 2 ^ (53 + f) := by rw [zpow_add₀ two_ne_zero]; norm_cast
        _ ≤ _ := zpow_le_zpow_right₀ (by norm_num) (by omega)
    have h52 : (2 : ℚ) ^ (dexp y + 52) = 2 ^ 52 * 2 ^ dexp y := by
      rw [zpow_add₀ two_ne_zero, mul_comm]; norm_cast
    rcases lt_or_gt_of_ne hy with hneg | hpos
    · rw [abs_of_neg hneg] at hp
      have h3 := rounded_near_mul y (-(2 ^ 52))
      have hc : ((-(2 ^ 52) : ℤ) : ℚ) * 2 ^ dexp y = -2 ^ (dexp y + 52) := by rw [h52]; norm_num
      rw [hc] at h3
      refine h3.trans ?_
      have := (abs_le.1 h2).1
      rw [abs_of_nonneg (by linarith), abs_of_nonneg (by linarith)]
      linarith
    · rw [abs_of_pos hpos] at hp
      have h3 := rounded_near_mul y (2 ^ 52)
      have hc : (((2 ^ 52) : ℤ) : ℚ) * 2 ^ dexp y = 2 ^ (dexp y + 52) := by rw [h52]; norm_num
      rw [hc] at h3
      refine h3.trans ?_
      have := (abs_le.1 h2).2
      rw [abs_of_nonpos (by linarith), abs_of_nonpos (by linarith)]
      linarith

/-- The rounded number is a double, unless it is too large. -/
theorem rounded_double (y : ℚ) (h : |rounded y| < 2 ^ 1024) : IsDouble (rounded y) := by
  have h0 : (0 : ℚ) < 2 ^ dexp y := zpow_pos two_pos _
  have hup : |y / 2 ^ dexp y| < 2 ^ 53 := by
    rw [abs_div, abs_of_pos h0, div_lt_iff₀ h0]
    refine (Int.lt_zpow_succ_log_self (b := 2) (by norm_num) |y|).trans_le ?_
    have : (2 : ℚ) ^ 53 * 2 ^ dexp y = 2 ^ (53 + dexp y) := by rw [zpow_add₀ two_ne_zero]; norm_cast
    rw [this]
    refine zpow_le_zpow_right₀ (by norm_num) ?_
    unfold dexp
    omega
  obtain ⟨M, hM⟩ : ∃ M, M = roundEven (y / 2 ^ dexp y) := ⟨_, rfl⟩
  have hhalf := roundEven_half (y / 2 ^ dexp y)
  have hr : rounded y = M * 2 ^ dexp y := by rw [hM]; rfl
  rw [← hM] at hhalf
  have hMup : |M| ≤ 2 ^ 53 := by
    have h1 : |(M : ℚ)| < 2 ^ 53 + 1 := by
      have := abs_sub_abs_le_abs_sub (M : ℚ) (y / 2 ^ dexp y)
      linarith
    have h2 : |M| < 2 ^ 53 + 1 := by exact_mod_cast h1
    omega
  rw [hr, abs_mul, abs_of_pos h0] at h
  have hpow : ∀ n : ℕ, (2 : ℚ) ^ n ≤ |(M : ℚ)| → (n : ℤ) + dexp y < 1024 := by
    intro n hn
    by_contra hc
    have h1 : (2 : ℚ) ^ (1024 : ℤ) ≤ 2 ^ ((n : ℤ) + dexp y) := zpow_le_zpow_right₀ (by norm_num) (by omega)
    rw [zpow_add₀ two_ne_zero, zpow_natCast] at h1
    have h2 : (2 : ℚ) ^ (1024 : ℤ) = 2 ^ 1024 := by rw [← zpow_natCast]; rfl
    rw [h2] at h1
    have := mul_le_mul_of_nonneg_right hn h0.le
    linarith
  rw [hr]
  rcases lt_or_eq_of_le hMup with hlt | heq
  · refine ⟨M, dexp y, hlt, le_max_right _ _, ?_, rfl⟩
    by_contra hc
    push Not at hc
    have he : dexp y = Int.log 2 |y| - 52 := by
      unfold dexp at hc ⊢
      omega
    have hy : y ≠ 0 := by
      rintro rfl
      rw [he] at hc
      simp at hc
    have hlow : (2 : ℚ) ^ 52 ≤ |y / 2 ^ dexp y| := by
      rw [abs_div, abs_of_pos h0, le_div_iff₀ h0]
      have h1 := Int.zpow_log_le_self (b := 2) (r := |y|) (by norm_num) (abs_pos.2 hy)
      refine le_trans (le_of_eq ?_) h1
      have : Int.log 2 |y| = 52 + dexp y := by omega
      rw [this, Nat.cast_ofNat, zpow_add₀ two_ne_zero]
      norm_cast
    have hMlow : (2 : ℚ) ^ 52 ≤ |(M : ℚ)| := by
      have h1 : (2 : ℚ) ^ 52 - 1 < |(M : ℚ)| := by
        have := abs_sub_abs_le_abs_sub (y / 2 ^ dexp y) (M : ℚ)
        rw [abs_sub_comm] at this
        linarith
      have h2 : (2 : ℤ) ^ 52 - 1 < |M| := by exact_mod_cast h1
      have h3 : (2 : ℤ) ^ 52 ≤ |M| := by omega
      exact_mod_cast h3
    have := hpow 52 hMlow
    push_cast at this
    omega
  · have h53 : (2 : ℚ) ^ 53 ≤ |(M : ℚ)| := by
      have : (2 : ℤ) ^ 53 ≤ |M| := heq.ge
      exact_mod_cast this
    have he := hpow 53 h53
    push_cast at he
    have hlow : -1074 ≤ dexp y := le_max_right _ _
    rcases abs_eq (by norm_num : (0 : ℤ) ≤ 2 ^ 53) |>.1 heq with hv | hv
    · refine ⟨2 ^ 52, dexp y + 1, by norm_num, by omega, by omega, ?_⟩
      rw [hv, zpow_add₀ two_ne_zero]
      push_cast
      ring
    · refine ⟨-(2 ^ 52), dexp y + 1, by norm_num, by omega, by omega, ?_⟩
      rw [hv, zpow_add₀ two_ne_zero]
      push_cast
      ring

theorem pow_1024 : (2 : ℚ) ^ 1024 = 2 ^ 53 * 2 ^ 971 := by rw [← pow_add]

/-- A number that is close enough to a double is read as that double. -/
theorem toDouble_close {x y : ℚ} (hx : IsDouble x) (h : 2 * |x - y| < |x| * (1 / 2 ^ 53) ∨ y = x) : toDouble y = some x := by
  have hn := rounded_near y hx
  have htri := abs_sub_le (rounded y) y x
  have hlt := double_lt hx
  have hdbl := rounded_double y
  have hA : (0 : ℚ) < 2 ^ 971 := pow_pos two_pos _
  have hsmall : |rounded y - x| ≤ 2 * |x - y| := by
    rw [abs_sub_comm y x] at htri
    linarith
  rw [toDouble_eq]
  rw [pow_1024] at hlt hdbl ⊢
  generalize (2 : ℚ) ^ 971 = A at *
  have heq : rounded y = x := by
    rcases h with h | h
    · have hfin : |rounded y| < 2 ^ 53 * A := by
        have h1 := abs_sub_abs_le_abs_sub (rounded y) x
        have h2 : |x| * (1 / 2 ^ 53) ≤ A := by
          rw [mul_one_div, div_le_iff₀ (by positivity)]
          linarith
        linarith
      by_contra hne
      have h3 := gap hx (hdbl hfin) (Ne.symm hne)
      rw [abs_sub_comm] at h3
      linarith
    · rw [h, sub_self, abs_zero, mul_zero] at hsmall
      rw [h]
      exact sub_eq_zero.1 (abs_nonpos_iff.1 hsmall)
  rw [heq, if_neg]
  linarith

/-! ## Printing -/

/-- The value that `sci` stands for. -/
def sciVal (p : ℕ) (x : ℚ) : ℚ := (sci p x).1 * 10 ^ ((sci p x).2 - p)

theorem sci_val_eq (p : ℕ) {x : ℚ} (hx : x ≠ 0) :
    sciVal p x = roundEven (x / 10 ^ (Int.log 10 |x| - p)) * 10 ^ (Int.log 10 |x| - p) := by
  unfold sciVal sci
  rw [if_neg hx]
  dsimp only
  split_ifs with h
  · have h10 : ∃ q : ℤ, roundEven (x / 10 ^ (Int.log 10 |x| - p)) = 10 * q := by
      rcases Int.natAbs_eq (roundEven (x / 10 ^ (Int.log 10 |x| - p))) with h1 | h1
      · exact ⟨10 ^ p, by rw [h1, h]; push_cast; ring⟩
      · exact ⟨-10 ^ p, by rw [h1, h]; push_cast; ring⟩
    obtain ⟨q, hq⟩ := h10
    rw [hq, Int.mul_ediv_cancel_left _ (by norm_num)]
    have : Int.log 10 |x| + 1 - p = (Int.log 10 |x| - p) + 1 := by ring
    dsimp only
    rw [this, zpow_add₀ (by norm_num)]
    push_cast
    ring
  · rfl

/-- The relative error of the printed number. -/
theorem sci_error (p : ℕ) (x : ℚ) : 2 * |x - sciVal p x| ≤ |x| * (1 / 10 ^ p) := by
  by_cases hx : x = 0
  · subst hx
    simp [sciVal, sci]
  · rw [sci_val_eq p hx]
    obtain ⟨k, hk⟩ : ∃ k, k = Int.log 10 |x| := ⟨_, rfl⟩
    rw [← hk]
    have h0 : (0 : ℚ) < 10 ^ (k - p) := zpow_pos (by norm_num) _
    have h1 := roundEven_half (x / 10 ^ (k - p))
    have h2 : x - roundEven (x / 10 ^ (k - p)) * 10 ^ (k - p) = -((roundEven (x / 10 ^ (k - p)) - x / 10 ^ (k - p)) * 10 ^ (k - p)) := by
      field_simp
      ring
    have h3 : (10 : ℚ) ^ k ≤ |x| := by
      rw [hk]
      exact_mod_cast Int.zpow_log_le_self (b := 10) (r := |x|) (by norm_num) (abs_pos.2 hx)
    rw [h2, abs_neg, abs_mul, abs_of_pos h0]
    have h4 : (10 : ℚ) ^ (k - p) = 10 ^ k * (1 / 10 ^ p) := by
      rw [zpow_sub₀ (by norm_num), zpow_natCast]; ring
    have h5 : (10 : ℚ) ^ (k - p) ≤ |x| * (1 / 10 ^ p) := by
      rw [h4]
      exact mul_le_mul_of_nonneg_right h3 (by positivity)
    nlinarith

/-- With seventeen digits every double is kept. -/
theorem sci_exact {p : ℕ} (hp : 16 ≤ p) {x : ℚ} (hx : IsDouble x) : toDouble (sciVal p x) = some x := by
  apply toDouble_close hx
  by_cases h0 : x = 0
  · right; subst h0; simp [sciVal, sci]
  · left
    refine (sci_error p x).trans_lt ?_
    apply mul_lt_mul_of_pos_left _ (abs_pos.2 h0)
    apply one_div_lt_one_div_of_lt (by positivity)
    calc (2 : ℚ) ^ 53 < 10 ^ 16 := by norm_num
      _ ≤ 10 ^ p := pow_le_pow_right₀ (by norm_num) hp

/-- With any number of digits the number that is read differs by at most `10⁻ᵖ` of the number. -/
theorem sci_read_error (p : ℕ) {x r : ℚ} (hx : IsDouble x) (h : toDouble (sciVal p x) = some r) : |r - x| ≤ |x| * (1 / 10 ^ p) := by
  rw [toDouble_eq] at h
  split_ifs at h
  have hr : rounded (sciVal p x) = r := Option.some.inj h
  have h1 := rounded_near (sciVal p x) hx
  rw [hr] at h1
  have h2 := abs_sub_le r (sciVal p x) x
  rw [abs_sub_comm (sciVal p x) x] at h2
  have := sci_error p x
  linarith

/-- The digits of the printed number fit. -/
theorem sci_bound (p : ℕ) (x : ℚ) : (sci p x).1.natAbs < 10 ^ (p + 1) := by
  unfold sci
  split_ifs with h0
  · simp
  · dsimp only
    split_ifs with h
    · dsimp only
      rcases Int.natAbs_eq (roundEven (x / 10 ^ (Int.log 10 |x| - p))) with h1 | h1
      · rw [h1, h]
        have : ((10 ^ (p + 1) : ℕ) : ℤ) / 10 = 10 ^ p := by
          push_cast; rw [pow_succ, Int.mul_ediv_cancel _ (by norm_num)]
        rw [this, Int.natAbs_pow]
        exact Nat.pow_lt_pow_right (by norm_num) (by omega)
      · rw [h1, h]
        have : -((10 ^ (p + 1) : ℕ) : ℤ) / 10 = -10 ^ p := by
          push_cast; rw [pow_succ, ← neg_mul, Int.mul_ediv_cancel _ (by norm_num)]
        rw [this, Int.natAbs_neg, Int.natAbs_pow]
        exact Nat.pow_lt_pow_right (by norm_num) (by omega)
    · dsimp only
      obtain ⟨k, hk⟩ : ∃ k, k = Int.log 10 |x| := ⟨_, rfl⟩
      rw [← hk] at h ⊢
      have hp0 : (0 : ℚ) < 10 ^ (k - p) := zpow_pos (by norm_num) _
      have h1 : |x / 10 ^ (k - p)| < 10 ^ (p + 1) := by
        rw [abs_div, abs_of_pos hp0, div_lt_iff₀ hp0]
        have h2 := Int.lt_zpow_succ_log_self (b := 10) (by norm_num) |x|
        rw [← hk] at h2
        refine h2.trans_le (le_of_eq ?_)
        rw [← zpow_natCast, ← zpow_add₀ (by norm_num)]
        push_cast
        congr 1
        ring
      have h3 := roundEven_half (x / 10 ^ (k - p))
      have h4 := abs_sub_abs_le_abs_sub (roundEven (x / 10 ^ (k - p)) : ℚ) (x / 10 ^ (k - p))
      have h5 : |(roundEven (x / 10 ^ (k - p)) : ℚ)| < 10 ^ (p + 1) + 1 := by linarith
      have h6 : |roundEven (x / 10 ^ (k - p))| < 10 ^ (p + 1) + 1 := by exact_mod_cast h5
      rw [Int.abs_eq_natAbs] at h6
      have h7 : (roundEven (x / 10 ^ (k - p))).natAbs < 10 ^ (p + 1) + 1 := by exact_mod_cast h6
      omega

/-! ## Digits -/

theorem digit_ofNat {d : ℕ} (h : d < 10) : digit (Char.ofNat (48 + d)) = some d := by
  interval_cases d <;> decide

theorem digits_length (w n : ℕ) : (digits w n).length = w := by
  induction w generalizing n with
  | zero => rfl
  | succ w ih => simp [digits, ih]

theorem digits_natOf (w n : ℕ) (h : n < 10 ^ w) : natOf (digits w n) = some n := by
  have key : ∀ w n, (digits w n).mapM digit = some ((List.range w).map fun i => n / 10 ^ (w - 1 - i) % 10) ∧
      ((List.range w).map fun i => n / 10 ^ (w - 1 - i) % 10).foldl (fun a d => 10 * a + d) 0 = n % 10 ^ w := by
    intro w
    induction w with
    | zero => intro n; simp [digits, Nat.mod_one]
    | succ w ih =>
      intro n
      have hm : (List.range w).map (fun i => n / 10 / 10 ^ (w - 1 - i) % 10) = (List.range w).map (fun i => n / 10 ^ (w + 1 - 1 - i) % 10) := by
        apply List.map_congr_left
        intro i hi
        have hi' := List.mem_range.1 hi
        rw [Nat.div_div_eq_div_mul, ← Nat.pow_succ']
        congr 3
        omega
      obtain ⟨h1, h2⟩ := ih (n / 10)
      rw [hm] at h1 h2
      constructor
      · rw [digits, List.mapM_append, h1, List.range_succ, List.map_append]
        simp [digit_ofNat (Nat.mod_lt n (by norm_num : 0 < 10))]
      · rw [List.range_succ, List.map_append, List.foldl_append, h2]
        simp only [List.map_cons, List.map_nil, List.foldl_cons, List.foldl_nil, Nat.add_sub_cancel, Nat.sub_self, pow_zero, Nat.div_one]
        rw [Nat.pow_succ', Nat.mod_mul]
        ring
  rw [natOf, (key w n).1, Option.map_some, (key w n).2, Nat.mod_eq_of_lt h]

theorem digits_char {w n : ℕ} {c : Char} (h : c ∈ digits w n) : c.toNat - 48 < 10 ∧ 48 ≤ c.toNat := by
  induction w generalizing n with
  | zero => simp [digits] at h
  | succ w ih =>
    rw [digits, List.mem_append, List.mem_singleton] at h
    rcases h with h | h
    · exact ih h
    · have hd := Nat.mod_lt n (by norm_num : 0 < 10)
      rw [h]
      interval_cases n % 10 <;> decide

theorem digits_ne {w n : ℕ} {c d : Char} (h : c ∈ digits w n) (hd : d.toNat < 48 ∨ 58 ≤ d.toNat) : c ≠ d := by
  rintro rfl
  have := digits_char h
  omega

theorem takeWhile_sep {P : Char → Bool} {a b : List Char} {c : Char} (ha : ∀ x ∈ a, P x = true) (hc : P c = false) :
    (a ++ c :: b).takeWhile P = a ∧ (a ++ c :: b).dropWhile P = c :: b := by
  induction a with
  | nil => simp [hc]
  | cons x a ih =>
    have hx := ha x (by simp)
    have := ih fun y hy => ha y (by simp [hy])
    simp [hx, this.1, this.2]

theorem takeWhile_all {P : Char → Bool} {a : List Char} (ha : ∀ x ∈ a, P x = true) : a.takeWhile P = a ∧ a.dropWhile P = [] := by
  induction a with
  | nil => simp
  | cons x a ih =>
    have hx := ha x (by simp)
    have := ih fun y hy => ha y (by simp [hy])
    simp only [List.takeWhile_cons, List.dropWhile_cons, hx, if_true, this.1, this.2, and_self]

theorem expText_int (k : ℤ) : intOf (expText k) = some k := by
  have h : natOf (digits (max 2 (Nat.log 10 k.natAbs + 1)) k.natAbs) = some k.natAbs := by
    apply digits_natOf
    refine (Nat.lt_pow_succ_log_self (b := 10) (by norm_num) _).trans_le ?_
    exact Nat.pow_le_pow_right (by norm_num) (le_max_right _ _)
  unfold expText
  split_ifs with hk
  · change (natOf _).map (fun n : ℕ => -(n : ℤ)) = _
    rw [h, Option.map_some]
    congr 1
    omega
  · change (natOf _).map (fun n : ℕ => (n : ℤ)) = _
    rw [h, Option.map_some]
    congr 1
    omega

/-- The mantissa of the text. -/
def mant (p n : ℕ) : List Char :=
  (digits (p + 1) n).take 1 ++ if p = 0 then [] else '.' :: (digits (p + 1) n).drop 1

theorem text_eq (p : ℕ) (x : ℚ) :
    text p x = (if (sci p x).1 < 0 then ['-'] else []) ++ mant p (sci p x).1.natAbs ++ 'e' :: expText (sci p x).2 := by
  simp [text, mant]

theorem mem_mant {p n : ℕ} {c : Char} (h : c ∈ mant p n) : c = '.' ∨ c ∈ digits (p + 1) n := by
  unfold mant at h
  rw [List.mem_append] at h
  rcases h with h | h
  · exact Or.inr (List.mem_of_mem_take h)
  · split_ifs at h
    · simp at h
    · rcases List.mem_cons.1 h with h | h
      · exact Or.inl h
      · exact Or.inr (List.mem_of_mem_drop h)

theorem mant_unsigned (p n : ℕ) (e : ℤ) (h : n < 10 ^ (p + 1)) : unsigned (mant p n) e = some ((n : ℚ) * 10 ^ (e - p)) := by
  have hd : ∀ c ∈ (digits (p + 1) n).take 1, (decide (c ≠ '.')) = true := by
    intro c hc
    exact decide_eq_true (digits_ne (List.mem_of_mem_take hc) (by decide))
  have hl := digits_length (p + 1) n
  by_cases hp : p = 0
  · subst hp
    have hm : mant 0 n = digits 1 n := by
      unfold mant
      rw [if_pos rfl, List.append_nil, List.take_of_length_le (by rw [hl])]
    have hall : ∀ c ∈ digits 1 n, (decide (c ≠ '.')) = true := by
      intro c hc
      exact decide_eq_true (digits_ne hc (by decide))
    rw [hm, unsigned]
    have h1 : (digits 1 n).takeWhile (fun c => decide (c ≠ '.')) = digits 1 n := (takeWhile_all hall).1
    have h2 : (digits 1 n).dropWhile (fun c => decide (c ≠ '.')) = [] := (takeWhile_all hall).2
    rw [h1, h2]
    simp [digits_natOf 1 n h]
  · have hs := takeWhile_sep (P := fun c => decide (c ≠ '.')) (b := (digits (p + 1) n).drop 1) hd (c := '.') (by decide)
    have hm : mant p n = (digits (p + 1) n).take 1 ++ '.' :: (digits (p + 1) n).drop 1 := by
      unfold mant
      rw [if_neg hp]
    rw [unsigned, hm]
    rw [hs.1, hs.2, List.drop_succ_cons, List.drop_zero, List.take_append_drop, digits_natOf _ n h]
    simp [hl]

/-- What the text of a number stands for. -/
theorem text_value (p : ℕ) (x : ℚ) : valueOf (text p x) = some (sciVal p x) := by
  obtain ⟨n, hn⟩ : ∃ n, n = (sci p x).1 := ⟨_, rfl⟩
  obtain ⟨k, hk⟩ : ∃ k, k = (sci p x).2 := ⟨_, rfl⟩
  have hb := sci_bound p x
  rw [text_eq, sciVal, ← hn, ← hk] at *
  have hu := mant_unsigned p n.natAbs k hb
  have hm : ∀ c ∈ mant p n.natAbs, (decide (c ≠ 'e')) = true := by
    intro c hc
    rcases mem_mant hc with rfl | hc
    · decide
    · exact decide_eq_true (digits_ne hc (by decide))
  have hm' : ∀ l, mant p n.natAbs ≠ '-' :: l := by
    intro l hl
    have : '-' ∈ mant p n.natAbs := by rw [hl]; simp
    rcases mem_mant this with h | h
    · exact absurd h (by decide)
    · exact digits_ne h (by decide) rfl
  have ha : ∀ c ∈ (if n < 0 then ['-'] else []) ++ mant p n.natAbs, (decide (c ≠ 'e')) = true := by
    intro c hc
    rcases List.mem_append.1 hc with h | h
    · split_ifs at h
      · rw [List.mem_singleton.1 h]; decide
      · simp at h
    · exact hm c h
  have hs := takeWhile_sep (P := fun c => decide (c ≠ 'e')) (b := expText k) ha (c := 'e') (by decide)
  unfold valueOf
  dsimp only
  rw [hs.1, hs.2, List.drop_one, List.tail_cons, expText_int]
  dsimp only
  split_ifs with h
  · simp only [List.singleton_append, hu, Option.map_some, Option.some.injEq]
    have : (n : ℚ) = -(n.natAbs : ℚ) := by
      have h' : (n.natAbs : ℤ) = -n := by omega
      rw [← Int.cast_natCast, h', Int.cast_neg, neg_neg]
    rw [this]; ring
  · have : (n : ℚ) = (n.natAbs : ℚ) := by
      have h' : (n.natAbs : ℤ) = n := by omega
      rw [← Int.cast_natCast, h']
    rw [this, List.nil_append, ← hu]
    split
    · rename_i l hl
      exact absurd hl (hm' _)
    · rfl

/-! ## Lines -/

theorem text_no_space (p : ℕ) (x : ℚ) : ∀ c ∈ text p x, c ≠ ' ' := by
  intro c hc
  rw [text_eq, List.mem_append, List.mem_append] at hc
  rcases hc with (h | h) | h
  · split_ifs at h
    · rw [List.mem_singleton.1 h]; decide
    · simp at h
  · rcases mem_mant h with rfl | h
    · decide
    · exact digits_ne h (by decide)
  · rcases List.mem_cons.1 h with rfl | h
    · decide
    · unfold expText at h
      rcases List.mem_cons.1 h with rfl | h
      · split_ifs <;> decide
      · exact digits_ne h (by decide)

theorem text_ne_nil (p : ℕ) (x : ℚ) : text p x ≠ [] := by
  rw [text_eq]
  simp

theorem words_token {t : List Char} (ht : ∀ c ∈ t, c ≠ ' ') (cur l : List Char) : words cur (t ++ l) = words (cur ++ t) l := by
  induction t generalizing cur with
  | nil => simp
  | cons c t ih =>
    have hc := ht c (by simp)
    rw [List.cons_append, words, if_neg hc, ih (fun d hd => ht d (by simp [hd]))]
    simp

theorem words_spaces (n : ℕ) (l : List Char) : words [] (List.replicate n ' ' ++ l) = words [] l := by
  induction n with
  | zero => rfl
  | succ n ih => rw [List.replicate_succ, List.cons_append, words, if_pos rfl, if_pos rfl, ih]

theorem words_line (p : ℕ) (l : List ℚ) : words [] (line p l) = l.map (text p) := by
  induction l with
  | nil => rfl
  | cons x l ih =>
    cases l with
    | nil =>
      have h := words_token (text_no_space p x) [] []
      rw [line, cell, words_spaces, ← List.append_nil (text p x), h, List.nil_append, words, if_neg (text_ne_nil p x)]
      simp
    | cons y l =>
      rw [line, cell, List.append_assoc, words_spaces, words_token (text_no_space p x), List.nil_append, words, if_pos rfl,
        if_neg (text_ne_nil p x), ih]
      · simp
      · simp

theorem float_text (p : ℕ) (x : ℚ) : float (text p x) = some (toDouble (sciVal p x)) := by
  rw [float, text_value]
  rfl

/-- The exponent of a double has at most three digits. -/
theorem sci_exp (p : ℕ) {x : ℚ} (hx : IsDouble x) : (sci p x).2.natAbs < 1000 := by
  unfold sci
  split_ifs with h0
  · simp
  · have hlow : -324 ≤ Int.log 10 |x| := by
      have h1 := double_ge hx h0
      have h2 := Int.lt_zpow_succ_log_self (b := 10) (by norm_num) |x|
      by_contra hc
      have h3 : ((10 : ℕ) : ℚ) ^ (Int.log 10 |x| + 1) ≤ ((10 : ℕ) : ℚ) ^ (-324 : ℤ) := zpow_le_zpow_right₀ (by norm_num) (by omega)
      have h4 : ((10 : ℕ) : ℚ) ^ (-324 : ℤ) ≤ 2 ^ (-1074 : ℤ) := by
        rw [show (-324 : ℤ) = -((324 : ℕ) : ℤ) by rfl, show (-1074 : ℤ) = -((1074 : ℕ) : ℤ) by rfl, zpow_neg, zpow_neg, zpow_natCast, zpow_natCast]
        apply inv_anti₀ (pow_pos two_pos _)
        exact_mod_cast (by decide +kernel : 2 ^ 1074 ≤ 10 ^ 324)
      linarith
    have hup : Int.log 10 |x| ≤ 308 := by
      have h1 := double_lt hx
      have h2 := Int.zpow_log_le_self (b := 10) (r := |x|) (by norm_num) (abs_pos.2 h0)
      by_contra hc
      have h3 : ((10 : ℕ) : ℚ) ^ (309 : ℤ) ≤ ((10 : ℕ) : ℚ) ^ (Int.log 10 |x|) := zpow_le_zpow_right₀ (by norm_num) (by omega)
      have h4 : (2 : ℚ) ^ 1024 ≤ ((10 : ℕ) : ℚ) ^ (309 : ℤ) := by
        rw [show (309 : ℤ) = ((309 : ℕ) : ℤ) by rfl, zpow_natCast]
        exact_mod_cast (by decide +kernel : 2 ^ 1024 ≤ 10 ^ 309)
      have h5 : (0 : ℚ) < 2 ^ 971 := pow_pos two_pos _
      generalize (2 : ℚ) ^ 971 = A at *
      generalize (2 : ℚ) ^ 1024 = B at *
      linarith
    dsimp only
    split_ifs <;> dsimp only <;> omega

theorem text_length (p : ℕ) {x : ℚ} (hx : IsDouble x) : (text p x).length ≤ width p := by
  have hk := sci_exp p hx
  have hlog : Nat.log 10 (sci p x).2.natAbs + 1 ≤ 3 := by
    have := Nat.log_lt_of_lt_pow' (b := 10) (x := 3) (y := (sci p x).2.natAbs) (by norm_num) (by simpa using hk)
    omega
  rw [text_eq, width]
  have he : (expText (sci p x).2).length ≤ 4 := by
    simp only [expText, List.length_cons, digits_length]
    omega
  have hm : (mant p (sci p x).1.natAbs).length ≤ p + 2 := by
    unfold mant
    split_ifs <;> simp [digits_length]
    omega
  have hs : (if (sci p x).1 < 0 then ['-'] else []).length ≤ 1 := by split_ifs <;> simp
  simp only [List.length_append, List.length_cons]
  omega

end Ascii
end TreeCorr
