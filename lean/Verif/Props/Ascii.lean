import Verif.Proofs.Ascii

/-!
# C90: ASCII files keep the numbers to the precision that was asked for
-/

namespace TreeCorr
namespace Ascii

/-- A word of a file is read as the double that is nearest to what it says. -/
theorem read_nearest {w : List Char} {v r : ℚ} (hv : valueOf w = some v) (h : float w = some (some r)) :
    IsDouble r ∧ ∀ d, IsDouble d → |r - v| ≤ |d - v| := by
  rw [float, hv, Option.map_some, toDouble_eq] at h
  split_ifs at h with hb
  · cases h
  have hr : rounded v = r := Option.some.inj (Option.some.inj h)
  rw [← hr]
  exact ⟨rounded_double v (not_le.1 hb), fun d hd => rounded_near v hd⟩

/-- With 16 digits after the point, or more, a table of doubles is read back exactly. -/
theorem ascii_exact {p : ℕ} (hp : 16 ≤ p) {t : List (List ℚ)} (ht : ∀ l ∈ t, ∀ x ∈ l, IsDouble x) :
    readRows (writeRows p t) = t.map fun l => l.map fun x => some (some x) := by
  rw [readRows, writeRows, List.map_map]
  apply List.map_congr_left
  intro l hl
  rw [Function.comp_apply, readLine, words_line, List.map_map]
  apply List.map_congr_left
  intro x hx
  rw [Function.comp_apply, float_text, sci_exact hp (ht l hl x hx)]

/-- So a catalogue with the default precision. -/
theorem catalog_exact {t : List (List ℚ)} (ht : ∀ l ∈ t, ∀ x ∈ l, IsDouble x) :
    readRows (writeRows (catPrecision none) t) = t.map fun l => l.map fun x => some (some x) := ascii_exact (Nat.le_refl 16) ht

/-- With any precision every number of a table is read as a number; if that is finite, it differs from what was written by at most `10⁻ᵖ` of it. -/
theorem ascii_error_partial (p : ℕ) {t : List (List ℚ)} (ht : ∀ l ∈ t, ∀ x ∈ l, IsDouble x) :
    List.Forall₂ (List.Forall₂ fun x c => ∃ o, c = some o ∧ ∀ r, o = some r → IsDouble r ∧ |r - x| ≤ |x| / 10 ^ p) t (readRows (writeRows p t)) := by
  rw [readRows, writeRows, List.map_map, List.forall₂_map_right_iff, List.forall₂_same]
  intro l hl
  rw [Function.comp_apply, readLine, words_line, List.map_map, List.forall₂_map_right_iff, List.forall₂_same]
  intro x hx
  refine ⟨_, float_text p x, fun r hr => ⟨?_, ?_⟩⟩
  · exact (read_nearest (text_value p x) (by rw [float_text, hr])).1
  · have := sci_read_error p (ht l hl x hx) hr
    rwa [mul_one_div] at this

/-- Numbers up to `2¹⁰²³` are read as finite numbers. -/
theorem ascii_finite {p : ℕ} (hp : 1 ≤ p) {x : ℚ} (hx : IsDouble x) (hb : |x| ≤ 2 ^ 1023) : ∃ r, float (text p x) = some (some r) := by
  have h1 := sci_error p x
  have h2 := rounded_near (sciVal p x) hx
  have h3 := abs_sub_le (rounded (sciVal p x)) (sciVal p x) x
  rw [abs_sub_comm (sciVal p x) x] at h3
  have h4 := abs_sub_abs_le_abs_sub (rounded (sciVal p x)) x
  have h5 : |x| * (1 / 10 ^ p) ≤ |x| * (1 / 10) := by
    apply mul_le_mul_of_nonneg_left _ (abs_nonneg x)
    apply one_div_le_one_div_of_le (by norm_num)
    calc (10 : ℚ) = 10 ^ 1 := by norm_num
      _ ≤ 10 ^ p := pow_le_pow_right₀ (by norm_num) hp
  refine ⟨rounded (sciVal p x), ?_⟩
  rw [float_text, toDouble_eq, if_neg]
  have hA : (0 : ℚ) < 2 ^ 1023 := pow_pos two_pos _
  have hB : (2 : ℚ) ^ 1024 = 2 * 2 ^ 1023 := by rw [← pow_succ']
  rw [hB]
  clear hB
  generalize (2 : ℚ) ^ 1023 = A at *
  linarith

/-- The columns of the lines are at the same place in all lines. -/
theorem ascii_columns (p : ℕ) {l : List ℚ} (hl : ∀ x ∈ l, IsDouble x) (k : ℕ) (hk : k < l.length) :
    ((line p l).drop (k * (p + 9))).take (p + 8) = cell p l[k] ∧ (cell p l[k]).length = p + 8 := by
  have hc : ∀ x, IsDouble x → (cell p x).length = p + 8 := by
    intro x hx
    have := text_length p hx
    rw [cell, List.length_append, List.length_replicate]
    unfold width at *
    omega
  refine ⟨?_, hc _ (hl _ (List.getElem_mem _))⟩
  induction l generalizing k with
  | nil => simp at hk
  | cons x l ih =>
    have hx := hc x (hl x (by simp))
    cases l with
    | nil =>
      have : k = 0 := by simpa using hk
      subst this
      simp [line, ← hx]
    | cons y l =>
      rw [line]
      · cases k with
        | zero =>
          simp [← hx]
        | succ k =>
          have h1 : (k + 1) * (p + 9) = (cell p x).length + (1 + k * (p + 9)) := by rw [hx]; ring
          rw [h1, List.drop_length_add_append, Nat.add_comm 1, List.drop_succ_cons]
          exact ih (fun z hz => hl z (by simp [hz])) k (by simpa using hk)
      · simp

/-- Patch centers that are written to an ASCII file are read back exactly. -/
theorem centers_exact (flat : Bool) {c : List (List ℚ)} (hd : ∀ q ∈ c, q.length = if flat then 2 else 3) (hc : ∀ q ∈ c, ∀ x ∈ q, IsDouble x) :
    readCenters (writeCenters flat c) = some c := by
  have key : ∀ (c : List (List ℚ)) (g : ℕ → List ℚ → List ℚ), (∀ q ∈ c, q.length = if flat then 2 else 3) → (∀ q ∈ c, ∀ x ∈ q, IsDouble x) →
      (∀ i q, ∃ a : ℚ, g i q = a :: q) →
      (readRows (writeRows 16 (c.mapIdx g))).mapM (fun r => (if flat then [1, 2] else [1, 2, 3]).mapM fun i => at? r i) = some c := by
    intro c
    induction c with
    | nil => intros; rfl
    | cons q c ih =>
      intro g hd hc hg
      obtain ⟨a, ha⟩ := hg 0 q
      have hrest := ih (fun i => g (i + 1)) (fun q hq => hd q (by simp [hq])) (fun q hq => hc q (by simp [hq])) (fun i q => hg (i + 1) q)
      have hq : ∀ x ∈ q, float (text 16 x) = some (some x) := by
        intro x hx
        rw [float_text, sci_exact (Nat.le_refl 16) (hc q (by simp) x hx)]
      have hlen := hd q (by simp)
      rw [List.mapIdx_cons, writeRows, List.map_cons, readRows, List.map_cons, List.mapM_cons]
      rw [readRows, writeRows] at hrest
      rw [hrest, ha, readLine, words_line]
      have : ((if flat then [1, 2] else [1, 2, 3]).mapM fun i => at? (List.map float (List.map (text 16) (a :: q))) i) = some q := by
        cases flat with
        | true =>
          match q, hlen, hq with
          | [x, y], _, hq => simp [at?, hq x (by simp), hq y (by simp)]
        | false =>
          match q, hlen, hq with
          | [x, y, z], _, hq => simp [at?, hq x (by simp), hq y (by simp), hq z (by simp)]
      rw [this]
      rfl
  have h := key c (fun i q => (i : ℚ) :: q) hd hc (fun i q => ⟨_, rfl⟩)
  cases flat with
  | true => exact h
  | false => exact h

/-- With 15 digits after the point some doubles are changed. -/
theorem ascii_15_wrong : ∃ x : ℚ, IsDouble x ∧ ∃ r, float (text 15 x) = some (some r) ∧ r ≠ x :=
  ⟨1 + 1 / 2 ^ 52, ⟨2 ^ 52 + 1, -52, by decide +kernel, by decide, by decide, by norm_num⟩, 1, by decide +kernel, by norm_num⟩

/-- With the precision of results the largest doubles are read as infinite. -/
theorem ascii_overflow_wrong : ∃ x : ℚ, IsDouble x ∧ float (text (resultPrecision none) x) = some none :=
  ⟨(2 ^ 53 - 1) * 2 ^ 971, ⟨2 ^ 53 - 1, 971, by decide +kernel, by decide, by decide, by
    rw [show (971 : ℤ) = ((971 : ℕ) : ℤ) by rfl, zpow_natCast]; congr 1; norm_num⟩, by decide +kernel⟩

/-! ## Examples -/

example : text 4 (1 / 3) = "3.3333e-01".toList ∧ text 4 (-999997 / 10) = "-1.0000e+05".toList := by
  decide +kernel

example : String.ofList (line 4 [0, -1 / 8, 123456]) = "  0.0000e+00  -1.2500e-01   1.2346e+05" := by decide +kernel

example : readLine "  0.0000e+00  -1.2500e-01   1.2346e+05".toList = [some (some 0), some (some (-1 / 8)), some (some 123460)] := by
  decide +kernel

/-- The double next to 1/3. -/
def exThird : ℚ := 6004799503160661 / 2 ^ 54

theorem exThird_double : IsDouble exThird :=
  ⟨6004799503160661, -54, by decide +kernel, by decide, by decide, by norm_num [exThird]⟩

theorem exDoubles : ∀ q ∈ [[exThird, 0], [-exThird, exThird]], ∀ x ∈ q, IsDouble x := by
  have hn : IsDouble (-exThird) := ⟨-6004799503160661, -54, by decide +kernel, by decide, by decide, by norm_num [exThird]⟩
  intro q hq x hx
  simp only [List.mem_cons, List.not_mem_nil, or_false] at hq
  rcases hq with rfl | rfl <;> simp only [List.mem_cons, List.not_mem_nil, or_false] at hx <;> rcases hx with rfl | rfl
  exacts [exThird_double, double_zero, hn, exThird_double]

example : String.ofList (text 16 exThird) = "3.3333333333333331e-01" := by decide +kernel

example : readRows (writeRows 16 [[exThird, 0], [-exThird, exThird]]) =
    [[some (some exThird), some (some 0)], [some (some (-exThird)), some (some exThird)]] := ascii_exact (Nat.le_refl 16) exDoubles

/-- With four digits the number changes, within the error. -/
example : ∃ r, float (text 4 exThird) = some (some r) ∧ r ≠ exThird ∧ |r - exThird| ≤ |exThird| / 10 ^ 4 :=
  ⟨6004739455165630 / 2 ^ 54, by decide +kernel, by decide +kernel, by decide +kernel⟩

example : readCenters (writeCenters true [[exThird, 0], [-exThird, exThird]]) = some [[exThird, 0], [-exThird, exThird]] :=
  centers_exact true (by decide) exDoubles

example : ((line 4 [0, exThird, 7]).drop (2 * 13)).take 12 = "  7.0000e+00".toList := by decide +kernel

end Ascii
end TreeCorr
