import Verif.Proofs.SasExact

/-! The orientation of triangles in the plane and in space; in the plane the test of `LogSAS` for the wrong orientation is safe. -/

namespace TreeCorr
open Classical
noncomputable section

/-- The flat orientation is an orientation. -/
theorem flatMetric3_oriented : flatMetric3.Oriented := by
  constructor
  · intro p q r h
    simp only [flatMetric3] at h ⊢
    linarith
  · intro p q r h
    simp only [flatMetric3] at h ⊢
    linarith

/-- So is the orientation in space as seen from the origin. -/
theorem spaceMetric3_oriented : spaceMetric3.Oriented := by
  constructor
  · intro p q r h
    simp only [spaceMetric3, PiLp.sub_apply] at h ⊢
    linarith
  · intro p q r h
    simp only [spaceMetric3, PiLp.sub_apply] at h ⊢
    linarith

/-- A vector changed by at most `r` times its length turns by an angle of sine at most `r`. -/
theorem turn_one {a0 a1 u0 u1 r : ℝ} (hr0 : 0 ≤ r) (hr : r < 1) (hu : u0 ^ 2 + u1 ^ 2 ≤ r ^ 2 * (a0 ^ 2 + a1 ^ 2)) :
    let N := Real.sqrt (a0 ^ 2 + a1 ^ 2) * Real.sqrt ((a0 + u0) ^ 2 + (a1 + u1) ^ 2)
    Real.sqrt (1 - r ^ 2) * N ≤ a0 * (a0 + u0) + a1 * (a1 + u1) ∧ |a0 * (a1 + u1) - a1 * (a0 + u0)| ≤ r * N := by
  intro N
  set n := a0 ^ 2 + a1 ^ 2 with hn
  set t := a0 * u0 + a1 * u1 with ht
  set c := a0 * u1 - a1 * u0 with hc
  have hn0 : 0 ≤ n := by positivity
  have hm0 : 0 ≤ (a0 + u0) ^ 2 + (a1 + u1) ^ 2 := by positivity
  have hN : N ^ 2 = n * ((a0 + u0) ^ 2 + (a1 + u1) ^ 2) := by
    simp only [N]
    rw [mul_pow, Real.sq_sqrt hn0, Real.sq_sqrt hm0]
  have hN0 : 0 ≤ N := by positivity
  have hX : a0 * (a0 + u0) + a1 * (a1 + u1) = n + t := by rw [hn, ht]; ring
  have hY : a0 * (a1 + u1) - a1 * (a0 + u0) = c := by rw [hc]; ring
  have hsum : (n + t) ^ 2 + c ^ 2 = N ^ 2 := by
    rw [hN, hn, ht, hc]
    ring
  have hlag : t ^ 2 + c ^ 2 ≤ r ^ 2 * n ^ 2 := by
    have : t ^ 2 + c ^ 2 = n * (u0 ^ 2 + u1 ^ 2) := by rw [hn, ht, hc]; ring
    rw [this]
    nlinarith [mul_le_mul_of_nonneg_left hu hn0]
  have hr1 : 0 ≤ 1 - r ^ 2 := by nlinarith
  have hcb : c ^ 2 ≤ r ^ 2 * N ^ 2 := by
    rw [← hsum]
    nlinarith [sq_nonneg (t + r ^ 2 * n), mul_le_mul_of_nonneg_left hlag hr1]
  have hnt : 0 ≤ n + t := by
    have h1 : t ^ 2 ≤ n ^ 2 := by
      have : r ^ 2 * n ^ 2 ≤ 1 * n ^ 2 := mul_le_mul_of_nonneg_right (by linarith) (sq_nonneg n)
      nlinarith [sq_nonneg c]
    have := abs_le_of_sq_le_sq' h1 hn0
    linarith [this.1]
  rw [hX, hY]
  constructor
  · refine le_of_sq_le_sq ?_ hnt
    rw [mul_pow, Real.sq_sqrt hr1]
    nlinarith
  · refine abs_le_of_sq_le_sq ?_ (by positivity)
    rw [mul_pow]
    exact hcb

/-- Two vectors, one not counter-clockwise from the other by an angle `φ`, stay so when they turn by angles of sine at most `r2`, `r3`,
if the cosine of the sum of these angles is at least `|cos φ|`. -/
theorem turn_two {a0 a1 u0 u1 b0 b1 w0 w1 r2 r3 : ℝ} (hr2 : 0 ≤ r2) (hr2' : r2 < 1) (hr3 : 0 ≤ r3) (hr3' : r3 < 1)
    (hu : u0 ^ 2 + u1 ^ 2 ≤ r2 ^ 2 * (a0 ^ 2 + a1 ^ 2)) (hw : w0 ^ 2 + w1 ^ 2 ≤ r3 ^ 2 * (b0 ^ 2 + b1 ^ 2))
    (ha : 0 < a0 ^ 2 + a1 ^ 2) (hb : 0 < b0 ^ 2 + b1 ^ 2)
    (hK : b0 * a1 - b1 * a0 ≤ 0)
    (hC : |b0 * a0 + b1 * a1| ≤ (Real.sqrt (1 - r2 ^ 2) * Real.sqrt (1 - r3 ^ 2) - r3 * r2) *
      (Real.sqrt (b0 ^ 2 + b1 ^ 2) * Real.sqrt (a0 ^ 2 + a1 ^ 2))) :
    (b0 + w0) * (a1 + u1) - (b1 + w1) * (a0 + u0) ≤ 0 := by
  obtain ⟨x2, y2⟩ := turn_one hr2 hr2' hu
  obtain ⟨x3, y3⟩ := turn_one hr3 hr3' hw
  set X2 := a0 * (a0 + u0) + a1 * (a1 + u1) with hX2
  set Y2 := a0 * (a1 + u1) - a1 * (a0 + u0) with hY2
  set X3 := b0 * (b0 + w0) + b1 * (b1 + w1) with hX3
  set Y3 := b0 * (b1 + w1) - b1 * (b0 + w0) with hY3
  set c2 := Real.sqrt (1 - r2 ^ 2)
  set c3 := Real.sqrt (1 - r3 ^ 2)
  set N2 := Real.sqrt (a0 ^ 2 + a1 ^ 2) * Real.sqrt ((a0 + u0) ^ 2 + (a1 + u1) ^ 2) with hN2
  set N3 := Real.sqrt (b0 ^ 2 + b1 ^ 2) * Real.sqrt ((b0 + w0) ^ 2 + (b1 + w1) ^ 2) with hN3
  set m := Real.sqrt (b0 ^ 2 + b1 ^ 2) * Real.sqrt (a0 ^ 2 + a1 ^ 2) with hm
  have hc2 : 0 ≤ c2 := Real.sqrt_nonneg _
  have hc3 : 0 ≤ c3 := Real.sqrt_nonneg _
  have hN2' : 0 ≤ N2 := by positivity
  have hN3' : 0 ≤ N3 := by positivity
  have hmpos : 0 < m := mul_pos (Real.sqrt_pos.2 hb) (Real.sqrt_pos.2 ha)
  set G := X2 * X3 + Y2 * Y3 with hG
  set H := Y2 * X3 - X2 * Y3 with hH
  have hN2s : N2 ^ 2 = X2 ^ 2 + Y2 ^ 2 := by
    rw [hN2, mul_pow, Real.sq_sqrt ha.le, Real.sq_sqrt (by positivity), hX2, hY2]
    ring
  have hN3s : N3 ^ 2 = X3 ^ 2 + Y3 ^ 2 := by
    rw [hN3, mul_pow, Real.sq_sqrt hb.le, Real.sq_sqrt (by positivity), hX3, hY3]
    ring
  have hms : m ^ 2 = (b0 * a0 + b1 * a1) ^ 2 + (b0 * a1 - b1 * a0) ^ 2 := by
    rw [hm, mul_pow, Real.sq_sqrt ha.le, Real.sq_sqrt hb.le]
    ring
  have hGH : G ^ 2 + H ^ 2 = (N2 * N3) ^ 2 := by
    rw [mul_pow, hN2s, hN3s, hG, hH]
    ring
  have hGC : (c2 * c3 - r3 * r2) * (N2 * N3) ≤ G := by
    have e1 : (c2 * N2) * (c3 * N3) ≤ X2 * X3 := mul_le_mul x2 x3 (by positivity) (le_trans (by positivity) x2)
    have e2 : |Y2 * Y3| ≤ (r2 * N2) * (r3 * N3) := by
      rw [abs_mul]
      exact mul_le_mul y2 y3 (abs_nonneg _) (by positivity)
    have := (abs_le.1 e2).1
    rw [hG]
    linarith
  set D := b0 * a0 + b1 * a1 with hD
  set K := b0 * a1 - b1 * a0 with hK'
  have key : (a0 ^ 2 + a1 ^ 2) * (b0 ^ 2 + b1 ^ 2) * ((b0 + w0) * (a1 + u1) - (b1 + w1) * (a0 + u0)) = K * G + D * H := by
    rw [hG, hH, hD, hK', hX2, hX3, hY2, hY3]
    ring
  have hDG : |D| * (N2 * N3) ≤ G * m := by
    calc |D| * (N2 * N3) ≤ ((c2 * c3 - r3 * r2) * m) * (N2 * N3) := mul_le_mul_of_nonneg_right hC (by positivity)
      _ = ((c2 * c3 - r3 * r2) * (N2 * N3)) * m := by ring
      _ ≤ G * m := mul_le_mul_of_nonneg_right hGC hmpos.le
  have hG0 : 0 ≤ G := by
    by_contra hneg
    push Not at hneg
    have : G * m < 0 := mul_neg_of_neg_of_pos hneg hmpos
    have : 0 ≤ |D| * (N2 * N3) := by positivity
    linarith
  have hsq : D ^ 2 * (N2 * N3) ^ 2 ≤ G ^ 2 * m ^ 2 := by
    have h := pow_le_pow_left₀ (by positivity) hDG 2
    rwa [mul_pow |D|, mul_pow G, sq_abs] at h
  rw [← hGH, hms] at hsq
  have hDH : (D * H) ^ 2 ≤ (G * (-K)) ^ 2 := by
    have f1 : (D * H) ^ 2 = D ^ 2 * (G ^ 2 + H ^ 2) - D ^ 2 * G ^ 2 := by ring
    have f2 : (G * (-K)) ^ 2 = G ^ 2 * (D ^ 2 + K ^ 2) - D ^ 2 * G ^ 2 := by ring
    rw [f1, f2]
    exact sub_le_sub_right hsq _
  have hle : D * H ≤ G * (-K) := (abs_le_of_sq_le_sq' hDH (mul_nonneg hG0 (neg_nonneg.2 hK))).2
  have : K * G + D * H ≤ 0 := by
    have f : G * (-K) = -(K * G) := by ring
    rw [f] at hle
    have := add_le_add_left hle (K * G)
    simpa [add_comm] using this
  rw [← key] at this
  by_contra hpos
  push Not at hpos
  have : 0 < (a0 ^ 2 + a1 ^ 2) * (b0 ^ 2 + b1 ^ 2) * ((b0 + w0) * (a1 + u1) - (b1 + w1) * (a0 + u0)) := by positivity
  linarith

theorem dist2_sq (p q : EuclideanSpace ℝ (Fin 2)) : dist p q ^ 2 = (p 0 - q 0) ^ 2 + (p 1 - q 1) ^ 2 := by
  rw [dist_eq_norm, EuclideanSpace.norm_sq_eq]
  simp [Fin.sum_univ_two]

/-- In the plane the test for the wrong orientation is safe. -/
theorem flatMetric3_turn : flatMetric3.Turn := by
  intro p1 p2 p3 q1 q2 q3 s1 s2 s3 h1 h2 h3 h12 h13 hcc hw hq
  have g1 : 0 ≤ s1 := dist_nonneg.trans h1
  have g2 : 0 ≤ s2 := dist_nonneg.trans h2
  have g3 : 0 ≤ s3 := dist_nonneg.trans h3
  have hd3 : 0 < dist p1 p2 := by linarith
  have hd2 : 0 < dist p1 p3 := by linarith
  have e3 : dist p1 p2 = Real.sqrt ((p2 0 - p1 0) ^ 2 + (p2 1 - p1 1) ^ 2) := by
    rw [dist_comm, ← dist2_sq, Real.sqrt_sq dist_nonneg]
  have e2 : dist p1 p3 = Real.sqrt ((p3 0 - p1 0) ^ 2 + (p3 1 - p1 1) ^ 2) := by
    rw [dist_comm, ← dist2_sq, Real.sqrt_sq dist_nonneg]
  have n3 : 0 < (p2 0 - p1 0) ^ 2 + (p2 1 - p1 1) ^ 2 := by
    rw [e3] at hd3
    exact Real.sqrt_pos.1 hd3
  have n2 : 0 < (p3 0 - p1 0) ^ 2 + (p3 1 - p1 1) ^ 2 := by
    rw [e2] at hd2
    exact Real.sqrt_pos.1 hd2
  have hmove : ∀ (p q p' q' : EuclideanSpace ℝ (Fin 2)) (s s' d : ℝ), 0 < d → dist q p ≤ s → dist q' p' ≤ s' → dist p p' = d →
      ((q' 0 - q 0) - (p' 0 - p 0)) ^ 2 + ((q' 1 - q 1) - (p' 1 - p 1)) ^ 2 ≤
        ((s + s') / d) ^ 2 * ((p' 0 - p 0) ^ 2 + (p' 1 - p 1) ^ 2) := by
    intro p q p' q' s s' d hd hs hs' e
    have e1 : (p' 0 - p 0) ^ 2 + (p' 1 - p 1) ^ 2 = d ^ 2 := by
      rw [← dist2_sq, dist_comm, e]
    have e2 : ((q' 0 - q 0) - (p' 0 - p 0)) ^ 2 + ((q' 1 - q 1) - (p' 1 - p 1)) ^ 2 = ‖(q' - p') - (q - p)‖ ^ 2 := by
      rw [EuclideanSpace.norm_sq_eq]
      simp [Fin.sum_univ_two]
      ring
    rw [e1, e2, div_pow, div_mul_cancel₀ _ (by positivity)]
    refine pow_le_pow_left₀ (norm_nonneg _) ?_ 2
    refine (norm_sub_le _ _).trans ?_
    rw [← dist_eq_norm, ← dist_eq_norm]
    linarith
  have m2 := hmove p1 q1 p2 q2 s1 s2 _ hd3 h1 h2 rfl
  have m3 := hmove p1 q1 p3 q3 s1 s3 _ hd2 h1 h3 rfl
  have r2 : 0 ≤ (s1 + s2) / dist p1 p2 := by positivity
  have r3 : 0 ≤ (s1 + s3) / dist p1 p3 := by positivity
  have r2' : (s1 + s2) / dist p1 p2 < 1 := (div_lt_one hd3).2 h12
  have r3' : (s1 + s3) / dist p1 p3 < 1 := (div_lt_one hd2).2 h13
  set D := (p3 0 - p1 0) * (p2 0 - p1 0) + (p3 1 - p1 1) * (p2 1 - p1 1) with hD
  set m := dist p1 p3 * dist p1 p2 with hm
  have hmp : 0 < m := mul_pos hd2 hd3
  have hcos : cosPhi (dist p2 p3 ^ 2) (dist p1 p3 ^ 2) (dist p1 p2 ^ 2) (dist p1 p3) (dist p1 p2) = D / m := by
    unfold cosPhi
    rw [dist2_sq p2 p3, dist2_sq p1 p3, dist2_sq p1 p2, div_eq_div_iff (by positivity) hmp.ne', hD, hm]
    ring
  rw [hcos] at hw
  have hDm : |D| ≤ m := by
    refine abs_le_of_sq_le_sq ?_ hmp.le
    rw [hm, mul_pow, dist2_sq, dist2_sq, hD, ← sub_nonneg]
    refine le_of_le_of_eq (sq_nonneg ((p3 0 - p1 0) * (p2 1 - p1 1) - (p3 1 - p1 1) * (p2 0 - p1 0))) ?_
    ring
  have key : |D / m| ≤ Real.sqrt (1 - ((s1 + s2) / dist p1 p2) ^ 2) * Real.sqrt (1 - ((s1 + s3) / dist p1 p3) ^ 2) -
      (s1 + s3) / dist p1 p3 * ((s1 + s2) / dist p1 p2) := by
    obtain ⟨w1, w2, w3⟩ := hw
    by_cases z2 : 0 < s1 + s2
    · by_cases z3 : 0 < s1 + s3
      · have := fun h => w3 ⟨⟨by rw [if_pos z2]; positivity, by rw [if_pos z3]; positivity⟩, h⟩
        simp only [if_pos z2, if_pos z3] at this
        linarith [not_lt.1 this]
      · have : s1 + s3 = 0 := le_antisymm (not_lt.1 z3) (by linarith)
        have hh := fun h => w1 ⟨z2, h⟩
        simp only [if_pos z2] at hh
        rw [this]
        simp only [zero_div, zero_mul, sub_zero, ne_eq, OfNat.ofNat_ne_zero, not_false_eq_true, zero_pow, Real.sqrt_one, mul_one]
        refine Real.le_sqrt_of_sq_le ?_
        rw [sq_abs]
        exact not_lt.1 hh
    · have h2' : s1 + s2 = 0 := le_antisymm (not_lt.1 z2) (by linarith)
      rw [h2']
      simp only [zero_div, mul_zero, sub_zero, ne_eq, OfNat.ofNat_ne_zero, not_false_eq_true, zero_pow, Real.sqrt_one, one_mul]
      refine Real.le_sqrt_of_sq_le ?_
      rw [sq_abs]
      by_cases z3 : 0 < s1 + s3
      · have hh := fun h => w2 ⟨z3, h⟩
        simp only [if_pos z3] at hh
        exact not_lt.1 hh
      · have : s1 + s3 = 0 := le_antisymm (not_lt.1 z3) (by linarith)
        rw [this, zero_div, div_pow, div_le_iff₀ (by positivity)]
        have := pow_le_pow_left₀ (abs_nonneg D) hDm 2
        rw [sq_abs] at this
        linarith
  have hneg := turn_two r2 r2' r3 r3' m2 m3 n3 n2
    (by
      simp only [flatMetric3] at hcc
      linarith [not_lt.1 hcc]) (by
      rw [← e2, ← e3]
      rw [abs_div, abs_of_pos hmp, div_le_iff₀ hmp] at key
      exact key)
  simp only [flatMetric3] at hq
  have : (p3 0 - p1 0 + (q3 0 - q1 0 - (p3 0 - p1 0))) * (p2 1 - p1 1 + (q2 1 - q1 1 - (p2 1 - p1 1))) -
      (p3 1 - p1 1 + (q3 1 - q1 1 - (p3 1 - p1 1))) * (p2 0 - p1 0 + (q2 0 - q1 0 - (p2 0 - p1 0))) =
      (q3 0 - q1 0) * (q2 1 - q1 1) - (q3 1 - q1 1) * (q2 0 - q1 0) := by ring
  rw [this] at hneg
  linarith

end

end TreeCorr
