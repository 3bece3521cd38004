import Verif.Proofs.Traverse3
import Verif.Proofs.LogExact
import Verif.Spec.Triangles
import Mathlib.Tactic.Linarith
import Mathlib.Tactic.Positivity

/-! `LogRUV` at zero slop: what `stop111` gives up on holds no triangle in range, and the index is the bin. -/

namespace TreeCorr
open Classical

/-- The side lengths of a triangle in range. -/
structure RuvRange (p : Prm3) (x y z : ℝ) : Prop where
  yx : y ≤ x
  zy : z ≤ y
  pos : 0 < z
  min : p.minsep ≤ y
  max : y < p.maxsep
  umin : p.minu * y ≤ z
  umax : z < p.maxu * y
  vmin : p.minv * z ≤ x - y
  vmax : x - y < p.maxv * z

/-- The side lengths of a triple after reordering, for each way a call may count it. -/
def Ord3.Some (O : Ord3) (R : ℝ → ℝ → ℝ → Prop) (x y z : ℝ) : Prop :=
  match O with
  | .any => R x y z ∨ R x z y ∨ R y x z ∨ R y z x ∨ R z x y ∨ R z y x
  | .first => R x y z ∨ R x z y
  | .fixed => R x y z

/-- Two sides below `min_sep`. -/
theorem not_range_small {p : Prm3} {O : Ord3} {x y z : ℝ} (h1 : y < p.minsep) (h2 : O ≠ .fixed → z < p.minsep) :
    ¬ O.Some (RuvRange p) x y z := by
  cases O with
  | any =>
    have h2 := h2 (by simp)
    rintro (h | h | h | h | h | h) <;> have a := h.yx <;> have b := h.min <;> linarith
  | first =>
    have h2 := h2 (by simp)
    rintro (h | h) <;> have b := h.min <;> linarith
  | fixed =>
    intro h
    have b := h.min
    linarith

theorem not_range_large {p : Prm3} {O : Ord3} {x y z : ℝ} (h1 : p.maxsep ≤ y) (h2 : O = .any → p.maxsep ≤ x) :
    ¬ O.Some (RuvRange p) x y z := by
  cases O with
  | any =>
    have h2 := h2 (by simp)
    rintro (h | h | h | h | h | h) <;> have a := h.zy <;> have b := h.max <;> linarith
  | first =>
    rintro (h | h) <;> have a := h.zy <;> have b := h.max <;> linarith
  | fixed =>
    intro h
    have b := h.max
    linarith

theorem RuvRange.le1 {p : Prm3} (hp : RuvParams p) {x y z : ℝ} (h : RuvRange p x y z) : p.minu < 1 := by
  have h1 := h.umin
  have h2 := h.umax
  have h3 := h.pos
  have h4 := h.zy
  have : p.minu * y < p.maxu * y := by linarith
  have := lt_of_mul_lt_mul_right this (by linarith)
  linarith [hp.maxu_le]

/-- One side is too short compared with both others. -/
theorem not_range_thin {p : Prm3} (hp : RuvParams p) {O : Ord3} {x y z : ℝ} (h1 : z < p.minu * y) (h2 : z < p.minu * x) (hx : 0 ≤ x)
    (hy : 0 ≤ y) :
    ¬ O.Some (RuvRange p) x y z := by
  have key : ∀ a b c, ((a = x ∧ b = y ∧ c = z) ∨ (a = x ∧ b = z ∧ c = y) ∨ (a = y ∧ b = x ∧ c = z) ∨
      (a = y ∧ b = z ∧ c = x) ∨ (a = z ∧ b = x ∧ c = y) ∨ (a = z ∧ b = y ∧ c = x)) → ¬ RuvRange p a b c := by
    intro a b c hc h
    have hl := h.le1 hp
    have hzx : z < x := by nlinarith
    have hzy : z < y := by nlinarith
    have a1 := h.yx
    have a2 := h.zy
    have a3 := h.umin
    rcases hc with ⟨rfl, rfl, rfl⟩ | ⟨rfl, rfl, rfl⟩ | ⟨rfl, rfl, rfl⟩ | ⟨rfl, rfl, rfl⟩ | ⟨rfl, rfl, rfl⟩ |
      ⟨rfl, rfl, rfl⟩ <;> linarith
  cases O with
  | any => rintro (h | h | h | h | h | h) <;> exact key _ _ _ (by simp) h
  | first => rintro (h | h) <;> exact key _ _ _ (by simp) h
  | fixed => exact fun h => key _ _ _ (by simp) h

/-- A permuted version: the first side is too short compared with both others. -/
theorem not_range_thin' {p : Prm3} (hp : RuvParams p) {O : Ord3} {x y z : ℝ} (h1 : x < p.minu * y) (h2 : x < p.minu * z) (hy : 0 ≤ y)
    (hz : 0 ≤ z) :
    ¬ O.Some (RuvRange p) x y z := by
  have key : ∀ a b c, ((a = x ∧ b = y ∧ c = z) ∨ (a = x ∧ b = z ∧ c = y) ∨ (a = y ∧ b = x ∧ c = z) ∨
      (a = y ∧ b = z ∧ c = x) ∨ (a = z ∧ b = x ∧ c = y) ∨ (a = z ∧ b = y ∧ c = x)) → ¬ RuvRange p a b c := by
    intro a b c hc h
    have hl := h.le1 hp
    have hzx : x < y := by nlinarith
    have hzy : x < z := by nlinarith
    have a1 := h.yx
    have a2 := h.zy
    have a3 := h.umin
    rcases hc with ⟨rfl, rfl, rfl⟩ | ⟨rfl, rfl, rfl⟩ | ⟨rfl, rfl, rfl⟩ | ⟨rfl, rfl, rfl⟩ | ⟨rfl, rfl, rfl⟩ |
      ⟨rfl, rfl, rfl⟩ <;> linarith
  cases O with
  | any => rintro (h | h | h | h | h | h) <;> exact key _ _ _ (by simp) h
  | first => rintro (h | h) <;> exact key _ _ _ (by simp) h
  | fixed => exact fun h => key _ _ _ (by simp) h

/-- A side is zero. -/
theorem not_range_zero {p : Prm3} {O : Ord3} {x y z : ℝ} (h : x ≤ 0 ∨ y ≤ 0 ∨ z ≤ 0) : ¬ O.Some (RuvRange p) x y z := by
  cases O with
  | any =>
    rintro (g | g | g | g | g | g) <;> have a := g.yx <;> have b := g.zy <;> have c := g.pos <;>
      rcases h with h | h | h <;> linarith
  | first =>
    rintro (g | g) <;> have a := g.yx <;> have b := g.zy <;> have c := g.pos <;> rcases h with h | h | h <;> linarith
  | fixed =>
    intro g
    have a := g.yx
    have b := g.zy
    have c := g.pos
    rcases h with h | h | h <;> linarith

/-- One side is too long for `max_u`. -/
theorem not_range_fat {p : Prm3} {O : Ord3} (hu : 0 ≤ p.maxu) {x y z : ℝ} (h1 : p.maxu * y ≤ z) (h2 : O ≠ .fixed → p.maxu * z ≤ y)
    (h3 : O = .any → p.maxu * y ≤ x) : ¬ O.Some (RuvRange p) x y z := by
  cases O with
  | any =>
    have h2 := h2 (by simp)
    have h3 := h3 (by simp)
    rintro (g | g | g | g | g | g) <;> have a := g.yx <;> have b := g.umax
    · linarith
    · linarith
    · have := mul_le_mul_of_nonneg_left a hu
      linarith
    · have := mul_le_mul_of_nonneg_left a hu
      linarith
    · have := mul_le_mul_of_nonneg_left a hu
      linarith
    · linarith
  | first =>
    have h2 := h2 (by simp)
    rintro (g | g) <;> have b := g.umax <;> linarith
  | fixed =>
    intro g
    have b := g.umax
    linarith

theorem fat_aux {m d2 d3 s1 s2 s3 : ℝ} (e1 : m * (d2 + s1 + s3) ≤ d3 - s1 - s2) (h1 : 0 ≤ s1) (h2 : 0 ≤ s2) (h3 : 0 ≤ s3)
    (hd3 : 0 ≤ d3) (hs : d3 ≤ d2) (hc : s3 ≤ s2) (b2 : s1 + s3 < d2) : m * (d3 + s1 + s2) ≤ d2 - s1 - s3 := by
  have e2 : m * (d2 + s1 + s3) * (d3 + s1 + s2) ≤ (d3 - s1 - s2) * (d3 + s1 + s2) :=
    mul_le_mul_of_nonneg_right e1 (by linarith)
  have g1 : d3 ^ 2 ≤ d2 ^ 2 := pow_le_pow_left₀ hd3 hs 2
  have g2 : (s1 + s3) ^ 2 ≤ (s1 + s2) ^ 2 := pow_le_pow_left₀ (by linarith) (by linarith) 2
  have e3 : (d3 - s1 - s2) * (d3 + s1 + s2) ≤ (d2 - s1 - s3) * (d2 + s1 + s3) := by
    have i1 : (d3 - s1 - s2) * (d3 + s1 + s2) = d3 ^ 2 - (s1 + s2) ^ 2 := by ring
    have i2 : (d2 - s1 - s3) * (d2 + s1 + s3) = d2 ^ 2 - (s1 + s3) ^ 2 := by ring
    linarith
  have e4 : (m * (d3 + s1 + s2)) * (d2 + s1 + s3) ≤ (d2 - s1 - s3) * (d2 + s1 + s3) := by
    have i1 : (m * (d3 + s1 + s2)) * (d2 + s1 + s3) = m * (d2 + s1 + s3) * (d3 + s1 + s2) := by ring
    linarith
  exact le_of_mul_le_mul_right e4 (by linarith)

/-- The third point of a triangle with sides `x`, `y`, `z` moves by at most `s3`: then the sides 1 and 2 are `q`, `p`, and Ptolemy's inequality holds for
the four points.  After that the other points move by `s1` and `s2`. -/
def Via (x y z d1 d2 s1 s2 s3 : ℝ) : Prop :=
  ∃ p q s : ℝ, 0 ≤ p ∧ 0 ≤ q ∧ 0 ≤ s ∧ s ≤ s3 ∧ |p - d2| ≤ s1 ∧ |q - d1| ≤ s2 ∧ |p - y| ≤ s ∧ |q - x| ≤ s ∧
    q * y ≤ s * z + x * p ∧ x * p ≤ s * z + q * y

theorem via_max {x y z d1 d2 s1 s2 s3 m : ℝ} (h : Via x y z d1 d2 s1 s2 s3) (hm : 0 ≤ m) (hz : 0 < z) (hzy : z ≤ y) (hv : x - y ≤ m * z) :
    d1 ≤ (1 + m) * d2 + (s1 + s2 + s3) + m * s1 := by
  obtain ⟨p, q, s, hp, hq, hs, hs3, h1, h2, h3, h4, h5, h6⟩ := h
  rw [abs_le] at h1 h2 h3 h4
  have key : q ≤ (1 + m) * p + s := by
    rcases le_or_gt y p with hc | hc
    · have a := mul_le_mul_of_nonneg_left (hzy.trans hc) hm
      linarith [h4.2]
    · have hy : 0 < y := hz.trans_le hzy
      have a : y * (q - p) ≤ y * (s + m * p) := by
        have b := mul_le_mul_of_nonneg_right hv hp
        have c := mul_le_mul_of_nonneg_right hzy (by positivity : 0 ≤ s + m * p)
        nlinarith
      have := le_of_mul_le_mul_left a hy
      linarith
  have := mul_le_mul_of_nonneg_left (show p ≤ d2 + s1 by linarith [h1.2]) (by linarith : 0 ≤ 1 + m)
  linarith [h2.1]

theorem via_min {x y z d1 d2 s1 s2 s3 : ℝ} (h : Via x y z d1 d2 s1 s2 s3) (hz : 0 < z) (hzy : z ≤ y) (hyx : y ≤ x) :
    x - y ≤ d1 - d2 + (s1 + s2 + s3) := by
  obtain ⟨p, q, s, hp, hq, hs, hs3, h1, h2, h3, h4, h5, h6⟩ := h
  rw [abs_le] at h1 h2 h3 h4
  have key : x - y ≤ q - p + s := by
    rcases le_or_gt p y with hc | hc
    · linarith [h4.1]
    · have hy : 0 < y := hz.trans_le hzy
      have a : y * (x - y) ≤ y * (q - p + s) := by
        have b := mul_le_mul_of_nonneg_left hzy hs
        have c := mul_le_mul_of_nonneg_left hc.le (sub_nonneg.2 hyx)
        nlinarith
      exact le_of_mul_le_mul_left a hy
  linarith [h1.1, h2.2]

/-- `stop111` is safe: no triangle of the three cells is in range in any of the orders the call stands for. -/
theorem ruvStop_safe {p : Prm3} (hp : RuvParams p) {O : Ord3}
    {d1 d2 d3 s1 s2 s3 x y z : ℝ} (hv0 : 0 < p.minv → O = .fixed ∧ Via x y z d1 d2 s1 s2 s3)
    (hv1 : p.maxv < 1 → Via x y z d1 d2 s1 s2 s3 ∧ Via x z y d1 d3 s1 s3 s2) (hd1 : 0 ≤ d1) (hd2 : 0 ≤ d2) (hd3 : 0 ≤ d3) (h1 : 0 ≤ s1) (h2 : 0 ≤ s2) (h3 : 0 ≤ s3)
    (hs : O ≠ .fixed → d3 ≤ d2) (hs' : O = .any → d2 ≤ d1)
    (hx : |x - d1| ≤ s2 + s3) (hy : |y - d2| ≤ s1 + s3) (hz : |z - d3| ≤ s1 + s2) (hx0 : 0 ≤ x) (hy0 : 0 ≤ y)
    (h : ruvStop p O (d1 ^ 2) (d2 ^ 2) (d3 ^ 2) s1 s2 s3) : ¬ O.Some (RuvRange p) x y z := by
  rw [abs_le] at hx hy hz
  obtain ⟨x1, x2⟩ := hx
  obtain ⟨y1, y2⟩ := hy
  obtain ⟨z1, z2⟩ := hz
  have hm := hp.minsep
  have hM : 0 < p.maxsep := by
    rw [hp.maxsep]
    positivity
  have hu := hp.minu
  have hU : 0 ≤ p.maxu := by
    rw [hp.maxu]
    have := hp.ubinsize
    have h := hp.nubins
    have : (0 : ℝ) ≤ p.nubins := by exact_mod_cast h
    positivity
  simp only [ruvStop, Real.sqrt_sq hd1, Real.sqrt_sq hd2] at h
  rcases h with h | h | h | h | h | h | h | h | h | h
  · obtain ⟨a1, a2, a3, a4, a5⟩ := h
    have b1 : d2 < p.minsep := lt_of_pow_lt_pow_left₀ 2 hm.le (by nlinarith)
    apply not_range_small
    · rcases a4 with a4 | a4
      · linarith
      · have := lt_of_pow_lt_pow_left₀ 2 (by linarith) a4
        linarith
    · intro hO
      rcases a5 with a5 | a5
      · linarith [hs hO]
      · have := lt_of_pow_lt_pow_left₀ 2 (by linarith) a5
        linarith
  · obtain ⟨a1, a2, a3⟩ := h
    have b1 : p.maxsep ≤ d2 := le_of_sq_le_sq (by nlinarith) hd2
    apply not_range_large
    · rcases a2 with a2 | a2
      · linarith
      · have := le_of_sq_le_sq a2 hd2
        linarith
    · intro hO
      rcases a3 with a3 | a3
      · linarith [hs' hO]
      · have := le_of_sq_le_sq a3 hd1
        linarith
  · obtain ⟨hO, h⟩ := h
    rcases h with ⟨hf, h⟩ | ⟨ha, h⟩ | h
    · subst hf
      have := lt_of_pow_lt_pow_left₀ 2 hd3 h
      intro g
      have := g.zy
      linarith
    · have := lt_of_pow_lt_pow_left₀ 2 (by linarith) h
      cases O with
      | any => exact absurd rfl hO
      | first =>
        rintro (g | g) <;> have a := g.yx <;> have b := g.zy <;> linarith
      | fixed =>
        intro g
        have a := g.yx
        linarith
    · have := lt_of_pow_lt_pow_left₀ 2 hd3 h
      cases O with
      | any => exact absurd rfl hO
      | first =>
        rintro (g | g) <;> have a := g.yx <;> have b := g.zy <;> linarith
      | fixed =>
        intro g
        have a := g.yx
        have b := g.zy
        linarith
  · obtain ⟨a0, a1, a2, ⟨a3, a4⟩, a5, a6, a7⟩ := h
    apply not_range_thin hp _ _ hx0 hy0
    · have := lt_of_pow_lt_pow_left₀ 2 (by linarith) a4
      have := mul_le_mul_of_nonneg_left (show d2 - s1 - s3 ≤ y by linarith) hu
      linarith
    · have b1 : (d3 + (s1 + s2 + p.minu * (s2 + s3))) ^ 2 < (p.minu * d1) ^ 2 := by
        nlinarith [sq_nonneg (d3 - (s1 + s2 + p.minu * (s2 + s3)))]
      have b2 := lt_of_pow_lt_pow_left₀ 2 (by positivity) b1
      have := mul_le_mul_of_nonneg_left (show d1 - (s2 + s3) ≤ x by linarith) hu
      linarith
  · obtain ⟨a0, a1, a2, a3, a4, a5, a6⟩ := h
    have b1 : p.maxu * (d2 + s1 + s3) + s1 + s2 ≤ d3 := le_of_sq_le_sq a2 hd3
    have b2 : s1 + s3 < d2 := lt_of_pow_lt_pow_left₀ 2 hd2 a3
    have b3 : s2 + s3 < d1 := lt_of_pow_lt_pow_left₀ 2 hd1 a4
    have c1 := mul_le_mul_of_nonneg_left (show y ≤ d2 + s1 + s3 by linarith) hU
    have c2 := mul_le_mul_of_nonneg_left (show z ≤ d3 + s1 + s2 by linarith) hU
    apply not_range_fat hU
    · linarith
    · intro hO
      have hs := hs hO
      rcases a5 with a5 | a5
      · have e1 : p.maxu * (d2 + s1 + s3) ≤ d3 - s1 - s2 := by linarith
        have := fat_aux e1 h1 h2 h3 hd3 hs a5.le b2
        linarith
      · by_cases hc : s3 < s2
        · have e1 : p.maxu * (d2 + s1 + s3) ≤ d3 - s1 - s2 := by linarith
          have := fat_aux e1 h1 h2 h3 hd3 hs hc.le b2
          linarith
        · have e1 : d3 ≤ d2 - s3 + s2 := le_of_sq_le_sq a5 (by linarith)
          have := mul_le_mul_of_nonneg_left (show d3 + s1 + s2 ≤ d2 + s1 + s3 by linarith) hU
          linarith
    · intro hO
      have hs := hs (by simp [hO])
      have hs' := hs' hO
      have e : d3 + s3 - s1 ≤ d1 := by
        rcases a6 with a6 | a6
        · linarith
        · apply le_of_sq_le_sq _ hd1
          nlinarith [sq_nonneg (d3 - (s3 - s1))]
      linarith
  · obtain ⟨a0, a1⟩ := h
    obtain ⟨via3, via2⟩ := hv1 a0
    have hV : 0 ≤ p.maxv := by
      rw [hp.maxv]
      have := hp.vbinsize
      have h := hp.nvbins
      have : (0 : ℝ) ≤ p.nvbins := by exact_mod_cast h
      have := hp.minv
      positivity
    have b1 : (1 + p.maxv) * d2 + (s1 + s2 + s3) + p.maxv * (s1 + s2) < d1 := lt_of_pow_lt_pow_left₀ 2 hd1 a1
    have hms := mul_nonneg hV h2
    have k3 : 0 < z → z ≤ y → ¬ x - y ≤ p.maxv * z := by
      intro e1 e2 e3
      have := via_max via3 hV e1 e2 e3
      linarith
    have k2 : O ≠ .fixed → 0 < y → y ≤ z → ¬ x - z ≤ p.maxv * y := by
      intro hO e1 e2 e3
      have := via_max via2 hV e1 e2 e3
      have := mul_le_mul_of_nonneg_left (hs hO) (by linarith : 0 ≤ 1 + p.maxv)
      linarith
    cases O with
    | any =>
      have k2 := k2 (by simp)
      rintro (g | g | g | g | g | g) <;> have e1 := g.yx <;> have e2 := g.zy <;> have e3 := g.pos
      · exact k3 e3 e2 g.vmax.le
      · exact k2 e3 e2 g.vmax.le
      · exact k3 e3 (e2.trans e1) (by have := mul_nonneg hV e3.le; linarith)
      · have e4 := e3.trans_le e2
        exact k3 e4 e1 (by have := mul_nonneg hV e4.le; linarith)
      · exact k2 e3 (e2.trans e1) (by have := mul_nonneg hV e3.le; linarith)
      · have e4 := e3.trans_le e2
        exact k2 e4 e1 (by have := mul_nonneg hV e4.le; linarith)
    | first =>
      have k2 := k2 (by simp)
      rintro (g | g) <;> have e2 := g.zy <;> have e3 := g.pos
      · exact k3 e3 e2 g.vmax.le
      · exact k2 e3 e2 g.vmax.le
    | fixed =>
      intro g
      exact k3 g.pos g.zy g.vmax.le
  · obtain ⟨a0, a1, a2, a3⟩ := h
    obtain ⟨hO, via⟩ := hv0 a0
    subst hO
    intro g
    have b1 := via_min via g.pos g.zy g.yx
    have p2 : 0 < d2 := lt_of_le_of_ne hd2 (Ne.symm a2)
    have b2 : (d1 ^ 2 - d2 ^ 2) / (2 * d2) + (s1 + s2 + s3) + p.minv * (s1 + s2) < p.minv * d3 := by
      have a3' : ((d1 ^ 2 - d2 ^ 2) / (2 * d2) + (s1 + s2 + s3) + p.minv * (s1 + s2)) ^ 2 < (p.minv * d3) ^ 2 := lt_of_lt_of_eq a3 (by ring)
      exact lt_of_pow_lt_pow_left₀ 2 (by positivity) a3'
    have b3 : d1 - d2 ≤ (d1 ^ 2 - d2 ^ 2) / (2 * d2) := by
      rw [le_div_iff₀ (by positivity)]
      nlinarith [sq_nonneg (d1 - d2)]
    have b4 := g.vmin
    have b5 := mul_le_mul_of_nonneg_left (show d3 - (s1 + s2) ≤ z by linarith) a0.le
    linarith
  · apply not_range_zero
    left
    have : d1 = 0 := by nlinarith [h.2.2]
    linarith [h.1, h.2.1]
  · apply not_range_zero
    right; left
    have : d2 = 0 := by nlinarith [h.2.2]
    linarith [h.1, h.2.1]
  · apply not_range_zero
    right; right
    have : d3 = 0 := by nlinarith [h.2.2]
    linarith [h.1, h.2.1]

end TreeCorr
