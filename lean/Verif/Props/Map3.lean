import Verif.Proofs.Map3T
import Verif.Model.Spin

/-!
C72: the weights of the three-point correlations of shears in the products of three aperture masses.
-/

namespace TreeCorr.Map3

open Aperture
open scoped ComplexConjugate Real

theorem fq_rotation (l2 l3 : ℝ) (q1 q2 q3 r : ℂ) (hr : r ≠ 0) : fq l2 l3 (r * q1) (r * q2) (r * q3) = fq l2 l3 q1 q2 q3 := by
  unfold fq
  rw [show ((l2 : ℂ) - l3) * (r * q2 - r * q3) = r * ((l2 - l3) * (q2 - q3)) by ring,
    show 6 * (r * q1) = r * (6 * q1) by ring, mul_div_mul_left _ _ hr]

theorem gq_rotation (l1 l2 l3 : ℝ) (q1 q2 q3 r : ℂ) (hr : r ≠ 0) :
    gq l1 l2 l3 (r * q1) (r * q2) (r * q3) = gq l1 l2 l3 q1 q2 q3 := by
  unfold gq
  rw [show ((l3 : ℂ) - l2) * l1 * (r * q2 - r * q3) = r * ((l3 - l2) * l1 * (q2 - q3)) by ring,
    show 3 * (r * q1) = r * (3 * q1) by ring, mul_div_mul_left _ _ hr]

theorem eq'_rotation (h l1 l2 l3 : ℝ) (q1 q2 q3 r : ℂ) (hr : ‖r‖ = 1) :
    eq' h l1 l2 l3 (r * q1) (r * q2) (r * q3) = eq' h l1 l2 l3 q1 q2 q3 := by
  simp only [eq', zq, norm_mul, hr, one_mul]

theorem tq0_rotation (h l1 l2 l3 : ℝ) (q1 q2 q3 r : ℂ) (hr : ‖r‖ = 1) :
    tq0 h l1 l2 l3 (r * q1) (r * q2) (r * q3) = tq0 h l1 l2 l3 q1 q2 q3 := by
  have h0 : r ≠ 0 := by
    intro h
    simp [h] at hr
  simp only [tq0, fq_rotation _ _ _ _ _ _ h0, eq'_rotation _ _ _ _ _ _ _ _ hr, norm_mul, hr, one_mul]

theorem tq1_rotation (h l1 l2 l3 : ℝ) (q1 q2 q3 r : ℂ) (hr : ‖r‖ = 1) :
    tq1 h l1 l2 l3 (r * q1) (r * q2) (r * q3) = tq1 h l1 l2 l3 q1 q2 q3 := by
  have h0 : r ≠ 0 := by
    intro h
    simp [h] at hr
  have h1 : r * conj r = 1 := by
    rw [← sq_norm_eq, hr]
    norm_num
  have hb : conj (r * q1) ^ 2 * (r * q2) * (r * q3) = conj q1 ^ 2 * q2 * q3 := by
    rw [map_mul]
    linear_combination (conj q1 ^ 2 * q2 * q3) * (r * conj r + 1) * h1
  simp only [tq1, fq_rotation _ _ _ _ _ _ h0, gq_rotation _ _ _ _ _ _ _ h0, eq'_rotation _ _ _ _ _ _ _ _ hr, norm_mul, hr,
    one_mul, hb]

/-- Both branches in one. -/
theorem calcT_eq (s t : ℂ) (k1 k2 k3 : ℝ) : calcT s t k1 k2 k3 = calcTGen s t k1 k2 k3 := by
  unfold calcT
  split
  · rename_i h
    rw [h.1, h.2.1, h.2.2, calcTOne_eq]
  · rfl

/-- **C72.** The functions `T` are the weights that the definition of the aperture masses implies.  For any triangle in the
plane and any shears at its points, with `s` the second side and `t` the third side in coordinates turned by any angle, the weight of the product of the shears in the mean of the product of the three aperture masses of radii `k1`,
`k2`, `k3` is `T0` times the product of the shears relative to the directions to the centroid; and the same for `T1`, `T2`, `T3`
if the first, second, third is conjugated. -/
theorem T_filter (p1 p2 p3 g1 g2 g3 : ℂ) (k1 k2 k3 : ℝ) (h1 : 0 < k1) (h2 : 0 < k2) (h3 : 0 < k3) (r : ℂ) (hr : ‖r‖ = 1)
    (n1 : p1 ≠ centroid p1 p2 p3) (n2 : p2 ≠ centroid p1 p2 p3) (n3 : p3 ≠ centroid p1 p2 p3) :
    let F1 := apertureFilter k1
    let F2 := apertureFilter k2
    let F3 := apertureFilter k3
    let c := centroid p1 p2 p3
    let G1 := relTo c p1 g1
    let G2 := relTo c p2 g2
    let G3 := relTo c p3 g3
    let T := calcT (r * (p3 - p1)) (r * (p2 - p1)) k1 k2 k3
    kernel3 F1 F2 F3 p1 p2 p3 * (g1 * g2 * g3) = T.T0 * (G1 * G2 * G3) ∧
    kernel3 (conjFilter F1) F2 F3 p1 p2 p3 * (conj g1 * g2 * g3) = T.T1 * (conj G1 * G2 * G3) ∧
    kernel3 F1 (conjFilter F2) F3 p1 p2 p3 * (g1 * conj g2 * g3) = T.T2 * (G1 * conj G2 * G3) ∧
    kernel3 F1 F2 (conjFilter F3) p1 p2 p3 * (g1 * g2 * conj g3) = T.T3 * (G1 * G2 * conj G3) := by
  intro F1 F2 F3 c G1 G2 G3 T
  have m1 : c - p1 ≠ 0 := sub_ne_zero.2 n1.symm
  have m2 : c - p2 ≠ 0 := sub_ne_zero.2 n2.symm
  have m3 : c - p3 ≠ 0 := sub_ne_zero.2 n3.symm
  have hc : c - p1 + (c - p2) + (c - p3) = 0 := by
    simp only [c, centroid]
    ring
  have H := Scaled.ofK h1 h2 h3
  have hT := calcTGen_eq (r * (p3 - p1)) (r * (p2 - p1)) k1 k2 k3
  simp only at hT
  have q1 : (r * (p3 - p1) + r * (p2 - p1)) / 3 = r * (c - p1) := by
    simp only [c, centroid]
    ring
  have q2 : r * (c - p1) - r * (p2 - p1) = r * (c - p2) := by ring
  have q3 : r * (c - p1) - r * (p3 - p1) = r * (c - p3) := by ring
  rw [q1, q2, q3, tq0_rotation _ _ _ _ _ _ _ _ hr, tq1_rotation _ _ _ _ _ _ _ _ hr, tq1_rotation _ _ _ _ _ _ _ _ hr,
    tq1_rotation _ _ _ _ _ _ _ _ hr, ← calcT_eq] at hT
  simp only at H
  generalize Real.sqrt ((k1 * k1 * (k2 * k2) + k1 * k1 * (k3 * k3) + k2 * k2 * (k3 * k3)) / 3) = h at H hT
  have ph := H.ph
  have e1 : k1 ^ 2 = k1 * k1 / h * h := by field_simp
  have e2 : k2 ^ 2 = k2 * k2 / h * h := by field_simp
  have e3 : k3 ^ 2 = k3 * k3 / h * h := by field_simp
  generalize k1 * k1 / h = l1 at *
  generalize k2 * k2 / h = l2 at *
  generalize k3 * k3 / h = l3 at *
  have K0 := tq0_kernel H h1 h2 h3 e1 e2 e3 p1 p2 p3 c hc m1 m2 m3
  have K1 := tq1_kernel H h1 h2 h3 e1 e2 e3 p1 p2 p3 c hc m1 m2 m3
  have K2 := tq1_kernel H.turn h2 h3 h1 e2 e3 e1 p2 p3 p1 c (by linear_combination hc) m2 m3 m1
  have K3 := tq1_kernel H.turn.turn h3 h1 h2 e3 e1 e2 p3 p1 p2 c (by linear_combination hc) m3 m1 m2
  have t1 : ∀ A B C : ℂ → ℂ, kernel3 A B C p1 p2 p3 = kernel3 B C A p2 p3 p1 := by
    intro A B C
    simp only [kernel3]
    congr 2
    funext x
    ring
  have t2 : ∀ A B C : ℂ → ℂ, kernel3 A B C p1 p2 p3 = kernel3 C A B p3 p1 p2 := by
    intro A B C
    simp only [kernel3]
    congr 2
    funext x
    ring
  have j1 : ∀ q : ℂ, conj (conj q / q) = q / conj q := by
    intro q
    rw [map_div₀, Complex.conj_conj]
  refine ⟨?_, ?_, ?_, ?_⟩
  · rw [K0, show T = _ from hT]
    simp only [G1, G2, G3, relTo]
    ring
  · rw [K1, show T = _ from hT]
    simp only [G1, G2, G3, relTo, map_mul, j1]
    ring
  · rw [t1, K2, show T = _ from hT]
    simp only [G1, G2, G3, relTo, map_mul, j1]
    ring
  · rw [t2, K3, show T = _ from hT]
    simp only [G1, G2, G3, relTo, map_mul, j1]
    ring

/-- The same for mean products of shears, which need not be products. -/
theorem T_mean (t : Tri) (ht : t.Proper) (k1 k2 k3 : ℝ) (h1 : 0 < k1) (h2 : 0 < k2) (h3 : 0 < k3) (r : ℂ) (hr : ‖r‖ = 1) (z : ℂ) :
    let T := calcT (r * (t.p3 - t.p1)) (r * (t.p2 - t.p1)) k1 k2 k3
    let F1 := apertureFilter k1
    let F2 := apertureFilter k2
    let F3 := apertureFilter k3
    T.T0 * (z * t.phase none) = kernel3 F1 F2 F3 t.p1 t.p2 t.p3 * z ∧
    T.T1 * (z * t.phase (some 0)) = kernel3 (conjFilter F1) F2 F3 t.p1 t.p2 t.p3 * z ∧
    T.T2 * (z * t.phase (some 1)) = kernel3 F1 (conjFilter F2) F3 t.p1 t.p2 t.p3 * z ∧
    T.T3 * (z * t.phase (some 2)) = kernel3 F1 F2 (conjFilter F3) t.p1 t.p2 t.p3 * z := by
  intro T F1 F2 F3
  obtain ⟨e0, e1, e2, e3⟩ := T_filter t.p1 t.p2 t.p3 1 1 1 k1 k2 k3 h1 h2 h3 r hr ht.n1 ht.n2 ht.n3
  simp only [map_one, mul_one] at e0 e1 e2 e3
  refine ⟨?_, ?_, ?_, ?_⟩
  · rw [e0]
    simp only [Tri.phase, reduceCtorEq, if_false]
    ring
  · rw [e1]
    simp only [Tri.phase, Option.some.injEq, if_true, Fin.reduceEq, if_false]
    ring
  · rw [e2]
    simp only [Tri.phase, Option.some.injEq, if_true, Fin.reduceEq, if_false]
    ring
  · rw [e3]
    simp only [Tri.phase, Option.some.injEq, if_true, Fin.reduceEq, if_false]
    ring

/-! ### Symmetries -/

/-- **C72.** Exchanging the points 2 and 3 together with their apertures exchanges `T2` and `T3`. -/
theorem calcT_swap (s t : ℂ) (k1 k2 k3 : ℝ) :
    calcT t s k1 k3 k2 = ⟨(calcT s t k1 k2 k3).T0, (calcT s t k1 k2 k3).T1, (calcT s t k1 k2 k3).T3, (calcT s t k1 k2 k3).T2⟩ := by
  have f1 : ∀ (l2 l3 : ℝ) (q1 q2 q3 : ℂ), fq l3 l2 q1 q3 q2 = fq l2 l3 q1 q2 q3 := by
    intro l2 l3 q1 q2 q3
    unfold fq
    ring
  have g1 : ∀ (l1 l2 l3 : ℝ) (q1 q2 q3 : ℂ), gq l1 l3 l2 q1 q3 q2 = gq l1 l2 l3 q1 q2 q3 := by
    intro l1 l2 l3 q1 q2 q3
    unfold gq
    ring
  have e1 : ∀ (h l1 l2 l3 : ℝ) (q1 q2 q3 : ℂ), eq' h l1 l3 l2 q1 q3 q2 = eq' h l1 l2 l3 q1 q2 q3 := by
    intro h l1 l2 l3 q1 q2 q3
    unfold eq'
    rw [show zq h l1 l3 l2 q1 q3 q2 = zq h l1 l2 l3 q1 q2 q3 by unfold zq; ring, mul_right_comm]
  have t0 : ∀ (h l1 l2 l3 : ℝ) (q1 q2 q3 : ℂ), tq0 h l1 l3 l2 q1 q3 q2 = tq0 h l1 l2 l3 q1 q2 q3 := by
    intro h l1 l2 l3 q1 q2 q3
    unfold tq0
    rw [f1 l2 l3, f1 l1 l2 q3 q1 q2, f1 l3 l1 q2 q3 q1, e1]
    ring
  have t1 : ∀ (h l1 l2 l3 : ℝ) (q1 q2 q3 : ℂ), tq1 h l1 l3 l2 q1 q3 q2 = tq1 h l1 l2 l3 q1 q2 q3 := by
    intro h l1 l2 l3 q1 q2 q3
    unfold tq1
    rw [f1 l2 l3, f1 l1 l2 q3 q1 q2, f1 l3 l1 q2 q3 q1, e1, g1]
    ring
  have hh : Real.sqrt ((k1 * k1 * (k3 * k3) + k1 * k1 * (k2 * k2) + k3 * k3 * (k2 * k2)) / 3) =
      Real.sqrt ((k1 * k1 * (k2 * k2) + k1 * k1 * (k3 * k3) + k2 * k2 * (k3 * k3)) / 3) := by
    congr 1
    ring
  have hA := calcTGen_eq s t k1 k2 k3
  have hB := calcTGen_eq t s k1 k3 k2
  simp only [hh, add_comm t s] at hA hB
  rw [calcT_eq, calcT_eq, hA, hB, t0, t1, ← t1 _ (k3 * k3 / _), ← t1 _ (k2 * k2 / _)]

/-- **C72.** Turning the triangle does not change the weights. -/
theorem calcT_rotation (s t r : ℂ) (hr : ‖r‖ = 1) (k1 k2 k3 : ℝ) : calcT (r * s) (r * t) k1 k2 k3 = calcT s t k1 k2 k3 := by
  have hA := calcTGen_eq s t k1 k2 k3
  have hB := calcTGen_eq (r * s) (r * t) k1 k2 k3
  simp only at hA hB
  rw [show (r * s + r * t) / 3 = r * ((s + t) / 3) by ring, show r * ((s + t) / 3) - r * t = r * ((s + t) / 3 - t) by ring,
    show r * ((s + t) / 3) - r * s = r * ((s + t) / 3 - s) by ring, tq0_rotation _ _ _ _ _ _ _ _ hr,
    tq1_rotation _ _ _ _ _ _ _ _ hr, tq1_rotation _ _ _ _ _ _ _ _ hr, tq1_rotation _ _ _ _ _ _ _ _ hr] at hB
  rw [calcT_eq, calcT_eq, hA, hB]

/-- **C72.** The weights of the mirrored triangle are the conjugates. -/
theorem calcT_mirror (s t : ℂ) (k1 k2 k3 : ℝ) :
    calcT (conj s) (conj t) k1 k2 k3 = ⟨conj (calcT s t k1 k2 k3).T0, conj (calcT s t k1 k2 k3).T1,
      conj (calcT s t k1 k2 k3).T2, conj (calcT s t k1 k2 k3).T3⟩ := by
  have f1 : ∀ (l2 l3 : ℝ) (q1 q2 q3 : ℂ), fq l2 l3 (conj q1) (conj q2) (conj q3) = conj (fq l2 l3 q1 q2 q3) := by
    intro l2 l3 q1 q2 q3
    simp only [fq, map_add, map_sub, map_mul, map_div₀, Complex.conj_ofReal, map_ofNat]
  have g1 : ∀ (l1 l2 l3 : ℝ) (q1 q2 q3 : ℂ), gq l1 l2 l3 (conj q1) (conj q2) (conj q3) = conj (gq l1 l2 l3 q1 q2 q3) := by
    intro l1 l2 l3 q1 q2 q3
    simp only [gq, map_add, map_sub, map_mul, map_div₀, Complex.conj_ofReal, map_ofNat]
  have e1 : ∀ (h l1 l2 l3 : ℝ) (q1 q2 q3 : ℂ), eq' h l1 l2 l3 (conj q1) (conj q2) (conj q3) = conj (eq' h l1 l2 l3 q1 q2 q3) := by
    intro h l1 l2 l3 q1 q2 q3
    simp only [eq', zq, RCLike.norm_conj, Complex.conj_ofReal]
  have t0 : ∀ (h l1 l2 l3 : ℝ) (q1 q2 q3 : ℂ), tq0 h l1 l2 l3 (conj q1) (conj q2) (conj q3) = conj (tq0 h l1 l2 l3 q1 q2 q3) := by
    intro h l1 l2 l3 q1 q2 q3
    simp only [tq0, f1, e1, RCLike.norm_conj, map_mul, map_div₀, map_pow, Complex.conj_ofReal, map_ofNat]
  have t1 : ∀ (h l1 l2 l3 : ℝ) (q1 q2 q3 : ℂ), tq1 h l1 l2 l3 (conj q1) (conj q2) (conj q3) = conj (tq1 h l1 l2 l3 q1 q2 q3) := by
    intro h l1 l2 l3 q1 q2 q3
    simp only [tq1, f1, g1, e1, RCLike.norm_conj, map_mul, map_div₀, map_pow, map_add, map_sub, Complex.conj_ofReal, map_ofNat]
  have hA := calcTGen_eq s t k1 k2 k3
  have hB := calcTGen_eq (conj s) (conj t) k1 k2 k3
  simp only at hA hB
  have q1 : (conj s + conj t) / 3 = conj ((s + t) / 3) := by simp only [map_add, map_div₀, map_ofNat]
  rw [q1, ← map_sub, ← map_sub, t0, t1, t1, t1] at hB
  rw [calcT_eq, calcT_eq, hA, hB]

/-! ### The eight combinations -/

/-- **C72.** From the products of the three aperture masses `M = Map + i Mx`, with none or one of them conjugated, the eight
returned values are the products of `Map` and `Mx` that their names say. -/
theorem eight_parts (A B C : ℂ) (v : ℝ) :
    let r := eight (A * B * C) (conj A * B * C) (A * conj B * C) (A * B * conj C) v
    r.map3 = A.re * B.re * C.re ∧ r.mapmapmx = A.re * B.re * C.im ∧ r.mapmxmap = A.re * B.im * C.re ∧
    r.mxmapmap = A.im * B.re * C.re ∧ r.mxmxmap = A.im * B.im * C.re ∧ r.mxmapmx = A.im * B.re * C.im ∧
    r.mapmxmx = A.re * B.im * C.im ∧ r.mx3 = A.im * B.im * C.im := by
  simp only [eight, Complex.add_re, Complex.add_im, Complex.sub_re, Complex.sub_im, Complex.neg_re, Complex.neg_im,
    Complex.mul_re, Complex.mul_im, Complex.conj_re, Complex.conj_im]
  refine ⟨?_, ?_, ?_, ?_, ?_, ?_, ?_, ?_⟩ <;> ring

end TreeCorr.Map3
