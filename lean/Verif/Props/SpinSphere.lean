import Verif.Proofs.SpinSphere

/-!
C50: spin fields on the sphere: the projection of a pair does not depend on the coordinate system.
C51: the value of a cell on the sphere is the sum of the values of its rows, parallel transported to the centre.  The code turns the values the
wrong way, so only the negation and the exact relation are proved.
-/

namespace TreeCorr
open Classical ComplexConjugate
noncomputable section

/-! ### C50: one pair -/

/-- **C50.** The value at `p2` is projected on the direction in which the great circle from `p1` arrives. -/
theorem sphere_factor (D : Spin) {p1 p2 : Space} (h1 : OnSphere p1) (h2 : OnSphere p2) :
    sphFactor D p1 p2 = conj (unitOf (components p2 (away p1 p2))) ^ D.s := by
  rw [sphFactor, sphDirection_eq h1 h2, expm_eq, unitOf_eq]

theorem components_neg (p v : Space) : components p (-v) = -components p v := by
  apply Complex.ext <;> simp [components, inner_neg_left]

theorem dirOf_neg (r : ℂ) : dirOf (-r) = -dirOf r := by rw [dirOf, dirOf, norm_neg, neg_div]

/-- **C50.** The value at `p1` is projected on the direction in which the great circle to `p2` departs. -/
theorem sphere_factor1 (D : Spin) {p1 p2 : Space} (h1 : OnSphere p1) (h2 : OnSphere p2) :
    sphFactor1 D p1 p2 = conj (unitOf (components p1 (-away p2 p1))) ^ D.s := by
  rw [sphFactor1, sphDirection_eq h2 h1, expm_eq, unitOf_eq, components_neg, dirOf_neg, map_neg]
  cases D <;> simp [Spin.s] <;> ring

/-- Turning the sphere turns the direction by the angle of the axes. -/
theorem direction_rot {R : Matrix (Fin 3) (Fin 3) ℝ} (hR : IsRotation R) {p1 p2 : Space} (h2 : OnSphere p2)
    (ho : OffPole p2) :
    unitOf (components (rot R p2) (away (rot R p1) (rot R p2))) = frameTurn R p2 * unitOf (components p2 (away p1 p2)) := by
  have h := congrArg dirOf (components_rot hR h2 (inner_away (p1 := p1) h2))
  rw [dirOf_mul, dirOf_mul, dirOf_pos ho.pos, one_mul] at h
  rw [hR.away, frameTurn, unitOf_eq, h, mul_comm]

theorem frameTurn_norm {R : Matrix (Fin 3) (Fin 3) ℝ} (hR : IsRotation R) {p : Space} (hp : OnSphere p) (h1 : OffPole p)
    (h2 : OffPole (rot R p)) : frameTurn R p * conj (frameTurn R p) = 1 := by
  rw [Complex.mul_conj, Complex.normSq_eq_norm_sq, frameTurn, unitOf_eq, norm_dirOf (frame_ne_zero hR hp h1 h2)]
  norm_num

/-- **C50.** Turning the sphere, which multiplies spin-`s` values by the `s`-th power of the turn of the local axes, leaves the projected value
of every pair unchanged. -/
theorem sphere_rotation (D : Spin) {R : Matrix (Fin 3) (Fin 3) ℝ} (hR : IsRotation R) {p1 p2 : Space} (h1 : OnSphere p1) (h2 : OnSphere p2)
    (ho : OffPole p2) (ho' : OffPole (rot R p2)) (z : ℂ) :
    z * frameTurn R p2 ^ D.s * sphFactor D (rot R p1) (rot R p2) = z * sphFactor D p1 p2 := by
  rw [sphere_factor D (hR.onSphere h1) (hR.onSphere h2), sphere_factor D h1 h2, direction_rot hR h2 ho, map_mul, mul_pow]
  have := frameTurn_norm hR h2 ho ho'
  have h3 : frameTurn R p2 ^ D.s * conj (frameTurn R p2) ^ D.s = 1 := by rw [← mul_pow, this, one_pow]
  linear_combination z * conj (unitOf (components p2 (away p1 p2))) ^ D.s * h3

/-- **C50.** The same for the value at the first point of a pair. -/
theorem sphere_rotation1 (D : Spin) {R : Matrix (Fin 3) (Fin 3) ℝ} (hR : IsRotation R) {p1 p2 : Space} (h1 : OnSphere p1) (h2 : OnSphere p2)
    (ho : OffPole p1) (ho' : OffPole (rot R p1)) (z : ℂ) :
    z * frameTurn R p1 ^ D.s * sphFactor1 D (rot R p1) (rot R p2) = z * sphFactor1 D p1 p2 := by
  have h := sphere_rotation D hR h2 h1 ho ho' z
  simp only [sphFactor] at h
  simp only [sphFactor1]
  split
  · linear_combination -h
  · exact h

/-- **C50 fails at the poles**: a value at a pole is multiplied by 0. -/
theorem pole_zero_wrong (D : Spin) (h : D ≠ .Z) (p1 : Space) (hp : OnSphere p1) :
    sphFactor D p1 (EuclideanSpace.single 2 1) = 0 := by
  have hn : OnSphere (EuclideanSpace.single 2 (1 : ℝ)) := by simp [OnSphere]
  have : components (EuclideanSpace.single 2 (1 : ℝ)) (away p1 (EuclideanSpace.single 2 1)) = 0 := by
    apply Complex.ext <;> simp only [components, inner3] <;> simp
  rw [sphere_factor D hp hn, this, unitOf_eq, dirOf_zero, map_zero, zero_pow]
  cases D <;> simp_all [Spin.s]

/-! ### C51: parallel transport -/

theorem toSphere_of {p : Space} (h : OnSphere p) : toSphere p = p := by
  have h' : ‖p‖ = 1 := h
  rw [toSphere, h', if_neg one_ne_zero, inv_one, one_smul]

/-- **C51**: what the code computes for unit vectors: the *conjugate* of the parallel transport. -/
theorem transport_conj (D : Spin) {c p : Space} (hc : OnSphere c) (hp : OnSphere p) (hd : ¬ ‖c - p‖ ^ 2 < 1e-12) :
    transportFactor D c p = conj (trueTransport D.s c p) := by
  rw [transportFactor, toSphere_of hc, toSphere_of hp, if_neg hd, expm_eq]
  have h1 : transportAngle c p = -(sphDirection p c * conj (sphDirection c p)) := by
    have e : ‖p - c‖ ^ 2 = ‖c - p‖ ^ 2 := by rw [norm_sub_rev]
    rw [transportAngle, toSphere_of hc, toSphere_of hp]
    apply Complex.ext <;> simp [sphDirection, e] <;> ring
  rw [h1, sphDirection_eq hc hp, sphDirection_eq hp hc, trueTransport, unitOf_eq, components_neg, dirOf_neg, dirOf_neg, dirOf_mul, map_pow]
  congr 1
  set u := dirOf (components c (away p c))
  have hconj : ∀ r : ℂ, dirOf (conj r) = conj (dirOf r) := by
    intro r
    simp [dirOf, RCLike.norm_conj]
  rw [hconj]
  by_cases hz : components p (away c p) = 0
  · simp [hz, dirOf_zero]
  · have hn := norm_dirOf hz
    set v := dirOf (components p (away c p))
    have hv : v ≠ 0 := by intro h; rw [h] at hn; simp at hn
    have hvv : v * conj v = 1 := by
      rw [Complex.mul_conj, Complex.normSq_eq_norm_sq, hn]; norm_num
    simp only [map_neg, map_mul, map_div₀, Complex.conj_conj]
    have hcv : conj v ≠ 0 := by intro h; rw [h, mul_zero] at hvv; exact zero_ne_one hvv
    field_simp
    linear_combination -(conj u) * hvv

/-- The centre of the two rows below. -/
def exCen (C S : ℝ) : Space := !₂[S, 0, C]
/-- Two rows, symmetric about the meridian of the centre. -/
def exRow (C S : ℝ) (sgn : ℝ) : Space := !₂[C * S, sgn * S, C * C]

theorem exCen_on {C S : ℝ} (h : C ^ 2 + S ^ 2 = 1) : OnSphere (exCen C S) := by
  have : ‖exCen C S‖ ^ 2 = 1 := by rw [normsq3]; simp [exCen]; linarith
  rw [OnSphere]; nlinarith [norm_nonneg (exCen C S)]

theorem exRow_on {C S sgn : ℝ} (h : C ^ 2 + S ^ 2 = 1) (hs : sgn ^ 2 = 1) : OnSphere (exRow C S sgn) := by
  have : ‖exRow C S sgn‖ ^ 2 = 1 := by
    rw [normsq3]; simp [exRow]
    linear_combination (C ^ 2 + 1) * h + S ^ 2 * hs
  rw [OnSphere]; nlinarith [norm_nonneg (exRow C S sgn)]

theorem ex_dsq {C S sgn : ℝ} (h : C ^ 2 + S ^ 2 = 1) (hs : sgn ^ 2 = 1) : ‖exCen C S - exRow C S sgn‖ ^ 2 = 2 - 2 * C := by
  rw [normsq3]
  simp [exCen, exRow]
  linear_combination (C ^ 2 - 2 * C + 2) * h + S ^ 2 * hs

theorem ex_angle {C S sgn : ℝ} (h : C ^ 2 + S ^ 2 = 1) (hs : sgn ^ 2 = 1) :
    transportAngle (exCen C S) (exRow C S sgn) = ((S ^ 4 : ℝ) : ℂ) * (⟨1, -(sgn * C)⟩ : ℂ) := by
  rw [transportAngle, toSphere_of (exCen_on h), toSphere_of (exRow_on h hs), ex_dsq h hs]
  have hC : C ^ 2 = 1 - S ^ 2 := by linarith
  have hA : C - C * C + 0.5 * (C * C) * (2 - 2 * C) = C * S ^ 2 := by
    have : C - C * C + 0.5 * (C * C) * (2 - 2 * C) = C * (1 - C ^ 2) := by ring
    rw [this, hC]; ring
  have hB : C * C - C + 0.5 * C * (2 - 2 * C) = 0 := by ring
  apply Complex.ext
  · simp only [exCen, exRow, Complex.mul_re, Complex.ofReal_re, Complex.ofReal_im]
    simp only [PiLp.toLp_apply, Matrix.cons_val_zero, Matrix.cons_val_one, Matrix.cons_val]
    rw [hA, hB]
    linear_combination S ^ 4 * hs
  · simp only [exCen, exRow, Complex.mul_im, Complex.ofReal_re, Complex.ofReal_im]
    simp only [PiLp.toLp_apply, Matrix.cons_val_zero, Matrix.cons_val_one, Matrix.cons_val]
    rw [hA, hB]
    ring

theorem expm_real_mul (D : Spin) {a : ℝ} (ha : 0 < a) (r : ℂ) : expm D ((a : ℂ) * r) = expm D r := by
  rw [expm_eq, expm_eq, dirOf_mul, dirOf_pos ha, one_mul]

theorem ex_factor {C S sgn : ℝ} (h : C ^ 2 + S ^ 2 = 1) (hs : sgn ^ 2 = 1) (hS : S ≠ 0) (hd : 1e-12 ≤ 2 - 2 * C) :
    transportFactor .G (exCen C S) (exRow C S sgn) = (⟨S ^ 2, 2 * sgn * C⟩ : ℂ) / ((1 + C ^ 2 : ℝ) : ℂ) := by
  have hS4 : (0:ℝ) < S ^ 4 := by positivity
  rw [transportFactor, toSphere_of (exCen_on h), toSphere_of (exRow_on h hs), ex_dsq h hs, if_neg (not_lt.2 hd), ex_angle h hs,
    expm_real_mul .G hS4, expm]
  have hne : (⟨1, -(sgn * C)⟩ : ℂ) ≠ 0 := by
    intro h0
    have := congrArg Complex.re h0
    simp at this
  rw [safeNorm_eq hne, ← Complex.normSq_eq_norm_sq]
  have e1 : Complex.normSq (⟨1, -(sgn * C)⟩ : ℂ) = 1 + C ^ 2 := by
    rw [Complex.normSq_mk]; linear_combination C ^ 2 * hs
  rw [e1]
  congr 1
  apply Complex.ext
  · simp
    linear_combination (-C ^ 2) * hs - h
  · simp
    ring

/-- The row of the example with index `i`. -/
def exObj (C S sgn : ℝ) (i : ℕ) : Obj Space := { pos := exRow C S sgn, w := 1, wk := 0, idx := i }

/-- The two rows of the example as a cell. -/
def exSphCell (C S size : ℝ) : Cell Space :=
  .node ⟨exCen C S, 2, 2, 0⟩ size (.leaf ⟨exRow C S 1, 1, 1, 0⟩ [exObj C S 1 0]) (.leaf ⟨exRow C S (-1), 1, 1, 0⟩ [exObj C S (-1) 1])

/-- **C51 fails near the poles.**  Two rows within `sqrt(2-2C)` (as small as one likes) of the centre of their cell, whose shears are both 1 when
transported to the centre: the cell should have the value 2, but the value the code gives it has a real part below -1. -/
theorem transport_wrong (C S size : ℝ) (h : C ^ 2 + S ^ 2 = 1) (hC : 9 / 10 ≤ C) (hS : S ≠ 0) (hd : 1e-12 ≤ 2 - 2 * C)
    (z : Obj Space → ℂ)
    (hz : ∀ o ∈ (exSphCell C S size).objs, z o * trueTransport 2 (exSphCell C S size).pos o.pos = 1) :
    toSphere ((2 : ℝ)⁻¹ • (exRow C S 1 + exRow C S (-1))) = (exSphCell C S size).pos ∧
    (∀ o ∈ (exSphCell C S size).objs, ‖(exSphCell C S size).pos - o.pos‖ ^ 2 = 2 - 2 * C) ∧
    ((exSphCell C S size).objs.map fun o => z o * trueTransport 2 (exSphCell C S size).pos o.pos).sum = 2 ∧
    (transportSum .G z (exSphCell C S size)).re < -1 := by
  have pos : (exSphCell C S size).pos = exCen C S := rfl
  have objs : (exSphCell C S size).objs = [exObj C S 1 0, exObj C S (-1) 1] := rfl
  have C1 : C < 1 := by nlinarith
  rw [pos, objs] at hz ⊢
  refine ⟨?_, ?_, ?_, ?_⟩
  · have e : (2 : ℝ)⁻¹ • (exRow C S 1 + exRow C S (-1)) = C • exCen C S := by
      ext i
      fin_cases i <;> simp [exRow, exCen] <;> ring
    have hn : ‖exCen C S‖ = 1 := exCen_on h
    have hC0 : 0 < C := by linarith
    rw [e, toSphere, norm_smul, hn, mul_one, Real.norm_of_nonneg hC0.le, if_neg hC0.ne', smul_smul, inv_mul_cancel₀ hC0.ne', one_smul]
  · intro o ho
    simp only [List.mem_cons, List.not_mem_nil, or_false] at ho
    rcases ho with rfl | rfl
    · exact ex_dsq h (by norm_num)
    · exact ex_dsq h (by norm_num)
  · have h1 := hz _ (List.mem_cons_self)
    have h2 := hz (exObj C S (-1) 1) (by simp)
    simp only [List.map_cons, List.map_nil, List.sum_cons, List.sum_nil, h1, h2]
    norm_num
  · have val : ∀ sgn i, sgn ^ 2 = (1 : ℝ) → exObj C S sgn i ∈ [exObj C S 1 0, exObj C S (-1) 1] →
        z (exObj C S sgn i) = (⟨S ^ 2, 2 * sgn * C⟩ : ℂ) / ((1 + C ^ 2 : ℝ) : ℂ) := by
      intro sgn i hs hm
      have h1 := hz _ hm
      have h2 := transport_conj .G (exCen_on h) (exRow_on h hs) (by rw [ex_dsq h hs]; exact not_lt.2 hd)
      rw [ex_factor h hs hS hd] at h2
      set f : ℂ := (⟨S ^ 2, 2 * sgn * C⟩ : ℂ) / ((1 + C ^ 2 : ℝ) : ℂ) with hf
      have h3 : trueTransport 2 (exCen C S) (exRow C S sgn) = conj f := by rw [h2, Complex.conj_conj]; rfl
      have h4 : f * conj f = 1 := by
        rw [Complex.mul_conj, hf, Complex.normSq_div, Complex.normSq_mk, Complex.normSq_ofReal]
        have : S ^ 2 * S ^ 2 + 2 * sgn * C * (2 * sgn * C) = (1 + C ^ 2) * (1 + C ^ 2) := by
          have hS2 : S ^ 2 = 1 - C ^ 2 := by linarith
          rw [hS2]
          linear_combination 4 * C ^ 2 * hs
        rw [this, div_self (by positivity)]
        norm_num
      change z (exObj C S sgn i) * trueTransport 2 (exCen C S) (exRow C S sgn) = 1 at h1
      rw [h3] at h1
      calc z (exObj C S sgn i) = z (exObj C S sgn i) * (f * conj f) := by rw [h4, mul_one]
        _ = f * (z (exObj C S sgn i) * conj f) := by ring
        _ = f := by rw [h1, mul_one]
    rw [transportSum, pos, objs]
    simp only [List.map_cons, List.map_nil, List.sum_cons, List.sum_nil, add_zero]
    rw [val 1 0 (by norm_num) (by simp), val (-1) 1 (by norm_num) (by simp)]
    change (_ * transportFactor .G (exCen C S) (exRow C S 1) + _ * transportFactor .G (exCen C S) (exRow C S (-1))).re < -1
    rw [ex_factor h (by norm_num) hS hd, ex_factor h (by norm_num) hS hd]
    have key : ∀ sgn : ℝ, sgn ^ 2 = 1 → ((⟨S ^ 2, 2 * sgn * C⟩ : ℂ) / ((1 + C ^ 2 : ℝ) : ℂ) * ((⟨S ^ 2, 2 * sgn * C⟩ : ℂ) / ((1 + C ^ 2 : ℝ) : ℂ))).re
        = (S ^ 4 - 4 * C ^ 2) / (1 + C ^ 2) ^ 2 := by
      intro sgn hs
      rw [div_mul_div_comm, ← Complex.ofReal_mul, Complex.div_ofReal_re, Complex.mul_re]
      simp only
      rw [← pow_two (1 + C ^ 2)]
      congr 1
      linear_combination (-4 * C ^ 2) * hs
    rw [Complex.add_re, key 1 (by norm_num), key (-1) (by norm_num), ← add_div, div_lt_iff₀ (by positivity)]
    have hS2 : S ^ 2 = 1 - C ^ 2 := by linarith
    have hS4 : S ^ 4 = (1 - C ^ 2) ^ 2 := by rw [← hS2]; ring
    rw [hS4]
    nlinarith [mul_pos (show (0:ℝ) < C by linarith) (show (0:ℝ) < C by linarith)]

/-- The hypotheses of `transport_wrong` can be met: `C = 99/101`, `S = 20/101`, and values that are 1 after transport. -/
example : ∃ z : Obj Space → ℂ, ∀ o ∈ (exSphCell (99 / 101) (20 / 101) 1).objs,
    z o * trueTransport 2 (exSphCell (99 / 101) (20 / 101) 1).pos o.pos = 1 := by
  refine ⟨fun o => (trueTransport 2 (exSphCell (99 / 101) (20 / 101) 1).pos o.pos)⁻¹, fun o ho => inv_mul_cancel₀ ?_⟩
  have objs : (exSphCell (99 / 101) (20 / 101) 1).objs = [exObj (99 / 101) (20 / 101) 1 0, exObj (99 / 101) (20 / 101) (-1) 1] := rfl
  rw [objs] at ho
  have hd : (1e-12 : ℝ) ≤ 2 - 2 * (99 / 101) := by norm_num
  have main : ∀ sgn : ℝ, sgn ^ 2 = 1 → trueTransport 2 (exCen (99 / 101) (20 / 101)) (exRow (99 / 101) (20 / 101) sgn) ≠ 0 := by
    intro sgn hs h0
    have hu : (99 / 101 : ℝ) ^ 2 + (20 / 101) ^ 2 = 1 := by norm_num
    have h2 := transport_conj .G (exCen_on hu) (exRow_on hu hs) (by rw [ex_dsq hu hs]; exact not_lt.2 hd)
    rw [ex_factor hu hs (by norm_num) hd] at h2
    change _ = conj (trueTransport 2 _ _) at h2
    rw [h0, map_zero, div_eq_zero_iff] at h2
    rcases h2 with h2 | h2
    · have := congrArg Complex.re h2
      norm_num at this
    · have h3 : (1 + (99 / 101) ^ 2 : ℝ) = 0 := by exact_mod_cast h2
      norm_num at h3
  simp only [List.mem_cons, List.not_mem_nil, or_false] at ho
  rcases ho with rfl | rfl
  · exact main 1 (by norm_num)
  · exact main (-1) (by norm_num)

/-! ### Three points in 3d -/

/-- **C52**: three-point projection (`LogSAS` bins) of points on the sphere: each of the three values is projected, on its own direction. -/
theorem sphere_projectX (D : Spin) (p1 p2 p3 : Space) (h1 : OnSphere p1) (h2 : OnSphere p2) (h3 : OnSphere p3) (st : Fin 3 → ℂ) :
    sphereProjectX D p1 p2 p3 st 1 = st 1 * conj (unitOf (components p2 (away p1 p2))) ^ D.s ∧
    sphereProjectX D p1 p2 p3 st 2 = st 2 * conj (unitOf (components p3 (away p1 p3))) ^ D.s := by
  rw [← sphere_factor D h1 h2, ← sphere_factor D h1 h3]
  constructor <;> simp [sphereProjectX, sphProjectX, mulVar, sphFactor]

/-- **C52 fails for 3d positions**: the value at the second point is not projected at all, and the one at the third is projected on both
directions. -/
theorem threeD_projectX_wrong (D : Spin) (p1 p2 p3 : Space) (st : Fin 3 → ℂ) :
    threeDProjectX D p1 p2 p3 st 1 = st 1 ∧
    threeDProjectX D p1 p2 p3 st 2 = st 2 * threeDFactor D p1 p2 * threeDFactor D p1 p3 := by
  constructor <;> simp [threeDProjectX, sphProjectX, mulVar, threeDFactor, sphFactor]

/-- So a vector (spin 1) at unit distance comes out with the wrong sign: the same three points as points on the sphere and as 3d points. -/
theorem threeD_projectX_differs :
    let p1 : Space := !₂[1, 0, 0]
    let p2 : Space := !₂[0, 1, 0]
    let p3 : Space := !₂[0, -1, 0]
    sphereProjectX .V p1 p2 p3 (fun _ => 1) 1 = -1 ∧ threeDProjectX .V p1 p2 p3 (fun _ => 1) 1 = 1 := by
  have e : sphDirection (!₂[1, 0, 0] : Space) !₂[0, 1, 0] = -1 := by
    apply Complex.ext <;> simp [sphDirection]
  refine ⟨?_, (threeD_projectX_wrong .V _ _ _ _).1⟩
  simp [sphereProjectX, sphProjectX, mulVar, e, expm, safeNorm]

/-- **C51 fails for 3d positions at other distances than 1**: the turn depends on the distance of the cell from the observer, because the
z coordinate of the centre is not normalised. -/
theorem transport_scale_wrong :
    let c : Space := exCen (3 / 5) (4 / 5)
    let p : Space := exRow (3 / 5) (4 / 5) 1
    transportFactor .V ((2 : ℝ) • c) p ≠ transportFactor .V c p ∧ toSphere ((2 : ℝ) • c) = toSphere c := by
  have hu : (3 / 5 : ℝ) ^ 2 + (4 / 5) ^ 2 = 1 := by norm_num
  have hc := exCen_on hu
  have hp := exRow_on (sgn := 1) hu (by norm_num)
  have hn : ‖exCen (3 / 5) (4 / 5)‖ = 1 := hc
  have h2 : toSphere ((2 : ℝ) • exCen (3 / 5) (4 / 5)) = exCen (3 / 5) (4 / 5) := by
    rw [toSphere, norm_smul, hn]
    norm_num [smul_smul]
  have hdist := ex_dsq (C := 3 / 5) (S := 4 / 5) (sgn := 1) hu (by norm_num)
  refine ⟨?_, by rw [h2, toSphere_of hc]⟩
  have a2 : transportAngle ((2 : ℝ) • exCen (3 / 5) (4 / 5)) (exRow (3 / 5) (4 / 5) 1) = ⟨2387 / 3125, -1248 / 3125⟩ := by
    rw [transportAngle, h2, toSphere_of hp, hdist]
    apply Complex.ext <;> norm_num [exCen, exRow] <;> simp only [Matrix.cons_val] <;> norm_num
  have a1 := ex_angle (C := 3 / 5) (S := 4 / 5) (sgn := 1) hu (by norm_num)
  rw [transportFactor, transportFactor, h2, toSphere_of hc, toSphere_of hp, hdist, if_neg (by norm_num), if_neg (by norm_num), a1, a2,
    expm_real_mul .V (by norm_num)]
  have n1 : (⟨2387 / 3125, -1248 / 3125⟩ : ℂ) ≠ 0 := fun h0 => by
    have := congrArg Complex.re h0
    norm_num at this
  have n2 : (⟨1, -(1 * (3 / 5))⟩ : ℂ) ≠ 0 := fun h0 => by
    have := congrArg Complex.re h0
    norm_num at this
  simp only [expm]
  rw [sqrt_safeNorm n1, sqrt_safeNorm n2]
  intro heq
  have hr := congrArg Complex.re heq
  have hi := congrArg Complex.im heq
  rw [Complex.div_ofReal_re, Complex.div_ofReal_re] at hr
  rw [Complex.div_ofReal_im, Complex.div_ofReal_im] at hi
  simp only [Complex.conj_re, Complex.conj_im] at hr hi
  have p1 := norm_pos_iff.2 n1
  have p2 := norm_pos_iff.2 n2
  set x := ‖(⟨2387 / 3125, -1248 / 3125⟩ : ℂ)‖
  set y := ‖(⟨1, -(1 * (3 / 5))⟩ : ℂ)‖
  rw [div_eq_div_iff p1.ne' p2.ne'] at hr hi
  linarith

/-- **C51, partial.** The transport is right between points of the same meridian circle.  Missing: all other directions, where the code turns
the wrong way (`transport_conj`, `transport_wrong`). -/
theorem transport_partial (D : Spin) {c p : Space} (hc : OnSphere c) (hp : OnSphere p) (hd : ¬ ‖c - p‖ ^ 2 < 1e-12)
    (hm : c 1 * p 0 = c 0 * p 1) : transportFactor D c p = trueTransport D.s c p := by
  have h := transport_conj D hc hp hd
  have hr : ∃ r : ℝ, transportAngle c p = (r : ℂ) := by
    refine ⟨(transportAngle c p).re, Complex.ext (by simp) ?_⟩
    simp only [transportAngle, toSphere_of hc, toSphere_of hp, Complex.ofReal_im]
    linear_combination (c 2 - p 2 + 0.5 * p 2 * ‖c - p‖ ^ 2 + (p 2 - c 2 + 0.5 * c 2 * ‖c - p‖ ^ 2)) * hm
  obtain ⟨r, hr⟩ := hr
  have hx : conj (transportFactor D c p) = transportFactor D c p := by
    rw [transportFactor, toSphere_of hc, toSphere_of hp, if_neg hd, expm_eq, hr, dirOf, map_pow, Complex.conj_conj, map_div₀,
      Complex.conj_ofReal, Complex.conj_ofReal]
  rw [← hx, h, Complex.conj_conj]

/-! ### The hypotheses can be met -/

/-- Two points of the meridian of 0 degrees. -/
example : OnSphere (!₂[1, 0, 0] : Space) ∧ OnSphere (exCen (3 / 5) (4 / 5)) ∧ ¬ ‖(!₂[1, 0, 0] : Space) - exCen (3 / 5) (4 / 5)‖ ^ 2 < 1e-12 ∧
    (!₂[1, 0, 0] : Space) 1 * exCen (3 / 5) (4 / 5) 0 = (!₂[1, 0, 0] : Space) 0 * exCen (3 / 5) (4 / 5) 1 := by
  refine ⟨?_, exCen_on (by norm_num), ?_, by simp [exCen]⟩
  · have : ‖(!₂[1, 0, 0] : Space)‖ ^ 2 = 1 := by rw [normsq3]; simp
    rw [OnSphere]; nlinarith [norm_nonneg (!₂[1, 0, 0] : Space)]
  · rw [normsq3]
    norm_num [exCen]
    simp only [Matrix.cons_val]
    norm_num

/-- A quarter turn about the x axis, two points on the equator. -/
example : ∃ R : Matrix (Fin 3) (Fin 3) ℝ, IsRotation R ∧ OnSphere (!₂[1, 0, 0] : Space) ∧ OnSphere (exCen (3 / 5) (4 / 5)) ∧
    OffPole (exCen (3 / 5) (4 / 5)) ∧ OffPole (rot R (exCen (3 / 5) (4 / 5))) ∧
    sphDirection !₂[1, 0, 0] (exCen (3 / 5) (4 / 5)) ≠ 0 := by
  refine ⟨!![1, 0, 0; 0, 0, -1; 0, 1, 0], ⟨?_, ?_⟩, ?_, exCen_on (by norm_num), Or.inl (by norm_num [exCen]), Or.inl ?_, ?_⟩
  · ext i j; fin_cases i <;> fin_cases j <;> simp [Matrix.mul_apply, Fin.sum_univ_three]
  · simp [Matrix.det_fin_three]
  · have : ‖(!₂[1, 0, 0] : Space)‖ ^ 2 = 1 := by rw [normsq3]; simp
    rw [OnSphere]; nlinarith [norm_nonneg (!₂[1, 0, 0] : Space)]
  · rw [rot_apply]; norm_num [exCen]; simp only [Matrix.cons_val]; norm_num
  · intro h0
    have := congrArg Complex.im h0
    norm_num [sphDirection, normsq3, exCen] at this
    simp only [Matrix.cons_val] at this
    norm_num at this

end
end TreeCorr
