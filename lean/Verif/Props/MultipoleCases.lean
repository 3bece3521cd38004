import Verif.Model.Phase
import Verif.Proofs.MpWitness
import Verif.Proofs.Witness3
import Verif.Props.Multipole
import Verif.Props.Periodic
import Verif.Props.Trivial

/-!
C57, continued: the directions of the three coordinate systems, cases that meet the hypotheses, and what the code gets wrong.
-/

namespace TreeCorr
open Classical
noncomputable section

/-! ### Directions -/

/-- **C57**: on the plane with the Euclidean metric the code's `e^{iφ}` is a direction, for all catalogues. -/
theorem flat_isPhase (l1 l2 : List (Obj (EuclideanSpace ℝ (Fin 2)))) : IsPhase (flatPhase dist) l1 l2 where
  unit := by
    intro o1 _ o2 _ hd
    unfold flatPhase
    rw [map_div₀, Complex.normSq_ofReal]
    have : Complex.normSq (cplx o2.pos - cplx o1.pos) = dist o1.pos o2.pos * dist o1.pos o2.pos := by
      rw [EuclideanSpace.dist_eq, Real.mul_self_sqrt (Finset.sum_nonneg fun _ _ => sq_nonneg _), Fin.sum_univ_two]
      simp only [Real.dist_eq, sq_abs, cplx, Complex.normSq_apply, Complex.sub_re, Complex.sub_im]
      ring
    rw [this, div_self (mul_self_pos.2 hd).ne']
  same := by
    intro x x' y y' hx hy
    rw [eq_of_dist_eq_zero hx, eq_of_dist_eq_zero hy]

theorem safe_unit {z : ℂ} (hz : z ≠ 0) : Complex.normSq (z / (Real.sqrt (safeNorm z) : ℂ)) = 1 := by
  have h0 : 0 < Complex.normSq z := Complex.normSq_pos.2 hz
  rw [map_div₀, Complex.normSq_ofReal, safeNorm, if_pos h0, Real.mul_self_sqrt h0.le, div_self h0.ne']

theorem unit3 {p : EuclideanSpace ℝ (Fin 3)} (h : ‖p‖ = 1) : p 0 ^ 2 + p 1 ^ 2 + p 2 ^ 2 = 1 := by
  have := EuclideanSpace.norm_sq_eq p
  rw [h, Fin.sum_univ_three] at this
  simpa [Real.norm_eq_abs, sq_abs] using this.symm

theorem parallel_unit {a b c x y w : ℝ} (e1 : a ^ 2 + b ^ 2 + c ^ 2 = 1) (e2 : x ^ 2 + y ^ 2 + w ^ 2 = 1) (hs : y * a - x * b = 0)
    (hc : (w - c) + 0.5 * c * ((x - a) ^ 2 + (y - b) ^ 2 + (w - c) ^ 2) = 0) (hab : a ^ 2 + b ^ 2 ≠ 0) :
    (x = a ∧ y = b ∧ w = c) ∨ (x = -a ∧ y = -b ∧ w = -c) := by
  have hw : w = c * (a * x + b * y + c * w) := by linear_combination hc - (c / 2) * e1 - (c / 2) * e2
  have hD : (a * x + b * y + c * w) * (a ^ 2 + b ^ 2) = a * x + b * y := by
    have k : w * (a ^ 2 + b ^ 2) = c * (a * x + b * y) := by linear_combination hw + w * e1
    linear_combination c * k + (a * x + b * y) * e1
  generalize hd : a * x + b * y + c * w = D at *
  have hx : x = a * D := mul_right_cancel₀ hab (by linear_combination -a * hD - b * hs)
  have hy : y = b * D := mul_right_cancel₀ hab (by linear_combination -b * hD + a * hs)
  have hD1 : D ^ 2 = 1 := by rw [hx, hy, hw] at e2; linear_combination e2 - D ^ 2 * e1
  rcases mul_self_eq_one_iff.1 (by linear_combination hD1 : D * D = 1) with h | h <;> rw [h] at hx hy hw
  · left; exact ⟨by linarith, by linarith, by linarith⟩
  · right; exact ⟨by linarith, by linarith, by linarith⟩

/-- On the unit sphere the direction from `p1` to `p2` vanishes only at a pole, or if the points are the same or opposite. -/
theorem sphDirection_ne {p1 p2 : EuclideanSpace ℝ (Fin 3)} (h1 : ‖p1‖ = 1) (h2 : ‖p2‖ = 1) (hpole : ¬ (p1 0 = 0 ∧ p1 1 = 0))
    (hne : p2 ≠ p1) (hop : p2 ≠ -p1) : sphDirection p2 p1 ≠ 0 := by
  intro hz
  have hd : ‖p2 - p1‖ ^ 2 = (p2 0 - p1 0) ^ 2 + (p2 1 - p1 1) ^ 2 + (p2 2 - p1 2) ^ 2 := by
    rw [EuclideanSpace.norm_sq_eq, Fin.sum_univ_three]
    simp [Real.norm_eq_abs, sq_abs]
  have hs : p2 1 * p1 0 - p2 0 * p1 1 = 0 := by simpa [sphDirection] using congrArg Complex.re hz
  have hc : (p2 2 - p1 2) + 0.5 * p1 2 * ‖p2 - p1‖ ^ 2 = 0 := by
    have := congrArg Complex.im hz
    simp only [sphDirection, Complex.zero_im] at this
    linarith
  rw [hd] at hc
  have hab : p1 0 ^ 2 + p1 1 ^ 2 ≠ 0 := by
    intro h
    exact hpole ⟨by nlinarith [sq_nonneg (p1 0), sq_nonneg (p1 1)], by nlinarith [sq_nonneg (p1 0), sq_nonneg (p1 1)]⟩
  rcases parallel_unit (unit3 h1) (unit3 h2) hs hc hab with ⟨a, b, c⟩ | ⟨a, b, c⟩
  · apply hne; ext i; fin_cases i <;> simpa
  · apply hop; ext i; fin_cases i <;> simpa

/-- **C57**: on the sphere the code's `e^{iφ}` is a direction if no row is at a pole and no two are opposite. -/
theorem sph_isPhase {l1 l2 : List (Obj (EuclideanSpace ℝ (Fin 3)))} (h1 : ∀ o ∈ l1, ‖o.pos‖ = 1 ∧ ¬ (o.pos 0 = 0 ∧ o.pos 1 = 0))
    (h2 : ∀ o ∈ l2, ‖o.pos‖ = 1) (hop : ∀ o1 ∈ l1, ∀ o2 ∈ l2, o2.pos ≠ -o1.pos) : IsPhase sphPhase l1 l2 where
  unit := by
    intro o1 m1 o2 m2 hd
    exact safe_unit (sphDirection_ne (h1 o1 m1).1 (h2 o2 m2) (h1 o1 m1).2 (fun e => hd (by rw [e, dist_self])) (hop o1 m1 o2 m2))
  same := by
    intro x x' y y' hx hy
    rw [eq_of_dist_eq_zero hx, eq_of_dist_eq_zero hy]

/-- **C57, negation at a pole.** Seen from a pole all directions are 0, so a row there takes no part in the multipoles `n ≠ 0` as
point 1. -/
theorem multipole_pole_wrong (p : EuclideanSpace ℝ (Fin 3)) (hp : ‖p‖ = 1) : sphPhase (pt3 0 0 1) p = 0 := by
  have e := unit3 hp
  have hd : ‖p - pt3 0 0 1‖ ^ 2 = p 0 ^ 2 + p 1 ^ 2 + (p 2 - 1) ^ 2 := by
    rw [EuclideanSpace.norm_sq_eq, Fin.sum_univ_three]
    simp [Real.norm_eq_abs, sq_abs, pt3]
  have : sphDirection p (pt3 0 0 1) = 0 := by
    apply Complex.ext
    · simp [sphDirection, pt3]
    · simp only [sphDirection, Complex.zero_im]
      rw [hd, show pt3 0 0 1 2 = 1 from rfl]
      linarith
  simp [sphPhase, this]

/-- **C57, negation in space.** Two rows on the same line of sight from the observer are apart, but the direction from one to the
other is taken on the sky and is 0: such a triangle takes no part in the multipoles `n ≠ 0`. -/
theorem multipole_line_of_sight_wrong : dist (pt3 1 0 0) (pt3 2 0 0) = 1 ∧ threeDPhase (pt3 1 0 0) (pt3 2 0 0) = 0 := by
  have h2 : ‖pt3 2 0 0‖ = 2 := by
    rw [EuclideanSpace.norm_eq, Fin.sum_univ_three]; simp [pt3]
  have h1 : ‖pt3 1 0 0‖ = 1 := by
    rw [EuclideanSpace.norm_eq, Fin.sum_univ_three]; simp [pt3]
  have e2 : toSphere (pt3 2 0 0) = pt3 1 0 0 := by
    unfold toSphere
    rw [h2, if_neg (by norm_num)]
    ext i; fin_cases i <;> simp [pt3]
  have e1 : toSphere (pt3 1 0 0) = pt3 1 0 0 := by
    unfold toSphere
    rw [h1, if_neg (by norm_num)]
    simp
  constructor
  · rw [dist_pt3]; norm_num
  · unfold threeDPhase
    rw [e1, e2]
    have : sphDirection (pt3 1 0 0) (pt3 1 0 0) = 0 := by
      apply Complex.ext <;> simp [sphDirection, pt3]
    simp [sphPhase, this]

/-! ### Cases -/

/-- Three logarithmic bins from 1 to `e^3`, no slop. -/
def exMp : Params := { minsep := 1, maxsep := Real.exp 3, nbins := 3, binsize := 1, b := 0, a := 0 }

theorem exMp_ok : LogParams exMp := by
  constructor <;> norm_num [exMp]

theorem exMp_bin0 {d : ℝ} (h1 : 1 ≤ d) (h2 : d ≤ 2) : InLogBin exMp.minsep exMp.binsize exMp.nbins 0 d := inLog0 d h1 h2

theorem exMp_bin1 {d : ℝ} (h1 : 3 ≤ d) (h2 : d ≤ 6) : InLogBin exMp.minsep exMp.binsize exMp.nbins 1 d := by
  have h3 := Real.exp_one_lt_three
  have h4 : (7 : ℝ) < Real.exp 2 := by
    have := Real.exp_one_gt_d9
    have e : Real.exp 2 = Real.exp 1 * Real.exp 1 := by rw [← Real.exp_add]; norm_num
    rw [e]; nlinarith
  refine ⟨by norm_num, by norm_num [exMp], ?_, ?_⟩
  · simp [logEdge, exMp]; linarith
  · simp [logEdge, exMp]; norm_num; linarith

theorem exMp_not {d : ℝ} {j k : ℤ} (h : InLogBin exMp.minsep exMp.binsize exMp.nbins j d) (hjk : j ≠ k) :
    ¬ InLogBin exMp.minsep exMp.binsize exMp.nbins k d := fun h' => hjk (inLogBin_unique exMp_ok h h')

theorem flatPhase_x {x x' : ℝ} (y : ℝ) : flatPhase dist (pt x y) (pt x' y) = ((x' - x : ℝ) : ℂ) / (|x - x'| : ℝ) := by
  unfold flatPhase
  rw [dist_pt_x]
  congr 1
  apply Complex.ext <;> simp [cplx, pt]

/-- C57 applied to the rows 0, 2, 6 of a line: entry `[1,0]` gets the triangles seen from 0 (both others ahead) and from 2 (one on
either side), so `weight` is 2 for `n = 0` and `n = 2` and vanishes for `n = 1`. -/
example : ∃ out, multipoleAuto exMp 2 (flatPhase dist)
      (buildField (sortAlg _ 0) (euclidGeom 2) exFp [ob 0 0 0, ob 2 0 1, ob 6 0 2]).cells = some out ∧
    mpTotal MpVals.ntri out 1 0 = 2 ∧ mpTotal (fun v => v.weight 1) out 1 0 = 0 ∧ mpTotal (fun v => v.weight (-2)) out 1 0 = 2 := by
  have d1 : dist (pt 0 0) (pt 2 0) = 2 := by rw [dist_pt_x]; norm_num
  have d2 : dist (pt 0 0) (pt 6 0) = 6 := by rw [dist_pt_x]; norm_num
  have d3 : dist (pt 2 0) (pt 6 0) = 4 := by rw [dist_pt_x]; norm_num
  have d1' := d1; have d2' := d2; have d3' := d3
  rw [dist_comm] at d1' d2' d3'
  have a2 := exMp_bin0 (d := 2) (by norm_num) le_rfl
  have a4 := exMp_bin1 (d := 4) (by norm_num) (by norm_num)
  have a6 := exMp_bin1 (d := 6) (by norm_num) (by norm_num)
  have n2 := exMp_not a2 (k := 1) (by norm_num)
  have n4 := exMp_not a4 (k := 0) (by norm_num)
  have n6 := exMp_not a6 (k := 0) (by norm_num)
  have ha : Apart [ob 0 0 0, ob 2 0 1, ob 6 0 2] := by 
    have e1 : pt 0 0 ≠ pt 2 0 := dist_ne_zero.1 (by rw [d1]; norm_num)
    have e2 : pt 0 0 ≠ pt 6 0 := dist_ne_zero.1 (by rw [d2]; norm_num)
    have e3 : pt 2 0 ≠ pt 6 0 := dist_ne_zero.1 (by rw [d3]; norm_num)
    simp [Apart, e1, e2, e3]
  have hT : (orderedTriples [ob 0 0 0, ob 2 0 1, ob 6 0 2]).filter (InSides exMp 1 0) =
      {(ob 0 0 0, ob 2 0 1, ob 6 0 2), (ob 2 0 1, ob 0 0 0, ob 6 0 2)} := by
    simp [orderedTriples, autoTriples, autoPairs, orders6, Multiset.filter_add, Multiset.filter_cons, Multiset.filter_singleton, InSides, side2, side3, d1, d2,
      d3, d1', d2', d3', a2, a4, a6, n2, n4, n6]
  have f1 : flatPhase dist (pt 0 0) (pt 6 0) = 1 := by rw [flatPhase_x]; norm_num
  have f2 : flatPhase dist (pt 0 0) (pt 2 0) = 1 := by rw [flatPhase_x]; norm_num
  have f3 : flatPhase dist (pt 2 0) (pt 6 0) = 1 := by rw [flatPhase_x]; norm_num
  have f4 : flatPhase dist (pt 2 0) (pt 0 0) = -1 := by rw [flatPhase_x]; norm_num
  obtain ⟨out, e, h1, h2⟩ := multipole_auto_exact_partial exMp_ok (by norm_num [exMp]) (.inr rfl) 2 (flatPhase dist) (sortAlg _ 0)
    (euclidGeom 2) (euclidGeom_dominates 2) exFp rfl [ob 0 0 0, ob 2 0 1, ob 6 0 2]
  obtain ⟨h3, -⟩ := h2 ha
  have k0 : exMp.hasBin 0 := by norm_num [Params.hasBin, exMp]
  have k1 : exMp.hasBin 1 := by norm_num [Params.hasBin, exMp]
  refine ⟨out, e, ?_, ?_, ?_⟩
  · rw [h1 1 0 k1 k0, hT]; simp [brute3N]
  · rw [(h3 1 (by decide) (.inr ⟨rfl, flat_isPhase _ _⟩) 1 0 k1 k0).1, hT]
    simp [phaseW, f1, f2, f3, f4]
  · rw [(h3 (-2) (by decide) (.inr ⟨rfl, flat_isPhase _ _⟩) 1 0 k1 k0).1, hT]
    simp [phaseW, f1, f2, f3, f4]
    norm_num

theorem flatPhase_up {y y' : ℝ} (x : ℝ) (h : y < y') : flatPhase dist (pt x y) (pt x y') = Complex.I := by
  have hd : dist (pt x y) (pt x y') = y' - y := by
    rw [dist_pt, sub_self, show (0 : ℝ) ^ 2 + (y - y') ^ 2 = (y' - y) ^ 2 by ring, Real.sqrt_sq (by linarith)]
  unfold flatPhase
  rw [hd, div_eq_iff (by exact_mod_cast (sub_pos.2 h).ne')]
  apply Complex.ext <;> simp [cplx, pt]

/-- Three catalogues of one row each, in every order: point 1 at the origin, point 2 at (2,0), point 3 at (0,4), a right angle. -/
example : (∃ out, multipoleCross123 exMp 1 (flatPhase dist) .fixed
      (buildField (sortAlg _ 0) (euclidGeom 2) exFp [ob 0 0 0]).cells (buildField (sortAlg _ 0) (euclidGeom 2) exFp [ob 2 0 1]).cells
      (buildField (sortAlg _ 0) (euclidGeom 2) exFp [ob 0 4 2]).cells = some out ∧
      mpTotal (fun v => v.weight 1) out 1 0 = Complex.I ∧ mpTotal MpVals.ntri out 0 1 = 0) ∧
    (∃ out, multipoleCross123 exMp 1 (flatPhase dist) .first
      (buildField (sortAlg _ 0) (euclidGeom 2) exFp [ob 0 0 0]).cells (buildField (sortAlg _ 0) (euclidGeom 2) exFp [ob 2 0 1]).cells
      (buildField (sortAlg _ 0) (euclidGeom 2) exFp [ob 0 4 2]).cells = some out ∧
      mpTotal (fun v => v.weight 1) out 0 1 = -Complex.I ∧ mpTotal MpVals.ntri out 0 1 = 1) := by
  have d1 : dist (pt 0 0) (pt 2 0) = 2 := by rw [dist_pt_x]; norm_num
  have d2 : dist (pt 0 0) (pt 0 4) = 4 := by
    rw [dist_pt, show ((0 : ℝ) - 0) ^ 2 + (0 - 4) ^ 2 = 4 ^ 2 by norm_num, Real.sqrt_sq (by norm_num)]
  have a2 := exMp_bin0 (d := 2) (by norm_num) le_rfl
  have a4 := exMp_bin1 (d := 4) (by norm_num) (by norm_num)
  have n2 := exMp_not a2 (k := 1) (by norm_num)
  have n4 := exMp_not a4 (k := 0) (by norm_num)
  have f1 : flatPhase dist (pt 0 0) (pt 2 0) = 1 := by rw [flatPhase_x]; norm_num
  have f2 : flatPhase dist (pt 0 0) (pt 0 4) = Complex.I := flatPhase_up 0 (by norm_num)
  have k0 : exMp.hasBin 0 := by norm_num [Params.hasBin, exMp]
  have k1 : exMp.hasBin 1 := by norm_num [Params.hasBin, exMp]
  obtain ⟨out, e, h1, h2, -⟩ := multipole_cross123_exact_partial exMp_ok (by norm_num [exMp]) (.inr rfl) 1 (flatPhase dist)
    (sortAlg _ 0) (sortAlg _ 0) (sortAlg _ 0) (euclidGeom 2) (euclidGeom_dominates 2) exFp exFp exFp rfl rfl rfl [ob 0 0 0] [ob 2 0 1]
    [ob 0 4 2]
  obtain ⟨out', e', h1', h2', -⟩ := multipole_cross123_first_exact_partial exMp_ok (by norm_num [exMp]) (.inr rfl) 1 (flatPhase dist)
    (sortAlg _ 0) (sortAlg _ 0) (sortAlg _ 0) (euclidGeom 2) (euclidGeom_dominates 2) exFp exFp exFp rfl rfl rfl [ob 0 0 0] [ob 2 0 1]
    [ob 0 4 2]
  refine ⟨⟨out, e, ?_, ?_⟩, ⟨out', e', ?_, ?_⟩⟩
  · rw [(h2 1 le_rfl (.inr ⟨rfl, flat_isPhase _ _⟩) 1 0 k1 k0).1]
    simp [crossTriples, Multiset.filter_singleton, InSides, side2, side3, d1, d2, a2, a4, phaseW, f1, f2]
  · rw [h1 0 1 k0 k1]
    simp [crossTriples, Multiset.filter_singleton, InSides, side2, side3, d1, d2, n2, n4, brute3N]
  · rw [(h2' 1 le_rfl (.inr ⟨rfl, flat_isPhase _ _⟩) 0 1 k0 k1).1]
    simp [crossTriples, Multiset.filter_cons, Multiset.filter_singleton, InSides, side2, side3, d1, d2, a2, a4, n2, n4, phaseW, f1, f2]
  · rw [h1' 0 1 k0 k1]
    simp [crossTriples, Multiset.filter_cons, Multiset.filter_singleton, InSides, side2, side3, d1, d2, a2, a4, n2, n4, brute3N]

/-- The hypotheses of `sph_isPhase` for three rows of the equator. -/
example : IsPhase sphPhase [ob3 1 0 0 0] [ob3 0 1 0 1, ob3 0 (-1) 0 2] := by
  have n1 : ‖pt3 1 0 0‖ = 1 := by rw [norm_pt3]; norm_num
  have n2 : ‖pt3 0 1 0‖ = 1 := by rw [norm_pt3]; norm_num
  have n3 : ‖pt3 0 (-1) 0‖ = 1 := by rw [norm_pt3]; norm_num
  refine sph_isPhase ?_ ?_ ?_
  · intro o ho
    rw [List.mem_singleton.1 ho]
    exact ⟨n1, fun h => by simpa [ob3, pt3] using h.1⟩
  · intro o ho
    simp only [List.mem_cons, List.not_mem_nil, or_false] at ho
    rcases ho with rfl | rfl
    · exact n2
    · exact n3
  · intro o1 h1 o2 h2 e
    rw [List.mem_singleton.1 h1] at e
    simp only [List.mem_cons, List.not_mem_nil, or_false] at h2
    have := congrArg (fun p : EuclideanSpace ℝ (Fin 3) => p 0) e
    rcases h2 with rfl | rfl <;> simp [ob3, pt3] at this

/-! ### What the code gets wrong -/

theorem cells_pair : (buildField (sortAlg _ 0) (euclidGeom 2) exFp [ob 2 0 1, ob 2 0 2]).cells =
      [.leaf ⟨pt 2 0, 2, 2, 0⟩ [ob 2 0 1, ob 2 0 2]] := by
  have hm : (euclidGeom 2).mean [ob 2 0 1, ob 2 0 2] = pt 2 0 := by rw [mean_two]; norm_num
  have hq : calcSizeSq (euclidGeom 2) (pt 2 0) [ob 2 0 1, ob 2 0 2] = 0 := by
    have := sizeSq_two 2 2 0 0 1 2
    norm_num at this; exact this
  have ht : topCells (sortAlg _ 0) (euclidGeom 2) exFp.sm (exFp.maxsize * exFp.maxsize) exFp.mintop exFp.maxtop
      [ob 2 0 1, ob 2 0 2] = [[ob 2 0 1, ob 2 0 2]] := by
    rw [topCells, hm, hq, if_pos (Or.inr ⟨by norm_num [exFp], le_rfl⟩)]
  simp only [buildField, ht, List.map_cons, List.map_nil]
  have hd : cellData (euclidGeom 2) [ob 2 0 1, ob 2 0 2] = ⟨pt 2 0, 2, 2, 0⟩ := by
    simp only [cellData, hm]
    norm_num [ob]
  rw [buildCell, hd, if_neg (by rw [hq]; norm_num [exFp])]

/-- **C57, negation for rows at the same place.** Row 1 at 0, two more rows of weight 1 at 2.  There are two triangles in `[0,0]`, the
two others in either order, and `ntri` is 2; but the two rows share a leaf of the tree, whose whole squared weight is taken off as
if it were that of one row, and the total weight comes out 0. -/
theorem multipole_coincident_wrong : ∃ out, multipoleCross12 exMp 0 (flatPhase dist) true
      (buildField (sortAlg _ 0) (euclidGeom 2) exFp [ob 0 0 0]).cells
      (buildField (sortAlg _ 0) (euclidGeom 2) exFp [ob 2 0 1, ob 2 0 2]).cells = some out ∧
    mpTotal MpVals.ntri out 0 0 = 2 ∧ mpTotal (fun v => v.weight 0) out 0 0 = 0 ∧
    phaseW (flatPhase dist) 0 ((cross12Triples [ob 0 0 0] [ob 2 0 1, ob 2 0 2]).filter (InSides exMp 0 0)) = 2 := by
  have d1 : dist (pt 0 0) (pt 2 0) = 2 := by rw [dist_pt_x]; norm_num
  have hk := exMp_bin0 (d := 2) (by norm_num) le_rfl
  rw [cells_one, cells_pair]
  have b1 := one_bounded (ob 0 0 0) 1 1 0
  have b2 : (Cell.leaf (⟨pt 2 0, 2, 2, 0⟩ : CellData _) [ob 2 0 1, ob 2 0 2]).Bounded 0 := by
    intro o ho
    simp only [List.mem_cons, List.not_mem_nil, or_false] at ho
    rcases ho with rfl | rfl <;> simp
  have h := leaf_run exMp_ok (.inr rfl) (calculateGn (flatPhase dist) 0 true) (calculateZeta 0 exMp.nbins) Scratch.clear b1 b2
    (List.mem_singleton_self _) (List.mem_cons_self ..) (k := 0) (by rw [ob_pos, ob_pos, d1]; exact hk)
  have k0 : (0 : ℤ) < exMp.nbins := by norm_num [exMp]
  refine ⟨_, by simp only [multipoleCross12, if_true]; rw [show (ob 0 0 0).w = 1 from rfl, show (ob 0 0 0).wk = 0 from rfl, h], ?_, ?_, ?_⟩
  · rw [List.nil_append, total_calculateZeta _ _ k0 k0, if_pos ⟨by norm_num, by norm_num [exMp]⟩, mpVal_ntri]
    norm_num [calculateGn, addAt, Scratch.clear, Cell.n, Cell.data]
  · rw [List.nil_append, total_calculateZeta _ _ k0 k0, if_pos ⟨by norm_num, by norm_num [exMp]⟩, mpVal_weight _ _ _ _ (by norm_num)]
    norm_num [calculateGn, addAt, addPowers, both, Scratch.clear, Cell.w, Cell.data, Cell.sumWSq]
    rw [map_ofNat]; norm_num
  · have : (cross12Triples [ob 0 0 0] [ob 2 0 1, ob 2 0 2]).filter (InSides exMp 0 0) =
        {(ob 0 0 0, ob 2 0 1, ob 2 0 2), (ob 0 0 0, ob 2 0 2, ob 2 0 1)} := by
      rw [← from12_first_eq]
      simp [from12, Ord3.orders, autoPairs, orders2, Multiset.filter_add, Multiset.filter_cons, Multiset.filter_singleton, InSides, side2, side3, d1, hk]
    rw [this]
    simp [phaseW]
    norm_num

/-- **C57, negation for `meanlogd3`.** Points 1, 2, 3 at 0, 2, 4 of a line, `ordered=1`.  Entry `[1,0]` holds the triangle with
`d3 = 2`, `d2 = 4`: `meand3` is 2, but `meanlogd3` is 0 and not `log 2`, because the code multiplies by the weight of the other bin
(`/repo/src/Corr3.cpp:1480`). -/
theorem multipole_meanlogd3_wrong : ∃ out, multipoleCross123 exMp 0 (flatPhase dist) .first
      (buildField (sortAlg _ 0) (euclidGeom 2) exFp [ob 0 0 0]).cells (buildField (sortAlg _ 0) (euclidGeom 2) exFp [ob 2 0 1]).cells
      (buildField (sortAlg _ 0) (euclidGeom 2) exFp [ob 4 0 2]).cells = some out ∧
    mpTotal MpVals.meand3 out 1 0 = 2 ∧ mpTotal MpVals.meanlogd3 out 1 0 = 0 ∧
    brute3 (fun q => Real.log (side3 q)) ((crossTriples [ob 0 0 0] [ob 2 0 1] [ob 4 0 2] +
      crossTriples [ob 0 0 0] [ob 4 0 2] [ob 2 0 1]).filter (InSides exMp 1 0)) = Real.log 2 := by
  have d1 : dist (pt 0 0) (pt 2 0) = 2 := by rw [dist_pt_x]; norm_num
  have d2 : dist (pt 0 0) (pt 4 0) = 4 := by rw [dist_pt_x]; norm_num
  have a2 := exMp_bin0 (d := 2) (by norm_num) le_rfl
  have a4 := exMp_bin1 (d := 4) (by norm_num) (by norm_num)
  have n2 := exMp_not a2 (k := 1) (by norm_num)
  rw [cells_one, cells_one, cells_one]
  have h := leaf_run2 exMp_ok (.inr rfl) (calculateGn (flatPhase dist) 0 false) (calculateZeta2 0 exMp.nbins true) Scratch.clear
    (one_bounded (ob 0 0 0) 1 1 0) (one_bounded (ob 2 0 1) 1 1 0) (one_bounded (ob 4 0 2) 1 1 0) (List.mem_singleton_self _)
    (List.mem_singleton_self _) (List.mem_singleton_self _) (k := 0) (l := 1) (by rw [ob_pos, ob_pos, d1]; exact a2)
    (by rw [ob_pos, ob_pos, d2]; exact a4)
  have k0 : (0 : ℤ) < exMp.nbins := by norm_num [exMp]
  have k1 : (1 : ℤ) < exMp.nbins := by norm_num [exMp]
  refine ⟨_, h, ?_, ?_, ?_⟩
  · rw [total_calculateZeta2 _ _ _ k1 k0, if_pos ⟨by norm_num, by norm_num [exMp]⟩]
    norm_num [mpVal2, zetaOrd1, calculateGn, addAt, Scratch.clear, Cell.w, Cell.data, d1]
  · rw [total_calculateZeta2 _ _ _ k1 k0, if_pos ⟨by norm_num, by norm_num [exMp]⟩]
    norm_num [mpVal2, zetaOrd1, calculateGn, addAt, Scratch.clear, Cell.w, Cell.data]
  · have : (crossTriples [ob 0 0 0] [ob 2 0 1] [ob 4 0 2] + crossTriples [ob 0 0 0] [ob 4 0 2] [ob 2 0 1]).filter (InSides exMp 1 0) =
        {(ob 0 0 0, ob 2 0 1, ob 4 0 2)} := by
      simp [crossTriples, Multiset.filter_add, Multiset.filter_cons, Multiset.filter_singleton, InSides, side2, side3, d1, d2, a2, a4, n2]
    rw [this]
    simp [brute3, side3, d1]

theorem phaseW_single {P : Type} {ph : P → P → ℂ} {o1 o2 o3 : Obj P} (h1 : o1.w = 1) (h2 : o2.w = 1) (h3 : o3.w = 1)
    (u1 : Complex.normSq (ph o1.pos o2.pos) = 1) (u2 : Complex.normSq (ph o1.pos o3.pos) = 1) :
    Complex.normSq (phaseW ph 1 {(o1, o2, o3)}) = 1 := by
  simp only [phaseW, Multiset.map_singleton, Multiset.sum_singleton, zpow_one]
  rw [map_mul, map_div₀, u1, u2, h1, h2, h3]
  simp

/-- A square with periods 10. -/
def exPer : Fin 2 → ℝ := fun _ => 10

theorem exPer_dist (x y : ℝ) (hx : |x| ≤ 10) (hy : |y| ≤ 10) :
    perDist exPer (pt 0 0) (pt x y) = Real.sqrt (min |x| (10 - |x|) ^ 2 + min |y| (10 - |y|) ^ 2) := by
  rw [(perDist_eq (L := exPer) (fun _ => by norm_num [exPer]) _ _).1, Fin.sum_univ_two]
  have w1 := wrap_formula (L := 10) (x1 := 0) (x2 := x) (by norm_num) (by simpa using hx)
  have w2 := wrap_formula (L := 10) (x1 := 0) (x2 := y) (by norm_num) (by simpa using hy)
  rw [sub_zero] at w1 w2
  rw [← w1, ← w2, sq_abs, sq_abs]
  rfl

/-- **C57, negation for the `Periodic` metric.** Period 10, points 1, 2, 3 at (0,0), (9,0), (0,1).  Both sides have length 1, but the
direction to point 2 is taken as the unwrapped difference 9 divided by the wrapped distance 1: the multipole `n = 1` of the weight of
this one triangle is `9i`, although any direction gives it modulus 1. -/
theorem multipole_periodic_wrong : ∃ out, multipoleCross123 (P := PerSpace exPer) exMp 1 (flatPhase (perDist exPer)) .fixed
      (buildField (sortAlg _ 0) (euclidGeom 2) exFp [ob 0 0 0]).cells (buildField (sortAlg _ 0) (euclidGeom 2) exFp [ob 9 0 1]).cells
      (buildField (sortAlg _ 0) (euclidGeom 2) exFp [ob 0 1 2]).cells = some out ∧
    mpTotal MpVals.ntri out 0 0 = 1 ∧ mpTotal (fun v => v.weight 0) out 0 0 = 1 ∧
    mpTotal (fun v => v.weight 1) out 0 0 = 9 * Complex.I ∧
    ∀ ph : PerSpace exPer → PerSpace exPer → ℂ, IsPhase (P := PerSpace exPer) ph [ob 0 0 0] [ob 9 0 1, ob 0 1 2] →
      Complex.normSq (phaseW ph 1 {(ob 0 0 0, ob 9 0 1, ob 0 1 2)}) = 1 := by
  have d1 : perDist exPer (pt 0 0) (pt 9 0) = 1 := by rw [exPer_dist _ _ (by norm_num) (by norm_num)]; norm_num
  have d2 : perDist exPer (pt 0 0) (pt 0 1) = 1 := by rw [exPer_dist _ _ (by norm_num) (by norm_num)]; norm_num
  have d1' : dist (α := PerSpace exPer) (pt 0 0) (pt 9 0) = 1 := d1
  have d2' : dist (α := PerSpace exPer) (pt 0 0) (pt 0 1) = 1 := d2
  have a1 := exMp_bin0 (d := 1) le_rfl (by norm_num)
  rw [cells_one, cells_one, cells_one]
  have h := leaf_run2 (P := PerSpace exPer) exMp_ok (.inr rfl) (calculateGn (flatPhase (perDist exPer)) 1 false)
    (calculateZeta2 1 exMp.nbins false) Scratch.clear
    (one_bounded (P := PerSpace exPer) (ob 0 0 0) 1 1 0) (one_bounded (P := PerSpace exPer) (ob 9 0 1) 1 1 0)
    (one_bounded (P := PerSpace exPer) (ob 0 1 2) 1 1 0) (List.mem_singleton_self _)
    (List.mem_singleton_self _) (List.mem_singleton_self _) (k := 0) (l := 0) (d1.symm ▸ a1 : InLogBin _ _ _ _ (perDist exPer (pt 0 0) (pt 9 0)))
    (d2.symm ▸ a1 : InLogBin _ _ _ _ (perDist exPer (pt 0 0) (pt 0 1)))
  have k0 : (0 : ℤ) < exMp.nbins := by norm_num [exMp]
  have p1 : flatPhase (perDist exPer) (pt 0 0) (pt 9 0) = 9 := by
    unfold flatPhase; rw [d1]; apply Complex.ext <;> simp [cplx, pt]
  have p2 : flatPhase (perDist exPer) (pt 0 0) (pt 0 1) = Complex.I := by
    unfold flatPhase; rw [d2]; apply Complex.ext <;> simp [cplx, pt]
  refine ⟨_, h, ?_, ?_, ?_, ?_⟩
  · rw [total_calculateZeta2 _ _ _ k0 k0, if_pos ⟨by norm_num, by norm_num [exMp]⟩]
    norm_num [mpVal2, zetaOrd3, calculateGn, addAt, Scratch.clear, Cell.n, Cell.data]
  · rw [total_calculateZeta2 _ _ _ k0 k0, if_pos ⟨by norm_num, by norm_num [exMp]⟩]
    norm_num [mpVal2, zetaOrd3, calculateGn, addAt, addPowers, spread, Scratch.clear, Cell.w, Cell.data]
  · rw [total_calculateZeta2 _ _ _ k0 k0, if_pos ⟨by norm_num, by norm_num [exMp]⟩]
    norm_num [mpVal2, zetaOrd3, calculateGn, addAt, addPowers, spread, Scratch.clear, Cell.w, Cell.data, Cell.pos, p1, p2]
    rw [map_ofNat]; ring
  · intro ph hph
    have u1 := hph.unit _ (List.mem_singleton_self _) _ (List.mem_cons_self ..) (fun h => one_ne_zero (d1.symm.trans h))
    have u2 := hph.unit _ (List.mem_singleton_self _) _ (List.mem_cons_of_mem _ (List.mem_cons_self ..))
      (fun h => one_ne_zero (d2.symm.trans h))
    exact phaseW_single rfl rfl rfl u1 u2

end
end TreeCorr
