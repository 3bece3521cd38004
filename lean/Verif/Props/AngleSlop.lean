import Mathlib.Geometry.Euclidean.Angle.Unoriented.Basic
import Mathlib.Analysis.SpecialFunctions.Trigonometric.Inverse
import Mathlib.Analysis.SpecialFunctions.Trigonometric.Bounds
import Verif.Proofs.SlopWitness
import Verif.Proofs.Loops
import Verif.Props.Slop

/-!
C48: `angle_slop`.  The documentation (corr2base.py:142-146): "The projection angle for any two objects in a pair of cells will differ by no
more than angle_slop radians from the projection angle defined by the centers of the cells."
-/

namespace TreeCorr
open Classical
noncomputable section
variable {P : Type}

/-- The angular test that every `singleBin` starts with. -/
def AngleTest (B : BinHelper P) : Prop :=
  ∀ rsq s p1 p2 prm o, B.singleBin rsq s p1 p2 prm = some o → 0 ≤ rsq → s ^ 2 ≤ prm.a ^ 2 * rsq

theorem log_angleTest : AngleTest (logBin P) := by
  intro rsq s p1 p2 prm o h hr
  simp only [logBin, logSingleBin] at h
  split at h
  · rename_i h0
    rw [h0]
    nlinarith [mul_nonneg (sq_nonneg prm.a) hr]
  · split at h
    · cases h
    · rename_i h1
      nlinarith

theorem linear_angleTest : AngleTest (linearBin P) := by
  intro rsq s p1 p2 prm o h hr
  simp only [linearBin, linearSingleBin] at h
  split at h
  · cases h
  · rename_i h1
    linarith

theorem twoD_angleTest : AngleTest twoDBin := by
  intro rsq s p1 p2 prm o h hr
  simp only [twoDBin, twoDSingleBin] at h
  split at h
  · cases h
  · rename_i h1
    linarith

theorem bounded_dist [PseudoMetricSpace P] {c : Cell P} (h : c.Bounded 0) {o : Obj P} (ho : o ∈ c.objs) : dist o.pos c.pos ≤ c.size := by
  cases c with
  | leaf d os => exact h o ho
  | node d s l r => exact h.2.1 o ho

theorem bounded_size [PseudoMetricSpace P] {δ : ℝ} {c : Cell P} (h : c.Bounded δ) : 0 ≤ c.size := by
  cases c with
  | leaf d os => exact le_rfl
  | node d s l r => exact h.1.le

theorem direct_angle [PseudoMetricSpace P] {B : BinHelper P} (hB : AngleTest B) {prm : Params} (ha : 0 ≤ prm.a) {R : Bool} {c1 c2 : Cell P}
    (h1 : c1.Bounded 0) (h2 : c2.Bounded 0) {e : Emit P} (h : decide11 B (plainMetric P) prm R c1 c2 = .direct e) :
    e.c1 = c1 ∧ e.c2 = c2 ∧ ∀ o1 ∈ c1.objs, ∀ o2 ∈ c2.objs, dist o1.pos c1.pos + dist o2.pos c2.pos ≤ prm.a * dist c1.pos c2.pos := by
  rw [decide11_plain] at h
  split at h
  · cases h
  split at h
  · cases h
  split at h
  · cases h
  split at h
  · rename_i o hs
    split at h
    · cases h
      refine ⟨rfl, rfl, fun o1 m1 o2 m2 => ?_⟩
      have hq := hB _ _ _ _ _ _ hs (sq_nonneg _)
      have e1 := bounded_dist h1 m1
      have e2 := bounded_dist h2 m2
      have : c1.size + c2.size ≤ prm.a * dist c1.pos c2.pos := by
        refine abs_le_of_sq_le_sq' ?_ (mul_nonneg ha dist_nonneg) |>.2
        nlinarith
      linarith
    · cases h
  · cases h

/-- **C48.** Cross-correlation, any bin type, `min_size = 0`: whenever two cells are taken as a whole, the objects of the two are together no further
from the centres of the cells than `angle_slop` times the separation of the centres. -/
theorem cross_angle_slop [PseudoMetricSpace P] (A1 A2 : StdAlg P) (g : Geom P) (hg : g.Dominates) (fp1 fp2 : FieldParams)
    (hf1 : fp1.minsize = 0) (hf2 : fp2.minsize = 0) {B : BinHelper P} (hB : AngleTest B) (p : Params) (ha : 0 ≤ p.a)
    (l1 l2 : List (Obj P)) (es : List (Emit P))
    (h : processCross B (plainMetric P) p (buildField A1 g fp1 l1) (buildField A2 g fp2 l2) = some es) :
    ∀ e ∈ es, ∀ o1 ∈ e.c1.objs, ∀ o2 ∈ e.c2.objs, dist o1.pos e.c1.pos + dist o2.pos e.c2.pos ≤ p.a * dist e.c1.pos e.c2.pos := by
  unfold processCross at h
  split at h
  · cases h; simp
  obtain ⟨D, -, he, -⟩ := crossLoop_covers _ (decide11_honest _ _ _ _) (Cell.Bounded 0) (Cell.Bounded 0) (hered_bounded 0)
    (hered_bounded 0) _ _ (fun c hc => hf1 ▸ (buildField_bounded A1 g hg fp1 hf1.ge l1 c hc).1)
    (fun c hc => hf2 ▸ (buildField_bounded A2 g hg fp2 hf2.ge l2 c hc).1) es h
  intro e hmem
  obtain ⟨a, b, qa, qb, hab⟩ := he e hmem
  obtain ⟨e1, e2, hx⟩ := direct_angle hB ha qa qb hab
  rw [e1, e2]
  exact hx

/-- **C48.** The same for auto-correlations. -/
theorem auto_angle_slop [PseudoMetricSpace P] (A : StdAlg P) (g : Geom P) (hg : g.Dominates) (fp : FieldParams)
    (hf : fp.minsize = 0) {B : BinHelper P} (hB : AngleTest B) (p : Params) (ha : 0 ≤ p.a) (R : Bool)
    (l : List (Obj P)) (es : List (Emit P))
    (h : processAuto (decide11 B (plainMetric P) p R) p (buildField A g fp l).cells = some es) :
    ∀ e ∈ es, ∀ o1 ∈ e.c1.objs, ∀ o2 ∈ e.c2.objs, dist o1.pos e.c1.pos + dist o2.pos e.c2.pos ≤ p.a * dist e.c1.pos e.c2.pos := by
  obtain ⟨D, D2, -, he, -, -⟩ := processAuto_covers _ (decide11_honest _ _ _ _) p (Cell.Bounded 0) (hered_bounded 0)
    _ (fun c hc => hf ▸ (buildField_bounded A g hg fp hf.ge l c hc).1) es h
  intro e hmem
  obtain ⟨a, b, qa, qb, hab⟩ := he e hmem
  obtain ⟨e1, e2, hx⟩ := direct_angle hB ha qa qb hab
  rw [e1, e2]
  exact hx

/-! ### The angle -/

theorem angle_le_arcsin {E : Type} [NormedAddCommGroup E] [InnerProductSpace ℝ E] {u v : E} {a : ℝ} (ha : 0 ≤ a) (ha1 : a ≤ 1) (hv : v ≠ 0)
    (h : ‖u - v‖ ≤ a * ‖v‖) : InnerProductGeometry.angle u v ≤ Real.arcsin a := by
  rw [Real.arcsin_eq_arccos ha, InnerProductGeometry.angle]
  apply Real.arccos_le_arccos
  have hv0 : 0 < ‖v‖ := norm_pos_iff.2 hv
  by_cases hu : u = 0
  · subst hu
    have : 1 ≤ a := by
      rw [zero_sub, norm_neg] at h
      by_contra hc
      nlinarith
    have : a = 1 := le_antisymm ha1 this
    subst this
    simp
  have hu0 : 0 < ‖u‖ := norm_pos_iff.2 hu
  rw [le_div_iff₀ (by positivity)]
  have h2 : ‖u - v‖ ^ 2 ≤ (a * ‖v‖) ^ 2 := pow_le_pow_left₀ (norm_nonneg _) h 2
  rw [norm_sub_sq_real] at h2
  set q := Real.sqrt (1 - a ^ 2) with hq
  have hq2 : q ^ 2 = 1 - a ^ 2 := Real.sq_sqrt (by nlinarith)
  have : 0 ≤ (‖u‖ - q * ‖v‖) ^ 2 := sq_nonneg _
  nlinarith

/-- **C48, partial**: the line between two objects and the line between the centres of their cells make an angle of at most `arcsin angle_slop`.
The documentation says `angle_slop`; see `angle_slop_exceeded`. -/
theorem cross_angle_partial {d : ℕ} (A1 A2 : StdAlg (EuclideanSpace ℝ (Fin d))) (fp1 fp2 : FieldParams)
    (hf1 : fp1.minsize = 0) (hf2 : fp2.minsize = 0) {B : BinHelper (EuclideanSpace ℝ (Fin d))} (hB : AngleTest B) (p : Params) (ha : 0 ≤ p.a) (ha1 : p.a ≤ 1)
    (l1 l2 : List (Obj (EuclideanSpace ℝ (Fin d)))) (es : List (Emit _))
    (h : processCross B (plainMetric _) p (buildField A1 (euclidGeom d) fp1 l1) (buildField A2 (euclidGeom d) fp2 l2) = some es) :
    ∀ e ∈ es, e.c1.pos ≠ e.c2.pos → ∀ o1 ∈ e.c1.objs, ∀ o2 ∈ e.c2.objs,
      InnerProductGeometry.angle (o2.pos - o1.pos) (e.c2.pos - e.c1.pos) ≤ Real.arcsin p.a := by
  intro e he hne o1 h1 o2 h2
  have := cross_angle_slop A1 A2 (euclidGeom d) (euclidGeom_dominates d) fp1 fp2 hf1 hf2 hB p ha l1 l2 es h e he o1 h1 o2 h2
  refine angle_le_arcsin ha ha1 (sub_ne_zero.2 hne.symm) ?_
  calc ‖o2.pos - o1.pos - (e.c2.pos - e.c1.pos)‖ = ‖(o2.pos - e.c2.pos) - (o1.pos - e.c1.pos)‖ := by congr 1; abel
    _ ≤ ‖o2.pos - e.c2.pos‖ + ‖o1.pos - e.c1.pos‖ := norm_sub_le _ _
    _ ≤ p.a * ‖e.c2.pos - e.c1.pos‖ := by
      rw [← dist_eq_norm, ← dist_eq_norm, ← dist_eq_norm, dist_comm e.c2.pos e.c1.pos]
      linarith

/-! ### The documented bound is exceeded -/

/-- `bin_size = 1`, `bin_slop = angle_slop = 0.6`. -/
def exAngle : Params := { minsep := 10, maxsep := 10 * Real.exp 3, nbins := 3, binsize := 1, b := 3 / 5, a := 3 / 5 }

/-- **C48 fails as documented**: with `angle_slop = 0.6`, objects are taken together whose direction differs from that of the centres of their
cells by more than 0.6 radians: the test compares the sine of the angle with `angle_slop`. -/
theorem angle_slop_exceeded : ∃ (l1 l2 : List (Obj (EuclideanSpace ℝ (Fin 2)))) (es : List (Emit _)),
    processCross (logBin _) (plainMetric _) exAngle (buildField (sortAlg _ 0) (euclidGeom 2) exFp l1)
      (buildField (sortAlg _ 0) (euclidGeom 2) exFp l2) = some es ∧
    ∃ e ∈ es, ∃ o1 ∈ e.c1.objs, ∃ o2 ∈ e.c2.objs,
      exAngle.a < InnerProductGeometry.angle (o2.pos - o1.pos) (e.c2.pos - e.c1.pos) := by
  obtain ⟨cl, cr, hpm, _, _, _, _, hf⟩ := field_two (sortAlg _ 0) exFp 16 34 12 (-12) 0 1
    (by norm_num [exFp]) (by norm_num [exFp]) (by norm_num [exFp])
  have hs : Real.sqrt (((34 - 16) / 2) ^ 2 + ((-12 - 12) / 2) ^ 2) = 15 := by
    rw [show (((34 - 16) / 2) ^ 2 + ((-12 - 12) / 2) ^ 2 : ℝ) = 15 ^ 2 by norm_num, Real.sqrt_sq (by norm_num)]
  have hps : pt ((16 + 34) / 2) ((12 + -12) / 2) = pt 25 0 := by norm_num
  rw [hs, hps] at hf
  have dd : dist (pt 0 0) (pt 25 0) = 25 := by rw [dist_pt_x]; norm_num
  set c1 : Cell (EuclideanSpace ℝ (Fin 2)) := .leaf ⟨pt 0 0, 1, 1, 0⟩ [ob 0 0 0] with hc1
  set c2 : Cell (EuclideanSpace ℝ (Fin 2)) := .node ⟨pt 25 0, 2, 2, 0⟩ 15 cl cr with hc2
  have h8 := exp_three_gt
  have hact : decide11 (logBin _) (plainMetric _) exAngle false c1 c2 = .direct (directProcess11 (logBin _) exAngle false c1 c2 (25 ^ 2) {}) := by
    have p1 : c1.pos = pt 0 0 := rfl
    have p2 : c2.pos = pt 25 0 := rfl
    have w1 : c1.w = 1 := rfl
    have w2 : c2.w = 2 := rfl
    have s1 : c1.size + c2.size = 15 := by
      change (0 : ℝ) + 15 = 15
      norm_num
    rw [decide11_plain, p1, p2, dd, w1, w2, s1]
    have t3 : (logBin (EuclideanSpace ℝ (Fin 2))).singleBin (25 ^ 2) 15 (pt 0 0) (pt 25 0) exAngle = some {} := by
      norm_num [logBin, logSingleBin, exAngle]
    rw [if_neg (by norm_num), if_neg, if_neg, t3]
    · simp only
      rw [if_pos]
      refine ⟨by norm_num [exAngle], ?_⟩
      simp only [exAngle]
      nlinarith
    · rintro ⟨h, -⟩
      simp only [exAngle] at h
      nlinarith
    · rintro ⟨h, -⟩
      norm_num [exAngle] at h
  refine ⟨[ob 0 0 0], [ob 16 12 0, ob 34 (-12) 1], [directProcess11 (logBin _) exAngle false c1 c2 (25 ^ 2) {}], ?_, _,
    List.mem_singleton_self _, ob 0 0 0, ?_, ob 16 12 0, ?_, ?_⟩
  · rw [hf, field_one, processCross, if_neg]
    · have h11 := process11_direct hact
      simp [processCrossLoop, processCrossRow, ← hc1, h11]
    · simp only [fieldsTooFar, plainMetric, dd]
      rintro (h | h | h)
      · exact h
      · have := h.1.1
        norm_num [exAngle] at this
      · have := h.1.1
        simp only [exAngle] at this
        nlinarith
  · exact List.mem_singleton_self _
  · change _ ∈ cl.objs ++ cr.objs
    exact hpm.mem_iff.2 (by simp)
  · change (3 / 5 : ℝ) < InnerProductGeometry.angle (pt 16 12 - pt 0 0) (pt 25 0 - pt 0 0)
    have e1 : pt 16 12 - pt 0 0 = pt 16 12 := by
      ext k; fin_cases k <;> simp [pt]
    have e2 : pt 25 0 - pt 0 0 = pt 25 0 := by
      ext k; fin_cases k <;> simp [pt]
    have n1 : ‖pt 16 12‖ = 20 := by
      rw [EuclideanSpace.norm_eq]
      simp only [pt, Fin.sum_univ_two, Real.norm_eq_abs, sq_abs]
      rw [show (!₂[(16:ℝ), 12] 0 ^ 2 + !₂[(16:ℝ), 12] 1 ^ 2 : ℝ) = 20 ^ 2 by norm_num, Real.sqrt_sq (by norm_num)]
    have n2 : ‖pt 25 0‖ = 25 := by
      rw [EuclideanSpace.norm_eq]
      simp only [pt, Fin.sum_univ_two, Real.norm_eq_abs, sq_abs]
      rw [show (!₂[(25:ℝ), 0] 0 ^ 2 + !₂[(25:ℝ), 0] 1 ^ 2 : ℝ) = 25 ^ 2 by norm_num, Real.sqrt_sq (by norm_num)]
    have i1 : inner ℝ (pt 16 12) (pt 25 0) = 400 := by
      simp [pt, PiLp.inner_apply, Fin.sum_univ_two]
      norm_num
    rw [e1, e2, InnerProductGeometry.angle, n1, n2, i1]
    have hc : (400 / (20 * 25) : ℝ) < Real.cos (3 / 5) := by
      have := Real.one_sub_sq_div_two_le_cos (x := 3 / 5)
      norm_num at this ⊢
      linarith
    calc (3 / 5 : ℝ) = Real.arccos (Real.cos (3 / 5)) := (Real.arccos_cos (by norm_num) (by linarith [Real.two_le_pi])).symm
      _ < Real.arccos (400 / (20 * 25)) := Real.arccos_lt_arccos (by norm_num) hc (Real.cos_le_one _)

example (l1 l2 : List (Obj (EuclideanSpace ℝ (Fin 2)))) :=
  cross_angle_partial (sortAlg _ 0) (sortAlg _ 0) exFp exFp rfl rfl (log_angleTest) exAngle (by norm_num [exAngle]) (by norm_num [exAngle]) l1 l2

end
end TreeCorr
