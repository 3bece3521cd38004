import Verif.Proofs.Spin
import Verif.Props.LogCounts

/-!
C49: correlations of spin fields (NG, NV, NT, NQ, KG, ..., GG, VV, TT, QQ) with flat coordinates.  `z o` is `w*g` of a row, 0 where `w = 0`.
-/

namespace TreeCorr
open Classical ComplexConjugate
noncomputable section

/-- `w*g` vanishes with `w`. -/
def SpinValid (l : List (Obj Plane)) (z : Obj Plane → ℂ) : Prop := ∀ o ∈ l, o.w = 0 → z o = 0

/-! ### One pair -/

/-- **C49.** The shear of a point in a tangential pattern of strength `γ` around `p1` (`g = -γ exp(2iφ)`, `φ` the polar angle seen from
`p1`) enters `NG` and `KG` as `γ`. -/
theorem tangential_shear (γ : ℝ) (p1 p2 : Plane) (h : p1 ≠ p2) :
    spinSign .G * (-(γ : ℂ) * Complex.exp (2 * lineAngle p1 p2 * Complex.I) * flatFactor .G p1 p2) = γ := by
  rw [flatFactor_turn .G (dist_pos.2 h), turn, spinSign, if_pos rfl, mul_assoc (-(γ : ℂ)), ← Complex.exp_add]
  have : 2 * (lineAngle p1 p2 : ℂ) * Complex.I + -(((Spin.s .G : ℕ) : ℂ) * lineAngle p1 p2) * Complex.I = 0 := by
    simp only [Spin.s]; push_cast; ring
  rw [this, Complex.exp_zero]
  ring

/-- The point `p` turned by the angle `θ` about the origin. -/
def rotate (θ : ℝ) (p : Plane) : Plane := !₂[Real.cos θ * p 0 - Real.sin θ * p 1, Real.sin θ * p 0 + Real.cos θ * p 1]

theorem cplx_rotate (θ : ℝ) (p : Plane) : cplx (rotate θ p) = Complex.exp (θ * Complex.I) * cplx p := by
  rw [Complex.exp_mul_I, ← Complex.ofReal_cos, ← Complex.ofReal_sin]
  apply Complex.ext
  · simp only [cplx, rotate, Complex.mul_re, Complex.add_re, Complex.add_im, Complex.ofReal_re, Complex.ofReal_im, Complex.mul_im,
      Complex.I_re, Complex.I_im]
    simp
  · simp only [cplx, rotate, Complex.mul_re, Complex.add_re, Complex.add_im, Complex.ofReal_re, Complex.ofReal_im, Complex.mul_im,
      Complex.I_re, Complex.I_im]
    simp
    ring

/-- **C49.** Turning the sky by `θ`, which multiplies spin-`s` values by `exp(isθ)`, leaves the projected value of every pair unchanged. -/
theorem flat_rotation (D : Spin) (θ : ℝ) (p1 p2 : Plane) (z : ℂ) :
    z * Complex.exp (D.s * θ * Complex.I) * flatFactor D (rotate θ p1) (rotate θ p2) = z * flatFactor D p1 p2 := by
  have h1 : cplx (rotate θ p2) - cplx (rotate θ p1) = Complex.exp (θ * Complex.I) * (cplx p2 - cplx p1) := by
    rw [cplx_rotate, cplx_rotate]; ring
  have h2 : dirOf (Complex.exp (θ * Complex.I) * (cplx p2 - cplx p1)) = Complex.exp (θ * Complex.I) * dirOf (cplx p2 - cplx p1) := by
    rw [dirOf, dirOf, norm_mul, Complex.norm_exp_ofReal_mul_I, one_mul, mul_div_assoc]
  have h3 : Complex.exp (D.s * θ * Complex.I) * conj (Complex.exp (θ * Complex.I)) ^ D.s = 1 := by
    rw [← Complex.exp_conj, ← Complex.exp_nat_mul, ← Complex.exp_add, ← Complex.exp_zero]
    congr 1
    simp only [map_mul, Complex.conj_ofReal, Complex.conj_I]
    ring
  rw [flatFactor, flatFactor, expm_eq, expm_eq, h1, h2, map_mul, mul_pow]
  linear_combination z * conj (dirOf (cplx p2 - cplx p1)) ^ D.s * h3

/-- **C49.** Moving the sky changes nothing. -/
theorem flat_translation (D : Spin) (v p1 p2 : Plane) : flatFactor D (p1 + v) (p2 + v) = flatFactor D p1 p2 := by
  have : cplx (p2 + v) - cplx (p1 + v) = cplx p2 - cplx p1 := by
    apply Complex.ext <;> simp [cplx]
  rw [flatFactor, flatFactor, this]

/-! ### Any slop: the pairs that were counted -/

/-- **C49.** Cross-correlation with any slop: `xi` of a count or scalar field with a spin field is, up to `2 s angle_slop` times the sum of
`|w1 z2|`, the sum of the projected values of the pairs counted in the bin.  `ac`, `ao` are the weight (`NG`) or the weighted value (`KG`). -/
theorem cross_radial_counted (D : Spin) (A1 A2 : StdAlg Plane) (fp1 fp2 : FieldParams) (hf1 : fp1.minsize = 0) (hf2 : fp2.minsize = 0)
    {B : BinHelper Plane} (hB : AngleTest B) (p : Params) (ha : 0 ≤ p.a) (hm : ApartTest B p) (l1 l2 : List (Obj Plane))
    (es : List (Emit Plane)) (z : Obj Plane → ℂ)
    (h : processCross B (plainMetric _) p (buildField A1 (euclidGeom 2) fp1 l1) (buildField A2 (euclidGeom 2) fp2 l2) = some es) (k : ℤ) :
    ‖(es.foldl (processNZ D Cell.w (simpleSum z) (flatFactor D)) (fun _ => 0)) k - spinSign D * bruteRadial D.s Obj.w z (pairsAt es k)‖
      ≤ 2 * D.s * p.a * bruteAbs Obj.w z (pairsAt es k) ∧
    ‖(es.foldl (processNZ D Cell.wk (simpleSum z) (flatFactor D)) (fun _ => 0)) k - spinSign D * bruteRadial D.s Obj.wk z (pairsAt es k)‖
      ≤ 2 * D.s * p.a * bruteAbs Obj.wk z (pairsAt es k) := by
  have hc := cross_spinCalls A1 A2 fp1 fp2 hf1 hf2 hB p ha hm l1 l2 es h
  exact ⟨radial_counted D ha hc k (fun e he => (hc e he).2.sums.1.w_eq) z, radial_counted D ha hc k (fun e he => (hc e he).2.sums.1.wk_eq) z⟩

/-- **C49.** Cross-correlation of two spin fields with any slop: `xip` is exactly the sum over the pairs counted in the bin, `xim` up to
`4 s angle_slop` times the sum of `|z1 z2|`. -/
theorem cross_zz_counted (D : Spin) (A1 A2 : StdAlg Plane) (fp1 fp2 : FieldParams) (hf1 : fp1.minsize = 0) (hf2 : fp2.minsize = 0)
    {B : BinHelper Plane} (hB : AngleTest B) (p : Params) (ha : 0 ≤ p.a) (hm : ApartTest B p) (l1 l2 : List (Obj Plane))
    (es : List (Emit Plane)) (z1 z2 : Obj Plane → ℂ)
    (h : processCross B (plainMetric _) p (buildField A1 (euclidGeom 2) fp1 l1) (buildField A2 (euclidGeom 2) fp2 l2) = some es) (k : ℤ) :
    (es.foldl (processZZ (simpleSum z1) (simpleSum z2) (flatFactor D) (flatFactor D)) SpinAcc.zero).xip k
      = bruteXip D.s z1 z2 (pairsAt es k) ∧
    ‖(es.foldl (processZZ (simpleSum z1) (simpleSum z2) (flatFactor D) (flatFactor D)) SpinAcc.zero).xim k
      - bruteXim D.s z1 z2 (pairsAt es k)‖ ≤ 4 * D.s * p.a * bruteAbs2 z1 z2 (pairsAt es k) :=
  spin_counted D ha (cross_spinCalls A1 A2 fp1 fp2 hf1 hf2 hB p ha hm l1 l2 es h) k z1 z2

/-! ### Without slop: the pairs of the bin -/

/-- **C49.** Cross-correlation of counts or scalars with a spin field, Log bins, `bin_slop = 0`: up to `2 s angle_slop` times the sum of
`|w1 z2|`, `xi` is the brute-force sum over the pairs of rows whose separation lies in the bin. -/
theorem cross_radial_log (D : Spin) (A1 A2 : StdAlg Plane) (fp1 fp2 : FieldParams) (hf1 : fp1.minsize = 0) (hf2 : fp2.minsize = 0)
    {p : Params} (hp : LogParams p) (hb : p.b = 0) (l1 l2 : List (Obj Plane)) (hw1 : ∀ o ∈ l1, o.Valid) (hw2 : ∀ o ∈ l2, o.Valid)
    (z : Obj Plane → ℂ) (hz : SpinValid l2 z) :
    ∃ es, processCross (logBin _) (plainMetric _) p (buildField A1 (euclidGeom 2) fp1 l1) (buildField A2 (euclidGeom 2) fp2 l2) = some es ∧
      ∀ k, let prs := pairsIn (crossPairs l1 l2) (InLogBin p.minsep p.binsize p.nbins k)
        ‖(es.foldl (processNZ D Cell.w (simpleSum z) (flatFactor D)) (fun _ => 0)) k - spinSign D * bruteRadial D.s Obj.w z prs‖
          ≤ 2 * D.s * p.a * bruteAbs Obj.w z prs ∧
        ‖(es.foldl (processNZ D Cell.wk (simpleSum z) (flatFactor D)) (fun _ => 0)) k - spinSign D * bruteRadial D.s Obj.wk z prs‖
          ≤ 2 * D.s * p.a * bruteAbs Obj.wk z prs := by
  obtain ⟨es, hes, hk⟩ := cross_pairs_of A1 A2 (euclidGeom 2) (euclidGeom_dominates 2) fp1 fp2 hf1 hf2 l1 l2
    (log_binExact hp hb l1 l2) hw1 hw2
  refine ⟨es, hes, fun k => ?_⟩
  obtain ⟨E, hE, hzE⟩ := hk k
  have hmem : ∀ q ∈ E, q.2 ∈ l2 := by
    intro q hq
    have : q ∈ pairsIn (crossPairs l1 l2) (InLogBin p.minsep p.binsize p.nbins k) := by
      rw [← hE]; exact Multiset.mem_add.2 (Or.inr hq)
    exact ((mem_crossPairs _ _ _).1 (Multiset.mem_filter.1 this).1).2
  have hc := cross_radial_counted D A1 A2 fp1 fp2 hf1 hf2 log_angleTest p hp.a (log_apart hp.minsep) l1 l2 es z hes k
  have e1 : bruteRadial D.s Obj.w z (pairsAt es k) = bruteRadial D.s Obj.w z (pairsIn (crossPairs l1 l2) (InLogBin p.minsep p.binsize p.nbins k)) :=
    sum_zero_pairs hE _ (fun q hq => by
      rcases hzE q hq with h | h
      · simp [h.1]
      · simp [hz _ (hmem q hq) h.1])
  have e2 : bruteAbs Obj.w z (pairsAt es k) = bruteAbs Obj.w z (pairsIn (crossPairs l1 l2) (InLogBin p.minsep p.binsize p.nbins k)) :=
    sum_zero_pairs hE _ (fun q hq => by
      rcases hzE q hq with h | h
      · simp [h.1]
      · simp [hz _ (hmem q hq) h.1])
  have e3 : bruteRadial D.s Obj.wk z (pairsAt es k) = bruteRadial D.s Obj.wk z (pairsIn (crossPairs l1 l2) (InLogBin p.minsep p.binsize p.nbins k)) :=
    sum_zero_pairs hE _ (fun q hq => by
      rcases hzE q hq with h | h
      · simp [h.2]
      · simp [hz _ (hmem q hq) h.1])
  have e4 : bruteAbs Obj.wk z (pairsAt es k) = bruteAbs Obj.wk z (pairsIn (crossPairs l1 l2) (InLogBin p.minsep p.binsize p.nbins k)) :=
    sum_zero_pairs hE _ (fun q hq => by
      rcases hzE q hq with h | h
      · simp [h.2]
      · simp [hz _ (hmem q hq) h.1])
  rw [e1, e2, e3, e4] at hc
  exact hc

/-- **C49.** Cross-correlation of two spin fields, Log bins, `bin_slop = 0`: `xip` is exactly the brute-force sum, `xim` is within
`4 s angle_slop` times the sum of `|z1 z2|` of it. -/
theorem cross_zz_log (D : Spin) (A1 A2 : StdAlg Plane) (fp1 fp2 : FieldParams) (hf1 : fp1.minsize = 0) (hf2 : fp2.minsize = 0)
    {p : Params} (hp : LogParams p) (hb : p.b = 0) (l1 l2 : List (Obj Plane)) (hw1 : ∀ o ∈ l1, o.Valid) (hw2 : ∀ o ∈ l2, o.Valid)
    (z1 z2 : Obj Plane → ℂ) (hz1 : SpinValid l1 z1) (hz2 : SpinValid l2 z2) :
    ∃ es, processCross (logBin _) (plainMetric _) p (buildField A1 (euclidGeom 2) fp1 l1) (buildField A2 (euclidGeom 2) fp2 l2) = some es ∧
      ∀ k, let prs := pairsIn (crossPairs l1 l2) (InLogBin p.minsep p.binsize p.nbins k)
        (es.foldl (processZZ (simpleSum z1) (simpleSum z2) (flatFactor D) (flatFactor D)) SpinAcc.zero).xip k = bruteXip D.s z1 z2 prs ∧
        ‖(es.foldl (processZZ (simpleSum z1) (simpleSum z2) (flatFactor D) (flatFactor D)) SpinAcc.zero).xim k - bruteXim D.s z1 z2 prs‖
          ≤ 4 * D.s * p.a * bruteAbs2 z1 z2 prs := by
  obtain ⟨es, hes, hk⟩ := cross_pairs_of A1 A2 (euclidGeom 2) (euclidGeom_dominates 2) fp1 fp2 hf1 hf2 l1 l2
    (log_binExact hp hb l1 l2) hw1 hw2
  refine ⟨es, hes, fun k => ?_⟩
  obtain ⟨E, hE, hzE⟩ := hk k
  have hmem : ∀ q ∈ E, q.1 ∈ l1 ∧ q.2 ∈ l2 := by
    intro q hq
    have : q ∈ pairsIn (crossPairs l1 l2) (InLogBin p.minsep p.binsize p.nbins k) := by
      rw [← hE]; exact Multiset.mem_add.2 (Or.inr hq)
    exact (mem_crossPairs _ _ _).1 (Multiset.mem_filter.1 this).1
  have hzero : ∀ q ∈ E, z1 q.1 = 0 ∨ z2 q.2 = 0 := by
    intro q hq
    rcases hzE q hq with h | h
    · exact Or.inl (hz1 _ (hmem q hq).1 h.1)
    · exact Or.inr (hz2 _ (hmem q hq).2 h.1)
  obtain ⟨c1, c2⟩ := cross_zz_counted D A1 A2 fp1 fp2 hf1 hf2 log_angleTest p hp.a (log_apart hp.minsep) l1 l2 es z1 z2 hes k
  have e1 : bruteXip D.s z1 z2 (pairsAt es k) = bruteXip D.s z1 z2 (pairsIn (crossPairs l1 l2) (InLogBin p.minsep p.binsize p.nbins k)) :=
    sum_zero_pairs hE _ (fun q hq => by rcases hzero q hq with h | h <;> simp [h])
  have e2 : bruteXim D.s z1 z2 (pairsAt es k) = bruteXim D.s z1 z2 (pairsIn (crossPairs l1 l2) (InLogBin p.minsep p.binsize p.nbins k)) :=
    sum_zero_pairs hE _ (fun q hq => by rcases hzero q hq with h | h <;> simp [h])
  have e3 : bruteAbs2 z1 z2 (pairsAt es k) = bruteAbs2 z1 z2 (pairsIn (crossPairs l1 l2) (InLogBin p.minsep p.binsize p.nbins k)) :=
    sum_zero_pairs hE _ (fun q hq => by rcases hzero q hq with h | h <;> simp [h])
  rw [e1] at c1
  rw [e2, e3] at c2
  exact ⟨c1, c2⟩

/-- **C49, partial.** Auto-correlation of a spin field: the real part of `xip` is exact and `xim` is within the bound.  Missing: pairs separated by
exactly `min_sep` (see `auto_min_sep_dropped`), and the imaginary part of `xip`, which depends on the order in which the tree meets the two
points of each pair. -/
theorem auto_zz_log_partial (D : Spin) (A : StdAlg Plane) (fp : FieldParams) (hf : fp.minsize = 0)
    {p : Params} (hp : LogParams p) (hb : p.b = 0) (l : List (Obj Plane)) (hw : ∀ o ∈ l, o.Valid)
    (hmin : ∀ q ∈ autoPairs l, dist q.1.pos q.2.pos ≠ p.minsep) (z : Obj Plane → ℂ) (hz : SpinValid l z) :
    ∃ es, processAuto (decide11 (logBin _) (plainMetric _) p false) p (buildField A (euclidGeom 2) fp l).cells = some es ∧
      ∀ k, let prs := pairsIn (autoPairs l) (InLogBin p.minsep p.binsize p.nbins k)
        ((es.foldl (processZZ (simpleSum z) (simpleSum z) (flatFactor D) (flatFactor D)) SpinAcc.zero).xip k).re = (bruteXip D.s z z prs).re ∧
        ‖(es.foldl (processZZ (simpleSum z) (simpleSum z) (flatFactor D) (flatFactor D)) SpinAcc.zero).xim k - bruteXim D.s z z prs‖
          ≤ 4 * D.s * p.a * bruteAbs2 z z prs := by
  obtain ⟨es, hes, hk⟩ := auto_pairs_of A (euclidGeom 2) (euclidGeom_dominates 2) fp hf l (log_binExact hp hb l l) hw hmin
  have hperm := buildField_objs A (euclidGeom 2) fp l
  refine ⟨es, hes, fun k => ?_⟩
  obtain ⟨E, hE, hzE⟩ := hk k
  have hzero : ∀ q ∈ E, z q.1 = 0 ∨ z q.2 = 0 := by
    intro q hq
    have h1 : q ∈ pairsIn (autoPairs (objsOf (buildField A (euclidGeom 2) fp l).cells)) (InLogBin p.minsep p.binsize p.nbins k) := by
      rw [← hE]; exact Multiset.mem_add.2 (Or.inr hq)
    have h2 := mem_autoPairs _ _ (Multiset.mem_filter.1 h1).1
    rcases hzE q hq with h | h
    · exact Or.inl (hz _ (hperm.mem_iff.1 h2.1) h.1)
    · exact Or.inr (hz _ (hperm.mem_iff.1 h2.2) h.1)
  obtain ⟨c1, c2⟩ := spin_counted D hp.a (auto_spinCalls A fp hf log_angleTest p hp.a (log_apart hp.minsep) l es hes) k z z
  have re_sum : ∀ S : Multiset (Obj Plane × Obj Plane), (bruteXip D.s z z S).re = (S.map fun q => (z q.1 * conj (z q.2)).re).sum := by
    intro S
    rw [bruteXip_eq, ← Complex.reLm_coe, map_multiset_sum, Multiset.map_map]
    rfl
  refine ⟨?_, ?_⟩
  · rw [c1, re_sum, re_sum, sum_zero_pairs hE _ (fun q hq => by rcases hzero q hq with h | h <;> simp [h])]
    exact pairsIn_auto_sum hperm _ _ (fun x y => by simp [Complex.mul_re]; ring)
  · have e2 : bruteXim D.s z z (pairsAt es k) = bruteXim D.s z z (pairsIn (autoPairs l) (InLogBin p.minsep p.binsize p.nbins k)) := by
      refine (sum_zero_pairs hE _ (fun q hq => by rcases hzero q hq with h | h <;> simp [h])).trans ?_
      refine pairsIn_auto_sum hperm _ _ (fun x y => ?_)
      linear_combination z x * z y * turn_sq_comm D.s x.pos y.pos
    have e3 : bruteAbs2 z z (pairsAt es k) = bruteAbs2 z z (pairsIn (autoPairs l) (InLogBin p.minsep p.binsize p.nbins k)) := by
      refine (sum_zero_pairs hE _ (fun q hq => by rcases hzero q hq with h | h <;> simp [h])).trans ?_
      exact pairsIn_auto_sum hperm _ _ (fun x y => mul_comm _ _)
    rw [e2, e3] at c2
    exact c2

/-! ### Where the code differs -/

/-- **C49 fails for points at the same position**: the shear of a source that coincides with the centre of the other cell is multiplied by 0,
although the pair is counted in the weight. -/
theorem coincident_zero_wrong (D : Spin) (h : D ≠ .Z) (p : Plane) : flatFactor D p p = 0 := by
  rw [flatFactor, sub_self, expm_eq, dirOf_zero, map_zero, zero_pow]
  cases D <;> simp_all [Spin.s]

/-- One row with value `g` at `(x, y)`, as a cell. -/
def spinLeaf (x y : ℝ) (i : ℕ) : Cell Plane := .leaf ⟨pt x y, 1, 1, 0⟩ [ob x y i]

/-- **C49 fails for the imaginary part of `xip` with TwoD bins**: an auto-correlation counts a pair again, reversed, in the opposite bin `k2`.
The reversed pair has the conjugate `xip`, but the code adds the same number: here `-i` instead of `i`. -/
theorem reversed_xip_im_wrong :
    let z : Obj Plane → ℂ := fun o => if o.idx = 0 then 1 else Complex.I
    let e : Emit Plane := { c1 := spinLeaf 0 0 0, c2 := spinLeaf 1 0 1, rsq := 1, r := 1, logr := 0, k := 3, k2 := some 5 }
    let e' : Emit Plane := { c1 := spinLeaf 1 0 1, c2 := spinLeaf 0 0 0, rsq := 1, r := 1, logr := 0, k := 5, k2 := none }
    (processZZ (simpleSum z) (simpleSum z) (flatFactor .G) (flatFactor .G) SpinAcc.zero e).xip 5 = -Complex.I ∧
    (processZZ (simpleSum z) (simpleSum z) (flatFactor .G) (flatFactor .G) SpinAcc.zero e').xip 5 = Complex.I := by
  have s0 : simpleSum (fun o : Obj Plane => if o.idx = 0 then (1 : ℂ) else Complex.I) (spinLeaf 0 0 0) = 1 := by
    simp [simpleSum, spinLeaf, Cell.objs, ob]
  have s1 : simpleSum (fun o : Obj Plane => if o.idx = 0 then (1 : ℂ) else Complex.I) (spinLeaf 1 0 1) = Complex.I := by
    simp [simpleSum, spinLeaf, Cell.objs, ob]
  have f0 : flatFactor .G (pt 0 0) (pt 1 0) = 1 := by
    have : cplx (pt 1 0) - cplx (pt 0 0) = 1 := by apply Complex.ext <;> simp [cplx, pt]
    simp [flatFactor, this, expm, safeNorm]
  have f1 : flatFactor .G (pt 1 0) (pt 0 0) = 1 := by
    have : cplx (pt 0 0) - cplx (pt 1 0) = -1 := by apply Complex.ext <;> simp [cplx, pt]
    simp [flatFactor, this, expm, safeNorm]
  have p0 : (spinLeaf 0 0 0).pos = pt 0 0 := rfl
  have p1 : (spinLeaf 1 0 1).pos = pt 1 0 := rfl
  constructor
  · simp only [processZZ, s0, s1, p0, p1, f0, addC, SpinAcc.zero]
    apply Complex.ext <;> simp
  · simp only [processZZ, s0, s1, p0, p1, f1, addC, SpinAcc.zero]
    apply Complex.ext <;> simp

/-! ### The hypotheses can be met -/

/-- C49 applied to a lens at the origin and a source at (2,0) with tangential shear 1/2: `g = -1/2`. -/
example : ∃ es, processCross (logBin _) (plainMetric _) exLog (buildField (sortAlg _ 0) (euclidGeom 2) exFp [ob 0 0 0])
      (buildField (sortAlg _ 0) (euclidGeom 2) exFp [ob 2 0 0]) = some es ∧
    ‖(es.foldl (processNZ .G Cell.w (simpleSum fun _ => -1 / 2) (flatFactor .G)) (fun _ => 0)) 0 - 1 / 2‖ ≤ 1 / 5 := by
  obtain ⟨es, h, hk⟩ := cross_radial_log .G (sortAlg _ 0) (sortAlg _ 0) exFp exFp rfl rfl exLog_ok rfl [ob 0 0 0] [ob 2 0 0]
    (by simp [ob_valid]) (by simp [ob_valid]) (fun _ => -1 / 2) (by intro o ho h; simp [List.mem_singleton.1 ho] at h)
  refine ⟨es, h, ?_⟩
  have h0 := (hk 0).1
  have d1 : dist (pt 0 0) (pt 2 0) = 2 := by rw [dist_pt_x]; norm_num
  have h1 : InLogBin 1 1 3 0 2 := inLog0 _ (by norm_num) (by norm_num)
  have e : crossPairs [ob 0 0 0] [ob 2 0 0] = {(ob 0 0 0, ob 2 0 0)} := by rw [crossPairs_singleton]; rfl
  have a0 : lineAngle (pt 0 0) (pt 2 0) = 0 := by
    have : (⟨pt 2 0 0 - pt 0 0 0, pt 2 0 1 - pt 0 0 1⟩ : ℂ) = ((2 : ℝ) : ℂ) := by apply Complex.ext <;> simp [pt]
    rw [lineAngle, this, Complex.arg_ofReal_of_nonneg (by norm_num)]
  rw [e] at h0
  simp [pairsIn, Multiset.filter_singleton, exLog, d1, h1, bruteRadial, bruteAbs, a0, turn, spinSign, Spin.s] at h0
  norm_num at h0 ⊢
  rwa [sub_eq_add_neg]

end
end TreeCorr
