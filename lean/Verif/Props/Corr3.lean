import Verif.Proofs.Sums3
import Verif.Props.LogCounts

/-!
C53: a three-point correlation with `LogRUV` bins and no slop counts exactly the triangles of each bin.  A limit `max_v < 1` needs
Ptolemy's inequality (`euclid_ptolemaic`), a limit `min_v > 0` also the order of the corners fixed (`Verif.Props.RuvLimits`).
-/

namespace TreeCorr
open Classical
variable {P : Type}

section
variable [PseudoMetricSpace P]

/-- **C53, one catalogue, partly.** Every bin holds the sums over the triples of distinct rows, each triangle in the orders with
`d1 ≥ d2 ≥ d3` that put it in the bin.  Missing: `min_v > 0` (see `ruv_minv_unordered_wrong`), `max_v < 1` in
spaces without Ptolemy's inequality, triangles in range with `d1 = d2` (see `ruv_isosceles_wrong`), `bin_slop > 0`. -/
theorem auto_ruv_exact_partial (A : StdAlg P) (g : Geom P) (hg : g.Dominates) (fp : FieldParams) (hf : fp.minsize = 0)
    {p : Prm3} (hp : RuvParams p) (hv0 : p.minv = 0) (hv1 : p.maxv = 1 ∨ Ptolemaic P) (hb : p.b = 0) (hbu : p.bu = 0)
    {M : Metric3 P} (hM : M.Of) (l : List (Obj P)) (hw : ∀ o ∈ l, o.Valid)
    (htie : ∀ t ∈ orderedTriples l, side1 t = side2 t → ∀ k, ¬ inRuv p M.ccw k t) :
    ∃ es, processAuto3 (binRUV p M) M p.minsep (buildField A g fp l).cells = some es ∧
      ∀ k, (accumulate3 Acc3.zero es).Holds k ((orderedTriples l).filter (inRuv p M.ccw k)) triU (triVs M.ccw) := by
  have hv := buildField_valid A g hg fp hf.ge l hw
  rw [hf] at hv
  have hperm := orderedTriples_perm (buildField_objs A g fp l)
  obtain ⟨es, h, he⟩ := processAuto3_ex (ruv_exact3 hp hv0 hv1 hb hbu hM) (hered_valid 0) hp.minsep _ hv (by
    rw [hperm]
    intro q hq _ ⟨k, hk⟩ e
    exact htie q hq e k hk)
  rw [hperm] at he
  exact ⟨es, h, holds_of_ex3 he⟩

/-- **C53, two catalogues, partly.** One row from the first and two from the second, `ordered=True`: the first row is point 1 of the
triangle. -/
theorem cross12_ruv_exact_partial (A1 A2 : StdAlg P) (g : Geom P) (hg : g.Dominates) (fp1 fp2 : FieldParams)
    (hf1 : fp1.minsize = 0) (hf2 : fp2.minsize = 0)
    {p : Prm3} (hp : RuvParams p) (hv0 : p.minv = 0) (hv1 : p.maxv = 1 ∨ Ptolemaic P) (hb : p.b = 0) (hbu : p.bu = 0)
    {M : Metric3 P} (hM : M.Of) (l1 l2 : List (Obj P)) (hw1 : ∀ o ∈ l1, o.Valid) (hw2 : ∀ o ∈ l2, o.Valid) :
    ∃ es, processCross12 (binRUV p M) M .first (buildField A1 g fp1 l1).cells (buildField A2 g fp2 l2).cells = some es ∧
      ∀ k, (accumulate3 Acc3.zero es).Holds k ((cross12Triples l1 l2).filter (inRuv p M.ccw k)) triU (triVs M.ccw) := by
  have h1 := buildField_valid A1 g hg fp1 hf1.ge l1 hw1
  have h2 := buildField_valid A2 g hg fp2 hf2.ge l2 hw2
  rw [hf1] at h1
  rw [hf2] at h2
  obtain ⟨es, h, he⟩ := processCross12_ex (ruv_exact3 hp hv0 hv1 hb hbu hM) (hered_valid 0) .first (by simp) _ _ h1 h2
    (fun _ _ h => by cases h)
  rw [from12_perm (by simp) (buildField_objs A1 g fp1 l1) (buildField_objs A2 g fp2 l2), from12_first_eq] at he
  exact ⟨es, h, holds_of_ex3 he⟩

/-- **C53, two catalogues, any order, partly.** With `ordered=False` the three rows may take any place. -/
theorem cross12_unordered_ruv_exact_partial (A1 A2 : StdAlg P) (g : Geom P) (hg : g.Dominates) (fp1 fp2 : FieldParams)
    (hf1 : fp1.minsize = 0) (hf2 : fp2.minsize = 0)
    {p : Prm3} (hp : RuvParams p) (hv0 : p.minv = 0) (hv1 : p.maxv = 1 ∨ Ptolemaic P) (hb : p.b = 0) (hbu : p.bu = 0)
    {M : Metric3 P} (hM : M.Of) (l1 l2 : List (Obj P)) (hw1 : ∀ o ∈ l1, o.Valid) (hw2 : ∀ o ∈ l2, o.Valid)
    (htie : ∀ t ∈ mixedTriples l1 l2, side1 t = side2 t → ∀ k, ¬ inRuv p M.ccw k t) :
    ∃ es, processCross12 (binRUV p M) M .any (buildField A1 g fp1 l1).cells (buildField A2 g fp2 l2).cells = some es ∧
      ∀ k, (accumulate3 Acc3.zero es).Holds k ((mixedTriples l1 l2).filter (inRuv p M.ccw k)) triU (triVs M.ccw) := by
  have h1 := buildField_valid A1 g hg fp1 hf1.ge l1 hw1
  have h2 := buildField_valid A2 g hg fp2 hf2.ge l2 hw2
  rw [hf1] at h1
  rw [hf2] at h2
  have e := from12_perm (O := .any) (by simp) (buildField_objs A1 g fp1 l1) (buildField_objs A2 g fp2 l2)
  rw [from12_any_eq l1 l2] at e
  obtain ⟨es, h, he⟩ := processCross12_ex (ruv_exact3 hp hv0 hv1 hb hbu hM) (hered_valid 0) .any (by simp) _ _ h1 h2 (by
    rw [e]
    intro q hq _ ⟨k, hk⟩ e
    exact htie q hq e k hk)
  rw [e] at he
  exact ⟨es, h, holds_of_ex3 he⟩

/-- **C53, three catalogues, partly.** `ordered=True`: the rows are points 1, 2, 3 of the triangle in the order of the catalogues. -/
theorem cross123_ruv_exact_partial (A1 A2 A3 : StdAlg P) (g : Geom P) (hg : g.Dominates) (fp1 fp2 fp3 : FieldParams)
    (hf1 : fp1.minsize = 0) (hf2 : fp2.minsize = 0) (hf3 : fp3.minsize = 0)
    {p : Prm3} (hp : RuvParams p) (hv : (p.minv = 0 ∧ p.maxv = 1) ∨ Ptolemaic P) (hb : p.b = 0) (hbu : p.bu = 0)
    {M : Metric3 P} (hM : M.Of) (l1 l2 l3 : List (Obj P)) (hw1 : ∀ o ∈ l1, o.Valid) (hw2 : ∀ o ∈ l2, o.Valid)
    (hw3 : ∀ o ∈ l3, o.Valid) :
    ∃ es, processCross123 (binRUV p M) M .fixed (buildField A1 g fp1 l1).cells (buildField A2 g fp2 l2).cells
        (buildField A3 g fp3 l3).cells = some es ∧
      ∀ k, (accumulate3 Acc3.zero es).Holds k ((crossTriples l1 l2 l3).filter (inRuv p M.ccw k)) triU (triVs M.ccw) := by
  have h1 := buildField_valid A1 g hg fp1 hf1.ge l1 hw1
  have h2 := buildField_valid A2 g hg fp2 hf2.ge l2 hw2
  have h3 := buildField_valid A3 g hg fp3 hf3.ge l3 hw3
  rw [hf1] at h1
  rw [hf2] at h2
  rw [hf3] at h3
  obtain ⟨es, h, he⟩ : ∃ es, processCross123 (binRUV p M) M .fixed (buildField A1 g fp1 l1).cells (buildField A2 g fp2 l2).cells
        (buildField A3 g fp3 l3).cells = some es ∧ Ex3 (inRuv p M.ccw) Weightless (Call3 triU (triVs M.ccw))
        (from111 .fixed (objsOf (buildField A1 g fp1 l1).cells) (objsOf (buildField A2 g fp2 l2).cells)
          (objsOf (buildField A3 g fp3 l3).cells)) es := by
    rcases hv with ⟨hv0, hv1⟩ | hP
    · exact processCross123_ex (ruv_exact3 hp hv0 (Or.inl hv1) hb hbu hM) (hered_valid 0) .fixed _ _ _ h1 h2 h3
        (fun _ _ h => by cases h)
    · exact processCross123_ex (ruv_exact3_fixed hp hP hb hbu hM) (hered_valid 0) .fixed _ _ _ h1 h2 h3
        (fun _ _ => ⟨fun h => (by cases h), fun _ => rfl⟩)
  rw [from111_perm_list (buildField_objs A1 g fp1 l1) (buildField_objs A2 g fp2 l2) (buildField_objs A3 g fp3 l3),
    ← crossTriples_eq] at he
  exact ⟨es, h, holds_of_ex3 he⟩

/-- **C53, three catalogues, any order, partly.** -/
theorem cross123_unordered_ruv_exact_partial (A1 A2 A3 : StdAlg P) (g : Geom P) (hg : g.Dominates) (fp1 fp2 fp3 : FieldParams)
    (hf1 : fp1.minsize = 0) (hf2 : fp2.minsize = 0) (hf3 : fp3.minsize = 0)
    {p : Prm3} (hp : RuvParams p) (hv0 : p.minv = 0) (hv1 : p.maxv = 1 ∨ Ptolemaic P) (hb : p.b = 0) (hbu : p.bu = 0)
    {M : Metric3 P} (hM : M.Of) (l1 l2 l3 : List (Obj P)) (hw1 : ∀ o ∈ l1, o.Valid) (hw2 : ∀ o ∈ l2, o.Valid)
    (hw3 : ∀ o ∈ l3, o.Valid)
    (htie : ∀ t ∈ mixed3Triples l1 l2 l3, side1 t = side2 t → ∀ k, ¬ inRuv p M.ccw k t) :
    ∃ es, processCross123 (binRUV p M) M .any (buildField A1 g fp1 l1).cells (buildField A2 g fp2 l2).cells
        (buildField A3 g fp3 l3).cells = some es ∧
      ∀ k, (accumulate3 Acc3.zero es).Holds k ((mixed3Triples l1 l2 l3).filter (inRuv p M.ccw k)) triU (triVs M.ccw) := by
  have h1 := buildField_valid A1 g hg fp1 hf1.ge l1 hw1
  have h2 := buildField_valid A2 g hg fp2 hf2.ge l2 hw2
  have h3 := buildField_valid A3 g hg fp3 hf3.ge l3 hw3
  rw [hf1] at h1
  rw [hf2] at h2
  rw [hf3] at h3
  have e := from111_perm_list (O := .any) (buildField_objs A1 g fp1 l1) (buildField_objs A2 g fp2 l2) (buildField_objs A3 g fp3 l3)
  rw [from111_any_eq l1 l2 l3] at e
  obtain ⟨es, h, he⟩ := processCross123_ex (ruv_exact3 hp hv0 hv1 hb hbu hM) (hered_valid 0) .any _ _ _ h1 h2 h3 (by
    rw [e]
    intro q hq _ ⟨k, hk⟩ e
    exact htie q hq e k hk)
  rw [e] at he
  exact ⟨es, h, holds_of_ex3 he⟩

/-- **C54, partly.** With `ordered=False` the order of the catalogues does not matter (here the first two exchanged): the arrays are the
same, provided no triangle in range has `d1 = d2`. -/
theorem cross123_unordered_ruv_swap_partial (A1 A2 A3 : StdAlg P) (g : Geom P) (hg : g.Dominates) (fp1 fp2 fp3 : FieldParams)
    (hf1 : fp1.minsize = 0) (hf2 : fp2.minsize = 0) (hf3 : fp3.minsize = 0)
    {p : Prm3} (hp : RuvParams p) (hv0 : p.minv = 0) (hv1 : p.maxv = 1 ∨ Ptolemaic P) (hb : p.b = 0) (hbu : p.bu = 0)
    {M : Metric3 P} (hM : M.Of) (l1 l2 l3 : List (Obj P)) (hw1 : ∀ o ∈ l1, o.Valid) (hw2 : ∀ o ∈ l2, o.Valid)
    (hw3 : ∀ o ∈ l3, o.Valid)
    (htie : ∀ t ∈ mixed3Triples l1 l2 l3, side1 t = side2 t → ∀ k, ¬ inRuv p M.ccw k t) :
    ∃ es es', processCross123 (binRUV p M) M .any (buildField A1 g fp1 l1).cells (buildField A2 g fp2 l2).cells
        (buildField A3 g fp3 l3).cells = some es ∧
      processCross123 (binRUV p M) M .any (buildField A2 g fp2 l2).cells (buildField A1 g fp1 l1).cells
        (buildField A3 g fp3 l3).cells = some es' ∧
      ∀ k, (accumulate3 Acc3.zero es).weight k = (accumulate3 Acc3.zero es').weight k ∧
        (accumulate3 Acc3.zero es).zeta k = (accumulate3 Acc3.zero es').zeta k ∧
        (accumulate3 Acc3.zero es).meand1 k = (accumulate3 Acc3.zero es').meand1 k ∧
        (accumulate3 Acc3.zero es).meand2 k = (accumulate3 Acc3.zero es').meand2 k ∧
        (accumulate3 Acc3.zero es).meand3 k = (accumulate3 Acc3.zero es').meand3 k ∧
        (accumulate3 Acc3.zero es).meanu k = (accumulate3 Acc3.zero es').meanu k ∧
        (accumulate3 Acc3.zero es).meanv k = (accumulate3 Acc3.zero es').meanv k := by
  have e : mixed3Triples l2 l1 l3 = mixed3Triples l1 l2 l3 := by
    rw [← from111_any_eq, ← from111_any_eq]
    exact from111_swap12 l1 l2 l3
  obtain ⟨es, h, hk⟩ := cross123_unordered_ruv_exact_partial A1 A2 A3 g hg fp1 fp2 fp3 hf1 hf2 hf3 hp hv0 hv1 hb hbu hM l1 l2 l3
    hw1 hw2 hw3 htie
  obtain ⟨es', h', hk'⟩ := cross123_unordered_ruv_exact_partial A2 A1 A3 g hg fp2 fp1 fp3 hf2 hf1 hf3 hp hv0 hv1 hb hbu hM l2 l1 l3
    hw2 hw1 hw3 (by rwa [e])
  rw [e] at hk'
  refine ⟨es, es', h, h', fun k => ?_⟩
  have a := hk k
  have b := hk' k
  exact ⟨a.weight.trans b.weight.symm, a.zeta.trans b.zeta.symm, a.meand1.trans b.meand1.symm, a.meand2.trans b.meand2.symm,
    a.meand3.trans b.meand3.symm, a.meanu.trans b.meanu.symm, a.meanv.trans b.meanv.symm⟩

/-- **C53, the upper end of `u`.** The documentation lets `u` go up to 1 (`d1 ≥ d2 ≥ d3`), but the last bin ends before it: a triangle
with `d2 = d3`, such as an equilateral one, belongs to no bin. -/
theorem ruv_u_one_never {p : Prm3} (hp : RuvParams p) (ccw : P → P → P → Prop) (k : ℤ) (t : Obj P × Obj P × Obj P)
    (h : side2 t = side3 t) : ¬ inRuv p ccw k t := by
  rintro ⟨kr, ku, kv, ⟨_, _, h3, _, hu, _⟩, _⟩
  have hlt := hu.lt hp.ubinsize hp.maxu
  have : triU t = 1 := by rw [triU, h, div_self h3.ne']
  have := hp.maxu_le
  linarith

/-- **C53, the upper end of `v`.** Three rows on a line in order (`d1 = d2 + d3`, `|v| = 1`) belong to no bin. -/
theorem ruv_v_one_never {p : Prm3} (hp : RuvParams p) (ccw : P → P → P → Prop) (k : ℤ) (t : Obj P × Obj P × Obj P)
    (h : side1 t = side2 t + side3 t) : ¬ inRuv p ccw k t := by
  rintro ⟨kr, ku, kv, ⟨_, _, h3, _, _, hv⟩, _⟩
  have hlt := hv.lt hp.vbinsize hp.maxv
  have : triV t = 1 := by rw [triV, h, add_sub_cancel_left, div_self h3.ne']
  have := hp.maxv_le
  linarith

end

/-! ### The metrics of the code -/

/-- The flat metric is the Euclidean distance, so the theorems apply to it. -/
theorem flatMetric3_of : flatMetric3.Of := by
  constructor
  · intro p q
    simp only [flatMetric3]
    rw [dist_eq_norm]
  · intro p p' q q' r r' h1 h2 h3
    rw [dist_eq_zero.1 h1, dist_eq_zero.1 h2, dist_eq_zero.1 h3]

/-- So is the metric in space. -/
theorem spaceMetric3_of : spaceMetric3.Of := by
  constructor
  · intro p q
    simp only [spaceMetric3]
    rw [dist_eq_norm]
  · intro p p' q q' r r' h1 h2 h3
    rw [dist_eq_zero.1 h1, dist_eq_zero.1 h2, dist_eq_zero.1 h3]

noncomputable section

/-- Three bins in `d2` from 1, four in `u`, two in `|v|`, no slop. -/
def exRuv : Prm3 :=
  { minsep := 1, maxsep := Real.exp 3, nbins := 3, binsize := 1, b := 0, a := 1 / 10, minu := 0, maxu := 1, nubins := 4,
    ubinsize := 1 / 4, bu := 0, minv := 0, maxv := 1, nvbins := 2, vbinsize := 1 / 2, bv := 0 }

theorem exRuv_ok : RuvParams exRuv := by
  constructor <;> norm_num [exRuv]

theorem d_origin_3 : dist (pt 0 0) (pt 0 3) = 3 := by
  rw [dist_pt, show ((0 : ℝ) - 0) ^ 2 + (0 - 3) ^ 2 = 3 ^ 2 by norm_num, Real.sqrt_sq (by norm_num)]
theorem d_origin_4 : dist (pt 0 0) (pt 4 0) = 4 := by
  rw [dist_pt, show ((0 : ℝ) - 4) ^ 2 + (0 - 0) ^ 2 = 4 ^ 2 by norm_num, Real.sqrt_sq (by norm_num)]
theorem d_345 : dist (pt 0 3) (pt 4 0) = 5 := by
  rw [dist_pt, show ((0 : ℝ) - 4) ^ 2 + (3 - 0) ^ 2 = 5 ^ 2 by norm_num, Real.sqrt_sq (by norm_num)]

theorem inLog1 (d : ℝ) (h1 : 3 ≤ d) (h2 : d ≤ 4) : InLogBin 1 1 3 1 d := by
  refine ⟨by norm_num, by norm_num, ?_, ?_⟩
  · have := Real.exp_one_lt_three
    simp [logEdge]; linarith
  · have h := Real.exp_one_gt_d9
    have : Real.exp 2 = Real.exp 1 * Real.exp 1 := by rw [← Real.exp_add]; norm_num
    have h4 : (4 : ℝ) < Real.exp 2 := by rw [this]; nlinarith
    simp only [logEdge, one_mul]
    norm_num
    linarith

/-- The triangle with sides 5, 4, 3, corners in the order clockwise. -/
theorem ex345_in : inRuv exRuv flatMetric3.ccw 29 (ob 0 0 0, ob 0 3 1, ob 4 0 2) := by
  refine ⟨1, 3, 0, ⟨?_, ?_, ?_, ?_, ?_, ?_⟩, ?_⟩
  · norm_num [side1, side2, d_345, d_origin_4]
  · norm_num [side3, side2, d_origin_3, d_origin_4]
  · simp [side3, d_origin_3]
  · simpa [side2, d_origin_4, exRuv] using inLog1 4 (by norm_num) le_rfl
  · simp [InLinBin, linEdge, triU, side3, side2, d_origin_3, d_origin_4, exRuv]
    norm_num
  · simp [InLinBin, linEdge, triV, side1, side3, side2, d_origin_3, d_origin_4, d_345, exRuv]
    norm_num
  · have : ¬ flatMetric3.ccw (pt 0 0) (pt 0 3) (pt 4 0) := by
      simp [flatMetric3, pt]
    show 29 = ruvPlace exRuv 1 3 0 (flatMetric3.ccw (pt 0 0) (pt 0 3) (pt 4 0))
    rw [ruvPlace, if_neg this]
    norm_num [exRuv]

/-- Only one of the orders of the corners has the sides in order. -/
theorem ex345_out {t : Obj (EuclideanSpace ℝ (Fin 2)) × Obj _ × Obj _} (ht : t ∈ orderedTriples [ob 0 0 0, ob 0 3 1, ob 4 0 2])
    (h1 : side2 t ≤ side1 t) (h2 : side3 t ≤ side2 t) : t = (ob 0 0 0, ob 0 3 1, ob 4 0 2) := by
  have e : orderedTriples [ob 0 0 0, ob 0 3 1, ob 4 0 2] = orders6 (ob 0 0 0, ob 0 3 1, ob 4 0 2) := by
    simp [orderedTriples, autoTriples, autoPairs]
  rw [e] at ht
  simp only [orders6, Multiset.mem_add, Multiset.mem_singleton] at ht
  have e1 := d_origin_3
  have e2 := d_origin_4
  have e3 := d_345
  have e4 := (dist_comm _ _).trans e1
  have e5 := (dist_comm _ _).trans e2
  have e6 := (dist_comm _ _).trans e3
  rcases ht with ((((rfl | rfl) | rfl) | rfl) | rfl) | rfl <;>
    simp only [side1, side2, side3, ob_pos, e1, e2, e3, e4, e5, e6] at h1 h2 <;> first | rfl | (exfalso; linarith)

/-- C53 applied to the three rows (0,0), (0,3), (4,0): one triangle, in bin 29. -/
example : ∃ es, processAuto3 (binRUV exRuv flatMetric3) flatMetric3 exRuv.minsep
    (buildField (sortAlg _ 0) (euclidGeom 2) exFp [ob 0 0 0, ob 0 3 1, ob 4 0 2]).cells = some es ∧
    (accumulate3 Acc3.zero es).ntri 29 = 1 := by
  obtain ⟨es, h, hk⟩ := auto_ruv_exact_partial (sortAlg _ 0) (euclidGeom 2) (euclidGeom_dominates 2) exFp rfl exRuv_ok rfl (Or.inl rfl) rfl
    rfl flatMetric3_of [ob 0 0 0, ob 0 3 1, ob 4 0 2] (by simp [ob_valid]) (by
      rintro t ht e k ⟨_, _, _, hin, _⟩
      have := ex345_out ht hin.1 hin.2.1
      subst this
      simp [side1, side2, d_345, d_origin_4] at e)
  refine ⟨es, h, ?_⟩
  have e : (orderedTriples [ob 0 0 0, ob 0 3 1, ob 4 0 2]).filter (inRuv exRuv flatMetric3.ccw 29) =
      {(ob 0 0 0, ob 0 3 1, ob 4 0 2)} := by
    have e : orderedTriples [ob 0 0 0, ob 0 3 1, ob 4 0 2] = orders6 (ob 0 0 0, ob 0 3 1, ob 4 0 2) := by
      simp [orderedTriples, autoTriples, autoPairs]
    have key : ∀ t ∈ orderedTriples [ob 0 0 0, ob 0 3 1, ob 4 0 2],
        (inRuv exRuv flatMetric3.ccw 29 t ↔ t = (ob 0 0 0, ob 0 3 1, ob 4 0 2)) := by
      intro t ht
      constructor
      · rintro ⟨_, _, _, hin, _⟩
        exact ex345_out ht hin.1 hin.2.1
      · rintro rfl
        exact ex345_in
    rw [Multiset.filter_congr key, e]
    have hne1 : ob 0 0 0 ≠ ob 0 3 1 := fun h => by simpa [ob] using congrArg Obj.idx h
    have hne2 : ob 0 0 0 ≠ ob 4 0 2 := fun h => by simpa [ob] using congrArg Obj.idx h
    have hne3 : ob 0 3 1 ≠ ob 4 0 2 := fun h => by simpa [ob] using congrArg Obj.idx h
    simp [orders6, Multiset.filter_add, Multiset.filter_singleton, hne1, hne2, hne3, hne1.symm, hne2.symm, hne3.symm]
  rw [(hk 29).ntri (by rw [e]; simp [ob]), e]
  simp [brute3N]

/-! ### A triangle with `d1 = d2` -/

/-- A leaf with one row of weight 1. -/
def leaf1 (o : Obj (EuclideanSpace ℝ (Fin 2))) : Cell (EuclideanSpace ℝ (Fin 2)) := .leaf ⟨o.pos, 1, 1, 0⟩ [o]

theorem exp3_gt : (13 : ℝ) < Real.exp 3 := by
  have h1 := Real.exp_one_gt_d9
  have e3 : Real.exp 3 = Real.exp 1 ^ 3 := by rw [← Real.exp_nat_mul]; norm_num
  rw [e3]
  have : (2.7 : ℝ) ^ 3 < Real.exp 1 ^ 3 := pow_lt_pow_left₀ (by linarith) (by norm_num) (by norm_num)
  norm_num at this ⊢
  linarith

theorem inLog2 : InLogBin 1 1 3 2 13 := by
  have h2 := Real.exp_one_lt_d9
  have h0 := Real.exp_pos 1
  have e2 : Real.exp 2 = Real.exp 1 ^ 2 := by rw [← Real.exp_nat_mul]; norm_num
  refine ⟨by norm_num, by norm_num, ?_, ?_⟩
  · simp only [logEdge, one_mul]
    norm_num
    rw [e2]
    nlinarith
  · simp only [logEdge, one_mul]
    norm_num
    exact exp3_gt

theorem exRuv_act (o1 o2 o3 : Obj (EuclideanSpace ℝ (Fin 2))) (h1 : dist o2.pos o3.pos = 13) (h2 : dist o1.pos o3.pos = 13)
    (h3 : dist o1.pos o2.pos = 10) : ∃ e : Emit3 _, ruvAct exRuv flatMetric3 .any (leaf1 o1) (leaf1 o2) (leaf1 o3) = .direct e ∧
      e.c1 = leaf1 o1 ∧ e.c2 = leaf1 o2 ∧ e.c3 = leaf1 o3 ∧
      e.index = if flatMetric3.ccw o1.pos o2.pos o3.pos then 46 else 45 := by
  have hm := fun p q => flatMetric3_of.distSq p q
  have hs : ∀ o, (leaf1 o).size = 0 := fun _ => rfl
  have hp : ∀ o, (leaf1 o).pos = o.pos := fun _ => rfl
  have e13 : Real.sqrt (13 ^ 2) = 13 := Real.sqrt_sq (by norm_num)
  have e10 : Real.sqrt (10 ^ 2) = 10 := Real.sqrt_sq (by norm_num)
  have hexp := exp3_gt
  have hstop : ¬ ruvStop exRuv .any (13 ^ 2) (13 ^ 2) (10 ^ 2) 0 0 0 := by
    unfold ruvStop
    simp only [e13, exRuv]
    rintro (h | h | h | h | h | h | h | h | h | h)
    · norm_num at h
    · have := h.1
      nlinarith
    · exact h.1 rfl
    all_goals norm_num at h
  have hsplit : ruvSplit exRuv (13 ^ 2) (13 ^ 2) (10 ^ 2) 0 0 0 = none := by
    simp [ruvSplit, ruvSplit3]
  have hi := ruvIndex_some exRuv_ok (O := .any) (c := flatMetric3.ccw o1.pos o2.pos o3.pos) (d1 := 13) (d2 := 13) (d3 := 10)
    (kr := 2) (ku := 3) (kv := 0) (by norm_num) (by norm_num) (by simp) inLog2
    (by norm_num [InLinBin, linEdge, exRuv]) (by norm_num [InLinBin, linEdge, exRuv])
  have hq : ruvPlace exRuv 2 3 0 (flatMetric3.ccw o1.pos o2.pos o3.pos) =
      if flatMetric3.ccw o1.pos o2.pos o3.pos then 46 else 45 := by
    unfold ruvPlace
    split <;> norm_num [exRuv]
  refine ⟨⟨leaf1 o1, leaf1 o2, leaf1 o3, 13, 13, 10, 10 / 13,
    if flatMetric3.ccw o1.pos o2.pos o3.pos then (13 - 13) / 10 else -((13 - 13) / 10), Real.log 13, Real.log 13, Real.log 10, _⟩, ?_, rfl, rfl, rfl, hq⟩
  unfold ruvAct
  simp only [hm, hs, hp, h1, h2, h3]
  rw [if_neg hstop, hsplit]
  simp only [e13, e10, hi]
  rfl

/-- Two leaves as far apart from the third as each other: the call made puts the second of them first. -/
theorem exRuv_run (o1 o2 o3 : Obj (EuclideanSpace ℝ (Fin 2))) (h1 : dist o2.pos o3.pos = 13) (h2 : dist o1.pos o3.pos = 13)
    (h3 : dist o1.pos o2.pos = 10) : ∃ es, processCross123 (binRUV exRuv flatMetric3) flatMetric3 .any [leaf1 o1] [leaf1 o2]
      [leaf1 o3] = some es ∧ ∀ k, (accumulate3 Acc3.zero es).ntri k =
        if (if flatMetric3.ccw o2.pos o1.pos o3.pos then 46 else 45) = k then 1 else 0 := by
  obtain ⟨e, he, c1, c2, c3, hi⟩ := exRuv_act o2 o1 o3 h2 h1 (by rw [dist_comm, h3])
  have hm := fun p q => flatMetric3_of.distSq p q
  have harr : arrange flatMetric3 true true .any o1.pos o2.pos o3.pos = [(.any, .p213)] := by
    simp only [arrange, hm, h1, h2, h3]
    norm_num
  refine ⟨[e], ?_, fun k => ?_⟩
  · have hn : (leaf1 o1).nodes + (leaf1 o2).nodes + (leaf1 o3).nodes = 2 + 1 := rfl
    simp only [processCross123, concatM, loop111, process111, hn, process111N]
    rw [if_neg (by simp [leaf1, Cell.w, Cell.data])]
    show (do let a ← (do let a ← (do let a ← concatM _ (arrange flatMetric3 true true .any o1.pos o2.pos o3.pos); _); _); _) = _
    rw [harr]
    simp only [concatM, Perm3.apply, binRUV, he]
    rfl
  · simp only [accumulate3, List.foldl, finish3, Acc3.zero, addAt_apply, hi, c1, c2, c3]
    simp only [leaf1, Cell.n, Cell.data]
    norm_num

/-- **C54, negation at `d1 = d2`.** A triangle with `d1 = d2 > d3` goes to the bin with positive or with negative `v` depending on the
order of the catalogues, although `ordered=False`: (-5,0), (5,0), (0,12) as three catalogues in this order, and with the first two
exchanged. -/
theorem ruv_isosceles_wrong : ∃ (a b c : Obj (EuclideanSpace ℝ (Fin 2))) (es es' : List (Emit3 _)),
    processCross123 (binRUV exRuv flatMetric3) flatMetric3 .any (buildField (sortAlg _ 0) (euclidGeom 2) exFp [a]).cells
      (buildField (sortAlg _ 0) (euclidGeom 2) exFp [b]).cells (buildField (sortAlg _ 0) (euclidGeom 2) exFp [c]).cells = some es ∧
    processCross123 (binRUV exRuv flatMetric3) flatMetric3 .any (buildField (sortAlg _ 0) (euclidGeom 2) exFp [b]).cells
      (buildField (sortAlg _ 0) (euclidGeom 2) exFp [a]).cells (buildField (sortAlg _ 0) (euclidGeom 2) exFp [c]).cells = some es' ∧
    (accumulate3 Acc3.zero es).ntri 45 = 1 ∧ (accumulate3 Acc3.zero es).ntri 46 = 0 ∧
    (accumulate3 Acc3.zero es').ntri 45 = 0 ∧ (accumulate3 Acc3.zero es').ntri 46 = 1 := by
  have d1 : dist (pt 5 0) (pt 0 12) = 13 := by
    rw [dist_pt, show ((5 : ℝ) - 0) ^ 2 + (0 - 12) ^ 2 = 13 ^ 2 by norm_num, Real.sqrt_sq (by norm_num)]
  have d2 : dist (pt (-5) 0) (pt 0 12) = 13 := by
    rw [dist_pt, show ((-5 : ℝ) - 0) ^ 2 + (0 - 12) ^ 2 = 13 ^ 2 by norm_num, Real.sqrt_sq (by norm_num)]
  have d3 : dist (pt (-5) 0) (pt 5 0) = 10 := by
    rw [dist_pt, show ((-5 : ℝ) - 5) ^ 2 + (0 - 0) ^ 2 = 10 ^ 2 by norm_num, Real.sqrt_sq (by norm_num)]
  obtain ⟨es, h, hk⟩ := exRuv_run (ob (-5) 0 0) (ob 5 0 0) (ob 0 12 0) d1 d2 d3
  obtain ⟨es', h', hk'⟩ := exRuv_run (ob 5 0 0) (ob (-5) 0 0) (ob 0 12 0) d2 d1 (by rw [dist_comm]; exact d3)
  have n : ¬ flatMetric3.ccw (pt 5 0) (pt (-5) 0) (pt 0 12) := by
    norm_num [flatMetric3, pt]
  have y : flatMetric3.ccw (pt (-5) 0) (pt 5 0) (pt 0 12) := by
    norm_num [flatMetric3, pt]
  refine ⟨ob (-5) 0 0, ob 5 0 0, ob 0 12 0, es, es', ?_, ?_, ?_, ?_, ?_, ?_⟩
  · simp only [field_one]
    exact h
  · simp only [field_one]
    exact h'
  all_goals simp only [hk, hk', ob_pos, n, y]; norm_num

end
end TreeCorr
