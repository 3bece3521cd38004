import Mathlib.Geometry.Euclidean.Angle.Unoriented.TriangleInequality
import Mathlib.Analysis.SpecialFunctions.Trigonometric.Bounds
import Verif.Model.Arc
import Verif.Proofs.NearHull
import Verif.Props.Slop

/-! Arcs and chords on the unit sphere; trees whose cell sizes understate the distances. -/

namespace TreeCorr
open Classical
variable {P : Type}

/-- The cell and all cells below it have their objects within `δ` of the ball given by position and size. -/
def Cell.AllWithin [PseudoMetricSpace P] (δ : ℝ) : Cell P → Prop
  | .leaf d os => Cell.Within δ (.leaf d os)
  | .node d s l r => Cell.Within δ (.node d s l r) ∧ l.AllWithin δ ∧ r.AllWithin δ

theorem Cell.AllWithin.within [PseudoMetricSpace P] {δ : ℝ} {c : Cell P} (h : c.AllWithin δ) : c.Within δ := by
  cases c with
  | leaf d os => exact h
  | node d s l r => exact h.1

theorem hered_allWithin [PseudoMetricSpace P] (δ : ℝ) : Hered (Cell.AllWithin (P := P) δ) := by
  intro d s l r h
  exact h.2

/-- As `GoodCell`, with the weaker bound on the positions. -/
def NearGood [PseudoMetricSpace P] (δ : ℝ) (c : Cell P) : Prop :=
  (c.AllWithin δ ∧ c.SumsOK) ∧ c.PosW

theorem hered_nearGood [PseudoMetricSpace P] (δ : ℝ) : Hered (NearGood (P := P) δ) :=
  ((hered_allWithin δ).and hered_sumsOK).and hered_posW

theorem NearGood.w_ne [PseudoMetricSpace P] {δ : ℝ} {c : Cell P} (h : NearGood δ c) : c.w ≠ 0 :=
  (c.w_pos h.1.2 h.2).ne'

/-- `γ` bounds the excess of the distance over the size, for every part of the catalogue. -/
def Geom.Excess [PseudoMetricSpace P] (g : Geom P) (γ : ℝ) (l : List (Obj P)) : Prop :=
  ∀ l' : List (Obj P), (∀ o ∈ l', o ∈ l) → ∀ o ∈ l',
    dist o.pos (g.mean l') ≤ Real.sqrt (calcSizeSq g (g.mean l') l') + γ

theorem Geom.Excess.sub [PseudoMetricSpace P] {g : Geom P} {γ : ℝ} {l l' : List (Obj P)} (h : g.Excess γ l)
    (hl : ∀ o ∈ l', o ∈ l) : g.Excess γ l' :=
  fun l'' h'' o ho => h l'' (fun o ho => hl o (h'' o ho)) o ho

theorem buildCell_allWithin [PseudoMetricSpace P] (A : StdAlg P) (g : Geom P) (sm : SplitMethod) {m γ : ℝ}
    (hm : 0 ≤ m) (hγ : 0 ≤ γ) (l : List (Obj P)) (he : g.Excess γ l) :
    (buildCell A g sm (m * m) l).AllWithin (m + γ) := by
  induction l using buildCell.induct A g sm (m * m) with
  | case1 => simp [buildCell, Cell.AllWithin, Cell.Within, Cell.objs, Cell.size]
  | case2 o => simp [buildCell, Cell.AllWithin, Cell.Within, Cell.objs, Cell.size, Cell.pos, Cell.data]; positivity
  | case3 o1 o2 os l data sizesq h sp ih1 ih2 =>
    rw [buildCell, if_pos h]
    have hs := splitData_perm A g sm l data.pos
    refine ⟨⟨Real.sqrt_nonneg _, ?_⟩, ih1 (he.sub fun o ho => hs.mem_iff.1 (List.mem_append_left _ ho)),
      ih2 (he.sub fun o ho => hs.mem_iff.1 (List.mem_append_right _ ho))⟩
    intro o ho
    have hp := ((buildCell_perm A g sm (m * m) sp.1).append (buildCell_perm A g sm (m * m) sp.2)).trans hs
    have := he l (fun _ h => h) o (hp.mem_iff.1 ho)
    show dist o.pos (g.mean l) ≤ Real.sqrt sizesq + (m + γ)
    have e : sizesq = calcSizeSq g (g.mean l) l := rfl
    rw [e]
    linarith
  | case4 o1 o2 os l data sizesq h =>
    rw [buildCell, if_neg h]
    refine ⟨le_refl _, ?_⟩
    intro o ho
    have h1 := he l (fun _ h => h) o ho
    have h2 : Real.sqrt (calcSizeSq g (g.mean l) l) ≤ m := by
      rw [Real.sqrt_le_left hm, sq]
      exact not_lt.1 h
    show dist o.pos (g.mean l) ≤ 0 + (m + γ)
    linarith

theorem buildField_nearGood [PseudoMetricSpace P] (A : StdAlg P) (g : Geom P) (fp : FieldParams)
    (hm : 0 ≤ fp.minsize) {γ : ℝ} (hγ : 0 ≤ γ) (l : List (Obj P)) (he : g.Excess γ l) (hw : ∀ o ∈ l, 0 < o.w) :
    ∀ c ∈ (buildField A g fp l).cells, NearGood (fp.minsize + γ) c := by
  intro c hc
  have hobj : ∀ o ∈ c.objs, o ∈ l := by
    intro o ho
    rw [← (buildField_objs A g fp l).mem_iff]
    exact List.mem_flatMap.2 ⟨c, hc, ho⟩
  refine ⟨?_, fun o ho => hw o (hobj o ho)⟩
  simp only [buildField, List.mem_map] at hc
  obtain ⟨s, hs, rfl⟩ := hc
  exact ⟨buildCell_allWithin A g fp.sm hm hγ s (he.sub fun o ho => hobj o ((buildCell_perm A g _ _ s).mem_iff.2 ho)),
    buildCell_sumsOK A g fp.sm _ s (topCells_ne_nil A g fp.sm _ fp.mintop fp.maxtop l s hs)⟩

/-- Fields judged too far apart or too close. -/
theorem sep_far_within [PseudoMetricSpace P] {p : Params} {f1 f2 : Field P} {γ : ℝ}
    (h : fieldsTooFar (logBin P) (plainMetric P) p f1 f2) {x y : P} (h1 : 0 ≤ f1.size) (h2 : 0 ≤ f2.size)
    (hx : dist x f1.center ≤ f1.size + γ) (hy : dist y f2.center ≤ f2.size + γ) :
    dist x y < p.minsep + 2 * γ ∨ p.maxsep - 2 * γ ≤ dist x y := by
  have hd := abs_le.1 (dist_near hx hy)
  have hr0 : 0 ≤ dist f1.center f2.center := dist_nonneg
  simp only [fieldsTooFar, plainMetric, logBin, false_or, and_true] at h
  rcases h with ⟨_, h2, h3⟩ | ⟨_, h3⟩
  · have : dist f1.center f2.center < p.minsep - (f1.size + f2.size) :=
      lt_of_pow_lt_pow_left₀ 2 (by linarith) h3
    left; linarith
  · have : p.maxsep + (f1.size + f2.size) ≤ dist f1.center f2.center := le_of_sq_le_sq h3 hr0
    right; linarith

/-- A separation below `hi` or above `lo`, up to `δ`. -/
theorem outsideLog_of {p : Params} (hp : LogParams p) {δ d : ℝ} (hδ : 0 ≤ δ)
    (h : d ≤ p.minsep + δ ∨ p.maxsep - δ ≤ d) : OutsideLog p δ d := by
  have hb := hp.b
  rcases h with h | h
  · have : p.minsep * 1 ≤ p.minsep * Real.exp p.b :=
      mul_le_mul_of_nonneg_left (Real.one_le_exp hb) hp.minsep.le
    refine ⟨min d p.minsep, ?_, Or.inl ((min_le_right _ _).trans (by linarith))⟩
    rcases min_cases d p.minsep with ⟨h1, h2⟩ | ⟨h1, h2⟩ <;> rw [h1]
    · simp [hδ]
    · rw [abs_of_nonneg (by linarith)]; linarith
  · have : p.maxsep * Real.exp (-(p.b + p.b ^ 2)) ≤ p.maxsep * 1 :=
      mul_le_mul_of_nonneg_left (Real.exp_le_one_iff.2 (by nlinarith)) hp.maxsep_pos.le
    refine ⟨max d p.maxsep, ?_, Or.inr (le_trans (by linarith) (le_max_right _ _))⟩
    rcases max_cases d p.maxsep with ⟨h1, h2⟩ | ⟨h1, h2⟩ <;> rw [h1]
    · simp [hδ]
    · rw [abs_sub_comm, abs_of_nonneg (by linarith)]; linarith

/-- Log bins, cross, with sizes that understate the distances by at most `γ`. -/
theorem cross_log_excess [PseudoMetricSpace P] (A1 A2 : StdAlg P) (g : Geom P) (fp1 fp2 : FieldParams)
    {m γ : ℝ} (hm : 0 ≤ m) (hγ : 0 ≤ γ) (h1 : fp1.minsize = m) (h2 : fp2.minsize = m)
    {p : Params} (hp : LogParams p) (l1 l2 : List (Obj P)) (e1 : g.Excess γ l1) (e2 : g.Excess γ l2)
    (hw1 : ∀ o ∈ l1, 0 < o.w) (hw2 : ∀ o ∈ l2, 0 < o.w) :
    ∃ es, processCross (logBin P) (plainMetric P) p (buildField A1 g fp1 l1) (buildField A2 g fp2 l2)
        = some es ∧
      (∀ k, ∀ q ∈ pairsAt es k,
        NearLogBin p (p.b + p.b ^ 2) p.b (2 * (m + γ)) k (dist q.1.pos q.2.pos)) ∧
      ∃ D, pairsOf es + D = crossPairs l1 l2 ∧ ∀ q ∈ D, OutsideLog p (2 * (m + γ)) (dist q.1.pos q.2.pos) := by
  have g1 := buildField_nearGood A1 g fp1 (h1 ▸ hm) hγ l1 e1 hw1
  have g2 := buildField_nearGood A2 g fp2 (h2 ▸ hm) hγ l2 e2 hw2
  rw [h1] at g1
  rw [h2] at g2
  have hδ : 0 ≤ m + γ := by linarith
  unfold processCross
  split
  · rename_i hf
    refine ⟨[], rfl, ?_, crossPairs l1 l2, by simp, ?_⟩
    · intro k q hq; simp [pairsAt] at hq
    · intro q hq
      simp only [crossPairs, Multiset.mem_product, Multiset.mem_coe] at hq
      apply outsideLog_of hp (by linarith)
      rcases sep_far_within (γ := γ) hf (Real.sqrt_nonneg _) (Real.sqrt_nonneg _) (e1 l1 (fun _ h => h) _ hq.1)
        (e2 l2 (fun _ h => h) _ hq.2) with h | h
      · left; linarith
      · right; linarith
  · obtain ⟨es, hes⟩ := crossLoop_total (decide11 (logBin P) (plainMetric P) p false) (NearGood (m + γ))
      (NearGood (m + γ)) (hered_nearGood _) (hered_nearGood _)
      (fun a b s1 s2 ha hb he => log_safeSplit_nonneg p false a b s1 s2 ha.1.1.within.1 hb.1.1.within.1 he) _ _ g1 g2
    obtain ⟨D, hD, he, hd⟩ := crossLoop_covers (decide11 (logBin P) (plainMetric P) p false)
      (decide11_honest _ _ _ _) (NearGood (m + γ)) (NearGood (m + γ)) (hered_nearGood _) (hered_nearGood _) _ _
      g1 g2 es hes
    refine ⟨es, hes, ?_, D, ?_, ?_⟩
    · intro k q hq
      obtain ⟨e, hmem, rfl, q1, q2⟩ := mem_pairsAt hq
      obtain ⟨a, b, qa, qb, hab⟩ := he e hmem
      obtain ⟨e1, e2⟩ := decide11_honest _ _ _ _ a b e hab
      rw [e1] at q1
      rw [e2] at q2
      exact log_direct_within hp hδ qa.1.1.within qb.1.1.within hab q1 q2
    · rw [hD]
      exact crossPairs_perm (buildField_objs A1 g fp1 l1) (buildField_objs A2 g fp2 l2)
    · intro q hq
      obtain ⟨a, b, qa, qb, hab, q1, q2⟩ := hd q hq
      obtain ⟨d', hd, h⟩ := log_drop_within hp hδ qa.1.1.within qb.1.1.within qa.w_ne qb.w_ne hab q1 q2
      exact ⟨d', hd, h.imp le_of_lt id⟩

/-- Log bins, auto, with sizes that understate the distances by at most `γ`. -/
theorem auto_log_excess [PseudoMetricSpace P] (A : StdAlg P) (g : Geom P) (fp : FieldParams)
    (hm : 0 ≤ fp.minsize) {γ : ℝ} (hγ : 0 ≤ γ) {p : Params} (hp : LogParams p) (l : List (Obj P))
    (e : g.Excess γ l) (hw : ∀ o ∈ l, 0 < o.w) :
    ∃ es, processAuto (decide11 (logBin P) (plainMetric P) p false) p (buildField A g fp l).cells = some es ∧
      (∀ k, ∀ q ∈ pairsAt es k,
        NearLogBin p (p.b + p.b ^ 2) p.b (2 * (fp.minsize + γ)) k (dist q.1.pos q.2.pos)) ∧
      ∃ D : Multiset (Obj P × Obj P), ((pairsOf es + D).map fun q => s(q.1, q.2)) =
        (autoPairs l).map (fun q => s(q.1, q.2)) ∧
        ∀ q ∈ D, OutsideLog p (2 * (fp.minsize + γ)) (dist q.1.pos q.2.pos) := by
  have g1 := buildField_nearGood A g fp hm hγ l e hw
  have hδ : 0 ≤ fp.minsize + γ := by linarith
  obtain ⟨es, hes⟩ := processAuto_total (decide11 (logBin P) (plainMetric P) p false) p hp.minsep.le
    (NearGood (fp.minsize + γ)) (hered_nearGood _)
    (fun a b s1 s2 ha hb he => log_safeSplit_nonneg p false a b s1 s2 ha.1.1.within.1 hb.1.1.within.1 he) _ g1
  obtain ⟨D, D2, hD, he, hd, hd2⟩ := processAuto_covers (decide11 (logBin P) (plainMetric P) p false)
    (decide11_honest _ _ _ _) p (NearGood (fp.minsize + γ)) (hered_nearGood _) _ g1 es hes
  refine ⟨es, hes, ?_, D + D2, ?_, ?_⟩
  · intro k q hq
    obtain ⟨e, hmem, rfl, q1, q2⟩ := mem_pairsAt hq
    obtain ⟨a, b, qa, qb, hab⟩ := he e hmem
    obtain ⟨e1, e2⟩ := decide11_honest _ _ _ _ a b e hab
    rw [e1] at q1
    rw [e2] at q2
    exact log_direct_within hp hδ qa.1.1.within qb.1.1.within hab q1 q2
  · rw [← add_assoc, hD]
    exact autoPairs_sym_perm (buildField_objs A g fp l)
  · intro q hq
    rcases Multiset.mem_add.1 hq with hq | hq
    · obtain ⟨a, b, qa, qb, hab, q1, q2⟩ := hd q hq
      obtain ⟨d', hd, h⟩ := log_drop_within hp hδ qa.1.1.within qb.1.1.within qa.w_ne qb.w_ne hab q1 q2
      exact ⟨d', hd, h.imp le_of_lt id⟩
    · obtain ⟨c, qc, h, q1, q2⟩ := hd2 q hq
      rcases h with h | h
      · exact (qc.w_ne h).elim
      · apply outsideLog_of hp (by linarith)
        left
        have t1 := qc.1.1.within.2 _ q1
        have t2 := qc.1.1.within.2 _ q2
        have := dist_triangle_right q.1.pos q.2.pos c.pos
        have e : (0.5 : ℝ) * p.minsep = p.minsep / 2 := by norm_num; ring
        linarith

/-! ### Arcs -/

/-- Chord and arc. -/
theorem chord_arc {x y : EuclideanSpace ℝ (Fin 3)} (hx : ‖x‖ = 1) (hy : ‖y‖ = 1) :
    ‖x - y‖ = 2 * Real.sin (InnerProductGeometry.angle x y / 2) := by
  have h0 := InnerProductGeometry.angle_nonneg x y
  have h1 := InnerProductGeometry.angle_le_pi x y
  have hs : 0 ≤ Real.sin (InnerProductGeometry.angle x y / 2) :=
    Real.sin_nonneg_of_nonneg_of_le_pi (by linarith) (by linarith)
  have hc : Real.cos (InnerProductGeometry.angle x y) = inner ℝ x y := by
    have := InnerProductGeometry.cos_angle_mul_norm_mul_norm x y
    simpa [hx, hy] using this
  rw [← sq_eq_sq₀ (norm_nonneg _) (by linarith), norm_sub_sq_real, hx, hy, ← hc]
  have := Real.cos_two_mul (InnerProductGeometry.angle x y / 2)
  rw [mul_div_cancel₀ _ (two_ne_zero)] at this
  have h2 := Real.sin_sq_add_cos_sq (InnerProductGeometry.angle x y / 2)
  nlinarith

theorem arc_eq {x y : EuclideanSpace ℝ (Fin 3)} (hx : ‖x‖ = 1) (hy : ‖y‖ = 1) :
    2 * Real.arcsin (‖x - y‖ / 2) = InnerProductGeometry.angle x y := by
  have h0 := InnerProductGeometry.angle_nonneg x y
  have h1 := InnerProductGeometry.angle_le_pi x y
  rw [chord_arc hx hy, mul_div_cancel_left₀ _ (two_ne_zero), Real.arcsin_sin (by linarith) (by linarith)]
  ring

/-- The great-circle distance. -/
noncomputable instance : PseudoMetricSpace S2 where
  dist p q := InnerProductGeometry.angle p.vec q.vec
  dist_self p := InnerProductGeometry.angle_self (by intro h; have := p.unit; rw [h, norm_zero] at this; exact zero_ne_one this)
  dist_comm p q := InnerProductGeometry.angle_comm _ _
  dist_triangle p q r := InnerProductGeometry.angle_le_angle_add_angle _ _ _

theorem S2.dist_eq (p q : S2) : dist p q = InnerProductGeometry.angle p.vec q.vec := rfl

theorem arcMetric_eq : arcMetric = plainMetric S2 := by
  have : ∀ p q : S2, 2 * Real.arcsin (‖p.vec - q.vec‖ / 2) = dist p q := fun p q => arc_eq p.unit q.unit
  simp only [arcMetric, plainMetric, this]

/-- By how much an arc exceeds a chord of length `R`. -/
noncomputable def arcGap (R : ℝ) : ℝ := 2 * Real.arcsin (R / 2) - R

theorem arcGap_mono {x R : ℝ} (h0 : 0 ≤ x) (h : x ≤ R) (hR : R ≤ 2) : arcGap x ≤ arcGap R := by
  unfold arcGap
  have e1 := Real.sin_arcsin (x := x / 2) (by linarith) (by linarith)
  have e2 := Real.sin_arcsin (x := R / 2) (by linarith) (by linarith)
  have hm := Real.monotone_arcsin (show x / 2 ≤ R / 2 by linarith)
  have hl := Real.lipschitzWith_sin.dist_le_mul (Real.arcsin (R / 2)) (Real.arcsin (x / 2))
  rw [Real.dist_eq, Real.dist_eq, e1, e2, abs_of_nonneg (by linarith), abs_of_nonneg (by linarith)] at hl
  simp at hl
  linarith

theorem arcGap_nonneg {R : ℝ} (h0 : 0 ≤ R) (hR : R ≤ 2) : 0 ≤ arcGap R := by
  have := arcGap_mono le_rfl h0 hR
  simpa [arcGap] using this

/-- The catalogue on the sphere seen as a catalogue in space. -/
def Obj.toVec (o : Obj S2) : Obj (EuclideanSpace ℝ (Fin 3)) :=
  { pos := o.pos.vec, w := o.w, wk := o.wk, idx := o.idx, wpos := o.wpos }

theorem toVec_mean (l : List (Obj S2)) (h : l ≠ []) : (S2.mean l).vec = wmean sphereNormalize (l.map Obj.toVec) := by
  have e1 : (l.map Obj.toVec).map Obj.wpos = l.map Obj.wpos := by simp [Function.comp_def, Obj.toVec]
  have e2 : (l.map Obj.toVec).map (fun o => o.wpos • o.pos) = l.map (fun o => o.wpos • o.pos.vec) := by
    simp [Function.comp_def, Obj.toVec]
  unfold S2.mean wmean
  simp only [e1, e2]
  split
  · rfl
  · match l, h with
    | o :: l, _ => rfl

theorem arc_le (p q : S2) {R : ℝ} (h : ‖p.vec - q.vec‖ ≤ R) (hR : R ≤ 2) :
    dist p q ≤ ‖p.vec - q.vec‖ + arcGap R := by
  have := arcGap_mono (norm_nonneg _) h hR
  rw [S2.dist_eq, ← arc_eq p.unit q.unit]
  unfold arcGap at this ⊢
  linarith

theorem s2_excess_of {R : ℝ} (hR : R ≤ 2) (l : List (Obj S2))
    (h : ∀ l' : List (Obj S2), (∀ o ∈ l', o ∈ l) → ∀ o ∈ l', ‖o.pos.vec - (S2.mean l').vec‖ ≤ R) :
    s2Geom.Excess (arcGap R) l := by
  intro l' hl o ho
  refine (arc_le _ _ (h l' hl o ho) hR).trans ?_
  have : ‖o.pos.vec - (S2.mean l').vec‖ ≤ Real.sqrt (calcSizeSq s2Geom (s2Geom.mean l') l') := by
    apply Real.le_sqrt_of_sq_le
    have := le_calcSizeSq s2Geom (s2Geom.mean l') l' ho
    rw [norm_sub_rev]
    exact this
  linarith!

/-- Any catalogue. -/
theorem s2_excess_two (l : List (Obj S2)) : s2Geom.Excess (arcGap 2) l := by
  apply s2_excess_of le_rfl
  intro l' _ o _
  refine (norm_sub_le _ _).trans ?_
  rw [o.pos.unit, (S2.mean l').unit]
  norm_num

/-- A catalogue of small extent. -/
theorem s2_excess_small {R : ℝ} (hR : R < Real.sqrt 2) (l : List (Obj S2)) (hw : ∀ o ∈ l, 0 ≤ o.wpos)
    (h : ∀ o ∈ l, ∀ o' ∈ l, ‖o.pos.vec - o'.pos.vec‖ ≤ R) : s2Geom.Excess (arcGap R) l := by
  have h2 : Real.sqrt 2 ≤ 2 := by rw [Real.sqrt_le_left (by norm_num)]; norm_num
  apply s2_excess_of (by linarith)
  intro l' hl o ho
  have hne : l' ≠ [] := List.ne_nil_of_mem ho
  rw [toVec_mean l' hne, ← dist_eq_norm, dist_comm]
  apply (sphereGeom_hull hR).mean_dist (l'.map Obj.toVec) (by simpa using hne) _ o.pos.vec o.pos.unit R le_rfl
  · intro o' ho'
    obtain ⟨x, hx, rfl⟩ := List.mem_map.1 ho'
    rw [dist_eq_norm]
    exact h x (hl x hx) o (hl o ho)
  · intro o' ho'
    obtain ⟨x, hx, rfl⟩ := List.mem_map.1 ho'
    exact ⟨x.pos.unit, hw x (hl x hx)⟩

end TreeCorr
