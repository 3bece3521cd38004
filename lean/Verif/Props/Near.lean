import Verif.Proofs.NearHull
import Verif.Props.Trivial

/-!
C12: `count_near` and `get_near` give exactly the rows within `sep` of the point.
-/

namespace TreeCorr
open Classical List
noncomputable section
variable {P : Type}

/-- The row numbers of the catalogue, in order, whose position satisfies `q`. -/
def rowsWhere (rows : List (Obj P)) (q : P → Prop) : List ℕ :=
  (List.range rows.length).filter fun i => ∃ o, rows[i]? = some o ∧ q o.pos

/-- The index kept in the tree is the row number. -/
def Numbered (rows : List (Obj P)) : Prop := ∀ i (o : Obj P), rows[i]? = some o → o.idx = i

theorem filter_idx_aux (rows : List (Obj P)) (q : P → Prop) (k : ℕ) (h : ∀ i (o : Obj P), rows[i]? = some o → o.idx = k + i) :
    (rows.filter (fun o => q o.pos)).map Obj.idx
      = ((List.range rows.length).filter fun i => ∃ o, rows[i]? = some o ∧ q o.pos).map (k + ·) := by
  induction rows generalizing k with
  | nil => simp
  | cons o rows ih =>
    have h0 : o.idx = k := h 0 o rfl
    have h1 := ih (k + 1) (fun i o' ho' => by rw [h (i + 1) o' (by simpa using ho')]; omega)
    rw [List.length_cons, List.range_succ_eq_map, List.filter_cons, List.filter_cons, List.filter_map]
    have e : ((List.range rows.length).filter ((fun i => decide (∃ o', (o :: rows)[i]? = some o' ∧ q o'.pos)) ∘ Nat.succ))
        = (List.range rows.length).filter fun i => decide (∃ o', rows[i]? = some o' ∧ q o'.pos) := by
      congr 1
    rw [e]
    have e0 : (∃ o', (o :: rows)[0]? = some o' ∧ q o'.pos) ↔ q o.pos := by simp
    have em : ∀ l : List ℕ, (l.map Nat.succ).map (k + ·) = l.map (k + 1 + ·) := by
      intro l; rw [List.map_map]; congr 1; funext i; simp; omega
    by_cases hq : q o.pos
    · rw [if_pos (by simpa using hq), if_pos (by simpa using e0.2 hq)]
      rw [List.map_cons, List.map_cons, h1, em, h0]
      simp
    · rw [if_neg (by simpa using hq), if_neg (by simpa using fun h => hq (e0.1 h)), h1, em]

theorem filter_idx (rows : List (Obj P)) (hr : Numbered rows) (q : P → Prop) :
    (rows.filter (fun o => q o.pos)).map Obj.idx = rowsWhere rows q := by
  have := filter_idx_aux rows q 0 (fun i o h => by rw [hr i o h]; omega)
  rw [this]
  simp [rowsWhere]

theorem sort_rowsWhere (rows : List (Obj P)) (hr : Numbered rows) (q : P → Prop) (ind : List ℕ)
    (h : ind ~ (rows.filter (fun o => q o.pos)).map Obj.idx) : ind.mergeSort = rowsWhere rows q := by
  rw [filter_idx rows hr] at h
  refine Perm.eq_of_pairwise' (r := (· ≤ ·)) (pairwise_mergeSort' (· ≤ ·) ind) ?_ ((mergeSort_perm _ _).trans h)
  exact ((List.pairwise_lt_range).imp le_of_lt).filter _

variable [PseudoMetricSpace P]

/-- **C12, partial.** Fields built with `min_size = 0`: for every catalogue, tree, point and separation,
`get_near` returns the numbers of exactly the rows at distance at most `sep`, each once, in order, and `count_near`
their number.
Missing: `min_size > 0` (`near_min_size_partial`), where the answer differs at distance exactly `sep`
(`near_tie_wrong`), and where on the sphere the answer can be undefined for large `sep` (`near_sphere_wrong`). -/
theorem near_exact_partial (A : StdAlg P) (g : Geom P) (hg : g.Dominates) (fp : FieldParams) (hm : fp.minsize = 0)
    (rows : List (Obj P)) (hr : Numbered rows) (p : P) (sep : ℝ) (hs : 0 ≤ sep) :
    (buildField A g fp rows).getNearPy fp.minsize rows p sep = some (rowsWhere rows (fun x => dist x p ≤ sep)) ∧
    (buildField A g fp rows).countNearPy fp.minsize rows p sep
      = some (rowsWhere rows (fun x => dist x p ≤ sep)).length := by
  have hb := buildField_bounded A g hg fp hm.ge rows
  rw [hm] at hb
  obtain ⟨h1, h2⟩ := getNearArr_eq (p := p) hs le_rfl (buildField A g fp rows)
    (fun c hc => ⟨(hb c hc).1, (hb c hc).2, inBall_zero sep c (hb c hc).1 (hb c hc).2⟩)
  have key : ((buildField A g fp rows).cells.flatMap (fun c => c.nearObjs p sep))
      ~ rows.filter (fun o => dist o.pos p ≤ sep) := by
    have e : (buildField A g fp rows).cells.flatMap (fun c => c.nearObjs p sep)
        = ((buildField A g fp rows).cells.flatMap Cell.objs).filter (fun o => dist o.pos p ≤ sep) := by
      rw [List.filter_flatMap]
      refine List.flatMap_congr fun c hc => ?_
      have hf := nearObjs_filter (p := p) (sep := sep) (fun o : Obj P => dist o.pos p ≤ sep) (fun o h => h) c (hb c hc).1 le_rfl
      rw [add_zero] at hf
      rw [← hf]
      symm
      rw [List.filter_eq_self]
      have : ∀ c : Cell P, c.Bounded 0 → ∀ o ∈ c.nearObjs p sep, dist o.pos p ≤ sep := by
        intro c
        induction c with
        | leaf d os =>
          intro hb o ho
          simp only [Cell.nearObjs] at ho
          split at ho
          · have := hb o ho
            have := dist_triangle o.pos d.pos p
            linarith
          · simp at ho
        | node d s l r ihl ihr =>
          intro hb o ho
          simp only [Cell.nearObjs] at ho
          split at ho
          · simp at ho
          · rcases List.mem_append.1 ho with ho | ho
            · exact ihl hb.2.2.1 o ho
            · exact ihr hb.2.2.2 o ho
      intro o ho
      simpa using this c (hb c hc).1 o ho
    rw [e]
    exact (buildField_objs A g fp rows).filter _
  constructor
  · unfold Field.getNearPy
    rw [if_pos hm, h1, Option.map_some, sort_rowsWhere rows hr (fun x => dist x p ≤ sep) _ (key.map Obj.idx)]
  · unfold Field.countNearPy
    rw [if_pos hm, h2, key.length_eq, ← filter_idx rows hr, List.length_map]

theorem mapM_mask (rows : List (Obj P)) (hr : Numbered rows) (p : P) (sep : ℝ) (os : List (Obj P)) (h : ∀ o ∈ os, o ∈ rows) :
    (os.map Obj.idx).mapM (nearMask rows p sep) = some (os.map fun o => decide (dist o.pos p ^ 2 < sep ^ 2)) := by
  induction os with
  | nil => rfl
  | cons o os ih =>
    rw [List.map_cons, List.mapM_cons, ih (fun o ho => h o (List.mem_cons_of_mem _ ho))]
    obtain ⟨i, hi, e⟩ := List.getElem_of_mem (h o List.mem_cons_self)
    have e' : rows[i]? = some o := by rw [List.getElem?_eq_getElem hi, e]
    have : nearMask rows p sep o.idx = some (decide (dist o.pos p ^ 2 < sep ^ 2)) := by
      rw [hr i o e', nearMask, e']; rfl
    rw [this]
    rfl

theorem zip_filter (os : List (Obj P)) (q : Obj P → Bool) :
    (((os.map Obj.idx).zip (os.map q)).filter Prod.snd).map Prod.fst = (os.filter q).map Obj.idx := by
  induction os with
  | nil => rfl
  | cons o os ih =>
    simp only [List.map_cons, List.zip_cons_cons, List.filter_cons]
    cases q o <;> simp [ih]

/-- **C12, partial.** Fields built with `min_size > 0`, position weights not negative: `get_near` returns the numbers of
exactly the rows at distance *less than* `sep`, each once, in order, and `count_near` their number.  This is for
flat and 3d positions, and on the sphere if `sep + min_size` (a chord) is below `√2` (`geom_hull`).
Missing: rows at distance exactly `sep` (`near_tie_wrong`), larger `sep` on the sphere (`near_sphere_wrong`). -/
theorem near_min_size_partial (A : StdAlg P) (g : Geom P) (hg : g.Dominates) {U : P → Prop} {R : ℝ} (hh : g.Hull U R)
    (fp : FieldParams) (hm : 0 < fp.minsize) (rows : List (Obj P)) (hr : Numbered rows)
    (hU : ∀ o ∈ rows, U o.pos ∧ 0 ≤ o.wpos) (p : P) (sep : ℝ) (hs : 0 ≤ sep) (hR : sep + fp.minsize ≤ R) :
    (buildField A g fp rows).getNearPy fp.minsize rows p sep = some (rowsWhere rows (fun x => dist x p < sep)) ∧
    (buildField A g fp rows).countNearPy fp.minsize rows p sep
      = some (rowsWhere rows (fun x => dist x p < sep)).length := by
  have hb := buildField_bounded A g hg fp hm.le rows
  have hi := buildField_inBall A g hg hh fp hm.le rows hU
  have hs1 : 0 ≤ sep + fp.minsize := by linarith
  obtain ⟨h1, h2⟩ := getNearArr_eq (p := p) hs1 hR (buildField A g fp rows)
    (fun c hc => ⟨(hb c hc).1, (hb c hc).2, hi c hc⟩)
  set os := (buildField A g fp rows).cells.flatMap (fun c => c.nearObjs p (sep + fp.minsize)) with hos
  have hmem : ∀ o ∈ os, o ∈ rows := by
    intro o ho
    rw [← (buildField_objs A g fp rows).mem_iff]
    obtain ⟨c, hc, ho⟩ := List.mem_flatMap.1 ho
    exact List.mem_flatMap.2 ⟨c, hc, (nearObjs_sublist p _ c).subset ho⟩
  have hq : ∀ o : Obj P, decide (dist o.pos p ^ 2 < sep ^ 2) = decide (dist o.pos p < sep) := by
    intro o
    rw [decide_eq_decide, ← not_le, ← not_le (a := sep), not_iff_not, sq_le_iff hs dist_nonneg]
  have key : os.filter (fun o => decide (dist o.pos p ^ 2 < sep ^ 2)) ~ rows.filter (fun o => dist o.pos p < sep) := by
    have e : os.filter (fun o => decide (dist o.pos p ^ 2 < sep ^ 2))
        = ((buildField A g fp rows).cells.flatMap Cell.objs).filter (fun o => decide (dist o.pos p < sep)) := by
      simp only [hq]
      exact flatMap_filter _ _ _ _ (fun c hc => nearObjs_filter (fun o : Obj P => dist o.pos p < sep)
        (fun o h => le_of_lt h) c (hb c hc).1 hm.le)
    rw [e]
    exact (buildField_objs A g fp rows).filter _
  have main : (buildField A g fp rows).getNearPy fp.minsize rows p sep
      = some (rowsWhere rows (fun x => dist x p < sep)) := by
    unfold Field.getNearPy
    rw [if_neg hm.ne', h1, Option.bind_some, mapM_mask rows hr p sep os hmem, Option.map_some, zip_filter,
      sort_rowsWhere rows hr (fun x => dist x p < sep) _ (key.map Obj.idx)]
  refine ⟨main, ?_⟩
  unfold Field.countNearPy
  rw [if_neg hm.ne', main, Option.map_some]

/-- The geometries to which `near_min_size_partial` applies. -/
theorem geom_hull :
    (∀ R, (euclidGeom 2).Hull (fun _ => True) R) ∧ (∀ R, (euclidGeom 3).Hull (fun _ => True) R) ∧
    (∀ R, R < Real.sqrt 2 → sphereGeom.Hull (fun p => ‖p‖ = 1) R) :=
  ⟨euclidGeom_hull 2, euclidGeom_hull 3, fun _ h => sphereGeom_hull h⟩

/-- **C12.** If no row is at distance exactly `sep`, the answers do not depend on how the tree was built: fields with
any two values of `min_size` give the rows within `sep`. -/
theorem near_independent (A : StdAlg P) (g : Geom P) (hg : g.Dominates) {U : P → Prop} {R : ℝ} (hh : g.Hull U R)
    (fp : FieldParams) (hm : 0 ≤ fp.minsize) (rows : List (Obj P)) (hr : Numbered rows)
    (hU : ∀ o ∈ rows, U o.pos ∧ 0 ≤ o.wpos) (p : P) (sep : ℝ) (hs : 0 ≤ sep) (hR : sep + fp.minsize ≤ R)
    (ht : ∀ o ∈ rows, dist o.pos p ≠ sep) :
    (buildField A g fp rows).getNearPy fp.minsize rows p sep = some (rowsWhere rows (fun x => dist x p ≤ sep)) ∧
    (buildField A g fp rows).countNearPy fp.minsize rows p sep
      = some (rowsWhere rows (fun x => dist x p ≤ sep)).length := by
  rcases hm.eq_or_lt with h | h
  · exact near_exact_partial A g hg fp h.symm rows hr p sep hs
  · have e : rowsWhere rows (fun x => dist x p ≤ sep) = rowsWhere rows (fun x => dist x p < sep) := by
      unfold rowsWhere
      refine List.filter_congr fun i _ => ?_
      rw [decide_eq_decide]
      constructor
      · rintro ⟨o, h1, h2⟩; exact ⟨o, h1, lt_of_le_of_ne h2 (ht o (List.mem_of_getElem? h1))⟩
      · rintro ⟨o, h1, h2⟩; exact ⟨o, h1, h2.le⟩
    rw [e]
    exact near_min_size_partial A g hg hh fp h rows hr hU p sep hs hR

theorem numbered_one (o : Obj P) (h : o.idx = 0) : Numbered [o] := by
  intro i o' h'
  match i with
  | 0 => simp at h'; rw [← h', h]
  | i + 1 => simp at h'

/-- **C12, negation.** A row at distance exactly `sep`: found in a field built with `min_size = 0`, not found
in one built with `min_size = 1`. -/
theorem near_tie_wrong : ∃ (rows : List (Obj (EuclideanSpace ℝ (Fin 2)))) (p : EuclideanSpace ℝ (Fin 2)),
    ∀ (A : StdAlg _) (fp fp' : FieldParams), fp.minsize = 0 → fp'.minsize = 1 →
    (buildField A (euclidGeom 2) fp rows).getNearPy fp.minsize rows p 1 = some [0] ∧
    (buildField A (euclidGeom 2) fp' rows).getNearPy fp'.minsize rows p 1 = some [] := by
  refine ⟨[ob 1 0 0], pt 0 0, fun A fp fp' h h' => ⟨?_, ?_⟩⟩
  · rw [(near_exact_partial A _ (euclidGeom_dominates 2) fp h _ (numbered_one _ rfl) _ 1 zero_le_one).1]
    congr 1
    have : dist (pt 1 0) (pt 0 0) ≤ 1 := by rw [dist_pt_x]; norm_num
    simp [rowsWhere, this]
  · rw [(near_min_size_partial A _ (euclidGeom_dominates 2) (euclidGeom_hull 2 2) fp' (by rw [h']; norm_num) _
      (numbered_one _ rfl) (by simp [ob]) _ 1 zero_le_one (by rw [h']; norm_num)).1]
    congr 1
    have : ¬ dist (ob 1 0 0).pos (pt 0 0) < 1 := by rw [ob_pos, dist_pt_x]; norm_num
    simp only [rowsWhere, List.length_cons, List.length_nil, List.filter_eq_nil_iff]
    intro i hi
    simp only [zero_add, List.mem_range, Nat.lt_one_iff] at hi
    subst hi
    simpa using this

/-- A case of `near_exact_partial` and `near_min_size_partial`: two rows, one of them near. -/
example (A : StdAlg _) (fp : FieldParams) (h : fp.minsize = 0 ∨ fp.minsize = 1) :
    (buildField A (euclidGeom 2) fp [ob 0 0 0, ob 3 0 1]).getNearPy fp.minsize [ob 0 0 0, ob 3 0 1] (pt 2 0) (3 / 2)
      = some [1] := by
  have hd0 : dist (pt 0 0) (pt 2 0) = 2 := by rw [dist_pt_x]; norm_num
  have hd1 : dist (pt 3 0) (pt 2 0) = 1 := by rw [dist_pt_x]; norm_num
  have hr : Numbered [ob 0 0 0, ob 3 0 1] := by
    intro i o ho
    match i with
    | 0 => simp at ho; rw [← ho]; rfl
    | 1 => simp at ho; rw [← ho]; rfl
    | i + 2 => simp at ho
  rw [(near_independent A _ (euclidGeom_dominates 2) (euclidGeom_hull 2 3) fp (by rcases h with h | h <;> rw [h] <;> norm_num)
    _ hr (by simp [ob]) _ _ (by norm_num) (by rcases h with h | h <;> rw [h] <;> norm_num)
    (by simp only [List.mem_cons, List.not_mem_nil, or_false, forall_eq_or_imp, forall_eq, ob_pos, hd0, hd1]; norm_num)).1]
  congr 1
  have h2 : ¬ (2 : ℝ) ≤ 3 / 2 := by norm_num
  have h3 : (1 : ℝ) ≤ 3 / 2 := by norm_num
  simp [rowsWhere, List.range_succ, List.filter, hd0, hd1, h2, h3]

/-! A catalogue on the sphere for which the array of indices is not filled. -/

/-- Three rows: one of weight 2 at (1,0,0), two close to the opposite point. -/
def exSph : List (Obj (EuclideanSpace ℝ (Fin 3))) :=
  [{ pos := pt3 1 0 0, w := 2, wk := 0, idx := 0 }, ob3 (-40/41) (9/41) 0 1, ob3 (-40/41) (-9/41) 0 2]

theorem normSq_pt3 (x y z x' y' z' : ℝ) : sphereGeom.normSq (pt3 x y z) (pt3 x' y' z')
    = (x - x') ^ 2 + (y - y') ^ 2 + (z - z') ^ 2 := by
  simp only [sphereGeom, euclidGeom]
  rw [← dist_eq_norm, dist_pt3, Real.sq_sqrt (by positivity)]

theorem normalize_pt3_x (x : ℝ) (h : x ≠ 0) : sphereNormalize (pt3 x 0 0) = pt3 (|x|⁻¹ * x) 0 0 := by
  have e : ‖pt3 x 0 0‖ = |x| := by rw [norm_pt3]; simp [Real.sqrt_sq_eq_abs]
  unfold sphereNormalize
  rw [e, if_neg (by simpa using h)]
  ext i; fin_cases i <;> simp [pt3]

theorem exSph_mean : sphereGeom.mean exSph = pt3 1 0 0 := by
  have : sphereGeom.mean exSph = sphereNormalize (pt3 (1 / 82) 0 0) := by
    simp only [sphereGeom, wmean, exSph, ob3, List.map_cons, List.map_nil, List.sum_cons, List.sum_nil]
    rw [if_pos (by norm_num)]
    congr 1
    ext i; fin_cases i <;> norm_num [pt3]
  rw [this, normalize_pt3_x _ (by norm_num)]
  norm_num

theorem exSph_mean2 : sphereGeom.mean [ob3 (-40/41) (9/41) 0 1, ob3 (-40/41) (-9/41) 0 2] = pt3 (-1) 0 0 := by
  have : sphereGeom.mean [ob3 (-40/41) (9/41) 0 1, ob3 (-40/41) (-9/41) 0 2] = sphereNormalize (pt3 (-40/41) 0 0) := by
    simp only [sphereGeom, wmean, ob3, List.map_cons, List.map_nil, List.sum_cons, List.sum_nil]
    rw [if_pos (by norm_num)]
    congr 1
    ext i; fin_cases i <;> norm_num [pt3]
  rw [this, normalize_pt3_x _ (by norm_num)]
  norm_num

theorem exSph_size : calcSizeSq sphereGeom (pt3 1 0 0) exSph = 6642 / 1681 := by
  simp only [calcSizeSq, exSph, List.foldl, ob3, normSq_pt3]
  norm_num

theorem exSph_size2 : calcSizeSq sphereGeom (pt3 (-1) 0 0) [ob3 (-40/41) (9/41) 0 1, ob3 (-40/41) (-9/41) 0 2] = 82 / 1681 := by
  simp only [calcSizeSq, List.foldl, ob3, normSq_pt3]
  norm_num

theorem exSph_split : splitData (sortAlg _ 0) sphereGeom .mean exSph (pt3 1 0 0)
    = ([ob3 (-40/41) (9/41) 0 1, ob3 (-40/41) (-9/41) 0 2], [{ pos := pt3 1 0 0, w := 2, wk := 0, idx := 0 }]) := by
  have c0 : ∀ x y z, sphereGeom.coord 0 (pt3 x y z) = x := by intro x y z; simp [sphereGeom, euclidGeom, pt3]
  have c1 : ∀ x y z, sphereGeom.coord 1 (pt3 x y z) = y := by intro x y z; simp [sphereGeom, euclidGeom, pt3]
  have c2 : ∀ x y z, sphereGeom.coord 2 (pt3 x y z) = z := by intro x y z; simp [sphereGeom, euclidGeom, pt3]
  have hs : getSplit sphereGeom exSph = 0 := by
    have hn : sphereGeom.ndim = 3 := rfl
    simp only [getSplit, hn, boundRange, boundHi, boundLo, exSph, ob3, List.foldl, c0, c1, c2]
    norm_num
  have hc : splitCore (sortAlg _ 0) sphereGeom .mean exSph (pt3 1 0 0) 0 = (exSph.filter (fun o => decide (sphereGeom.coord 0 o.pos < 1))
      ++ exSph.filter (fun o => !decide (sphereGeom.coord 0 o.pos < 1)), exSph.countP (fun o => decide (sphereGeom.coord 0 o.pos < 1))) := by
    simp only [splitCore, sortAlg, c0]
  simp only [splitData, hs, hc]
  simp only [exSph, ob3, c0, List.countP_cons, List.countP_nil, List.filter_cons,
    List.filter_nil, List.length_cons, List.length_nil]
  norm_num

/-- **C12, negation on the sphere.** Unit vectors and positive weights, `min_size = 0.25`, `sep = 1.74` (chords): the
pass counting the rows within `sep + min_size` finds 3, the pass filling the array writes 1, and the
rest of the array is whatever the memory held.  The answer should have been row 0 alone. -/
theorem near_sphere_wrong : ∃ (rows : List (Obj (EuclideanSpace ℝ (Fin 3)))) (p : EuclideanSpace ℝ (Fin 3))
    (A : StdAlg _) (fp : FieldParams), Numbered rows ∧ (∀ o ∈ rows, ‖o.pos‖ = 1 ∧ 0 < o.w ∧ o.wpos = o.w) ∧ ‖p‖ = 1 ∧
    fp.minsize = 1 / 4 ∧
    (buildField A sphereGeom fp rows).countNear p (174 / 100 + fp.minsize) = 3 ∧
    (buildField A sphereGeom fp rows).getNear p (174 / 100 + fp.minsize) 3 = some [0] ∧
    (buildField A sphereGeom fp rows).getNearPy fp.minsize rows p (174 / 100) = none ∧
    (buildField A sphereGeom fp rows).countNearPy fp.minsize rows p (174 / 100) = none ∧
    rowsWhere rows (fun x => dist x p < 174 / 100) = [0] := by
  set fp : FieldParams := { minsize := 1 / 4, maxsize := 0, sm := .mean, mintop := 0, maxtop := 0 } with hfp
  have hm : fp.minsize = 1 / 4 := rfl
  have hf : (buildField (sortAlg _ 0) sphereGeom fp exSph).cells
      = [.node ⟨pt3 1 0 0, 3, 4, 0⟩ (Real.sqrt (6642 / 1681))
          (.leaf ⟨pt3 (-1) 0 0, 2, 2, 0⟩ [ob3 (-40/41) (9/41) 0 1, ob3 (-40/41) (-9/41) 0 2])
          (.leaf ⟨pt3 1 0 0, 1, 2, 0⟩ [{ pos := pt3 1 0 0, w := 2, wk := 0, idx := 0 }])] := by
    have ht : topCells (sortAlg _ 0) sphereGeom .mean (0 * 0) 0 0 exSph = [exSph] := by
      have h1 := exSph_mean
      have h2 := exSph_size
      simp only [exSph] at h1 h2 ⊢
      rw [topCells, h1, h2]
      norm_num
    have h2 : buildCell (sortAlg _ 0) sphereGeom .mean (1 / 4 * (1 / 4)) [ob3 (-40/41) (9/41) 0 1, ob3 (-40/41) (-9/41) 0 2]
        = .leaf ⟨pt3 (-1) 0 0, 2, 2, 0⟩ [ob3 (-40/41) (9/41) 0 1, ob3 (-40/41) (-9/41) 0 2] := by
      have hc : cellData sphereGeom [ob3 (-40/41) (9/41) 0 1, ob3 (-40/41) (-9/41) 0 2] = ⟨pt3 (-1) 0 0, 2, 2, 0⟩ := by
        simp only [cellData, exSph_mean2]
        norm_num [ob3]
      rw [buildCell, hc, if_neg]
      simp only [exSph_size2]
      norm_num
    have h3 : buildCell (sortAlg _ 0) sphereGeom .mean (1 / 4 * (1 / 4)) exSph
        = .node ⟨pt3 1 0 0, 3, 4, 0⟩ (Real.sqrt (6642 / 1681))
          (.leaf ⟨pt3 (-1) 0 0, 2, 2, 0⟩ [ob3 (-40/41) (9/41) 0 1, ob3 (-40/41) (-9/41) 0 2])
          (.leaf ⟨pt3 1 0 0, 1, 2, 0⟩ [{ pos := pt3 1 0 0, w := 2, wk := 0, idx := 0 }]) := by
      have hc : cellData sphereGeom exSph = ⟨pt3 1 0 0, 3, 4, 0⟩ := by
        simp only [cellData, exSph_mean]
        norm_num [exSph, ob3]
      have hs := exSph_size
      have hp := exSph_split
      simp only [exSph] at hc hs hp ⊢
      rw [buildCell, hc]
      simp only [hs, hp]
      rw [if_pos (by norm_num), h2]
      simp only [buildCell]
    simp only [buildField, hfp, ht, List.map_cons, List.map_nil, h3]
  have hs : Real.sqrt (6642 / 1681) < 199 / 100 := by
    rw [Real.sqrt_lt' (by norm_num)]; norm_num
  have hs0 : Real.sqrt (6642 / 1681) ≠ 0 := by
    rw [Real.sqrt_ne_zero']; norm_num
  have e199 : (174 / 100 + fp.minsize : ℝ) = 199 / 100 := by rw [hm]; norm_num
  have d2 : dist (pt3 (-1) 0 0) (pt3 1 0 0) = 2 := by
    rw [dist_pt3]; norm_num
    rw [show (4:ℝ) = 2 ^ 2 by norm_num, Real.sqrt_sq (by norm_num)]
  have hsq : (0:ℝ) ≤ (199 / 100 - Real.sqrt (6642 / 1681)) ^ 2 := sq_nonneg _
  have hcount : (buildField (sortAlg _ 0) sphereGeom fp exSph).countNear (pt3 1 0 0) (174 / 100 + fp.minsize) = 3 := by
    rw [e199]
    simp only [Field.countNear, hf, List.foldl, Cell.countNear, dist_self, if_neg hs0]
    rw [if_neg (by norm_num), if_pos ⟨by norm_num, hs, by simpa using hsq⟩]
  have hget : (buildField (sortAlg _ 0) sphereGeom fp exSph).getNear (pt3 1 0 0) (174 / 100 + fp.minsize) 3 = some [0] := by
    rw [e199]
    simp only [Field.getNear, hf, List.foldlM, Cell.getNear, dist_self, if_neg hs0, d2]
    norm_num
  have hpy : (buildField (sortAlg _ 0) sphereGeom fp exSph).getNearPy fp.minsize exSph (pt3 1 0 0) (174 / 100) = none := by
    unfold Field.getNearPy Field.getNearArr
    rw [if_neg (by rw [hm]; norm_num), hcount]
    simp only [hget]
    simp
  refine ⟨exSph, pt3 1 0 0, sortAlg _ 0, fp, ?_, ?_, ?_, rfl, hcount, hget, hpy, ?_, ?_⟩
  · intro i o ho
    match i with
    | 0 => simp [exSph] at ho; rw [← ho]
    | 1 => simp [exSph] at ho; rw [← ho]; rfl
    | 2 => simp [exSph] at ho; rw [← ho]; rfl
    | i + 3 => simp [exSph] at ho
  · intro o ho
    simp only [exSph, List.mem_cons, List.not_mem_nil, or_false] at ho
    rcases ho with rfl | rfl | rfl <;> (simp only [ob3, norm_pt3]; norm_num)
  · rw [norm_pt3]; norm_num
  · unfold Field.countNearPy
    rw [if_neg (by rw [hm]; norm_num), hpy]; rfl
  · have h1 : ¬ dist (pt3 (-40/41) (9/41) 0) (pt3 1 0 0) < 174 / 100 := by
      rw [dist_pt3, not_lt]
      apply Real.le_sqrt_of_sq_le
      norm_num
    have h2 : ¬ dist (pt3 (-40/41) (-9/41) 0) (pt3 1 0 0) < 174 / 100 := by
      rw [dist_pt3, not_lt]
      apply Real.le_sqrt_of_sq_le
      norm_num
    have h0 : (0:ℝ) < 174 / 100 := by norm_num
    simp only [not_lt] at h1 h2
    simp [rowsWhere, exSph, ob3, List.range_succ, List.filter, h0, not_lt.2 h1, not_lt.2 h2]

end
end TreeCorr
