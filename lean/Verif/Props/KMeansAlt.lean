import Verif.Props.KMeansCases
import Verif.Props.LogCounts

/-!
C75: the alternate algorithm, and positions on the sphere.
-/

namespace TreeCorr
open Classical List KMeans
noncomputable section
variable {d : ℕ}

section inertia
variable {E : Type} [NormedAddCommGroup E] [InnerProductSpace ℝ E]

/-- What a cell adds to the inertia of its patch. -/
def cellInertia (cen : ℕ → E) (x : ℕ × Cell E) : ℝ := (dist x.2.pos (cen x.1) ^ 2 + 3 / 4 * x.2.size ^ 2) * x.2.w

theorem inert_foldl (cen : ℕ → E) (calls : List (ℕ × Cell E)) (c : Inert) (q : ℕ) :
    (calls.foldl (Inert.run cen) c).sumw = c.sumw + (calls.map fun x => x.2.w).sum ∧
    (calls.foldl (Inert.run cen) c).inertia q = c.inertia q + ((calls.filter fun x => x.1 = q).map (cellInertia cen)).sum := by
  induction calls generalizing c with
  | nil => simp
  | cons x calls ih =>
    rw [List.foldl_cons, (ih _).1, (ih _).2]
    refine ⟨by simp [Inert.run, add_assoc], ?_⟩
    have hx : ∀ i : ℝ, (if x.2.size * x.2.size > 0 then i + 0.75 * (x.2.size * x.2.size) * x.2.w else i) = i + 3 / 4 * x.2.size ^ 2 * x.2.w := by
      intro i
      split_ifs with h
      · rw [show (0.75 : ℝ) = 3 / 4 by norm_num]; ring
      · have : x.2.size = 0 := by
          by_contra h0
          exact h (mul_self_pos.2 h0)
        rw [this]; ring
    by_cases h : x.1 = q
    · subst h
      simp only [Inert.run, Function.update_self, hx, decide_true, List.filter_cons_of_pos, List.map_cons, List.sum_cons, cellInertia, dist_eq_norm]
      ring
    · have h' : q ≠ x.1 := fun e => h e.symm
      simp [Inert.run, h, h']

theorem inert_combine (cen : ℕ → E) (ts : List (List (ℕ × Cell E))) (c : Inert) (q : ℕ) :
    ((ts.map fun calls => calls.foldl (Inert.run cen) Inert.reset).foldl Inert.combineWith c).sumw = c.sumw + (ts.flatten.map fun x => x.2.w).sum ∧
    ((ts.map fun calls => calls.foldl (Inert.run cen) Inert.reset).foldl Inert.combineWith c).inertia q =
      c.inertia q + ((ts.flatten.filter fun x => x.1 = q).map (cellInertia cen)).sum := by
  induction ts generalizing c with
  | nil => simp
  | cons t ts ih =>
    rw [List.map_cons, List.foldl_cons, (ih _).1, (ih _).2]
    simp only [Inert.combineWith, (inert_foldl cen t Inert.reset q).1, (inert_foldl cen t Inert.reset q).2, List.flatten_cons,
      List.filter_append, List.map_append, List.sum_append]
    simp only [Inert.reset, zero_add, add_assoc, and_self]

/-- All rows of a cell are within its size of its position. -/
def InSize (c : Cell E) : Prop := ∀ o ∈ c.objs, dist o.pos c.pos ≤ c.size

theorem bounded_inSize (c : Cell E) (h : c.Bounded 0) : c.Each InSize := by
  induction c with
  | leaf d os => exact h
  | node d s l r ihl ihr => exact ⟨h.2.1, ihl h.2.2.1, ihr h.2.2.2⟩

theorem cell_le (cen : ℕ → E) (x : ℕ × Cell E) (h1 : CellSums x.2) (h2 : InSize x.2) (hw : ∀ o ∈ x.2.objs, 0 ≤ o.w) :
    (x.2.objs.map fun o => o.w * dist o.pos (cen x.1) ^ 2).sum ≤ 4 / 3 * cellInertia cen x := by
  rw [huygens x.2.objs x.2.w x.2.pos (cen x.1) h1.1.symm h1.2.symm]
  have h3 : (x.2.objs.map fun o => o.w * dist o.pos x.2.pos ^ 2).sum ≤ (x.2.objs.map fun o => o.w * x.2.size ^ 2).sum :=
    List.sum_le_sum fun o ho => mul_le_mul_of_nonneg_left (pow_le_pow_left₀ dist_nonneg (h2 o ho) 2) (hw o ho)
  rw [List.sum_map_mul_right, show (x.2.objs.map fun o => o.w) = x.2.objs.map Obj.w from rfl, ← h1.1] at h3
  have hw0 : 0 ≤ x.2.w := by
    rw [h1.1]
    refine List.sum_nonneg fun y hy => ?_
    obtain ⟨o, ho, rfl⟩ := List.mem_map.1 hy
    exact hw o ho
  have : 0 ≤ x.2.w * dist x.2.pos (cen x.1) ^ 2 := mul_nonneg hw0 (sq_nonneg _)
  unfold cellInertia
  nlinarith

end inertia

/-- **C75, partial.** One pass of the alternate algorithm (flat or 3d positions, `min_size = 0`, rows of positive total weight): it is defined, there are penalties
`I` of the patches such that every row is given to a patch with the least squared distance plus penalty, and the new centre of each patch is the weighted mean of
its rows, or the origin if it has no weight.  The penalties are at least three quarters of the documented ones, `3 I_i / ⟨N_i⟩`, for some division `L₀` of the rows
over their nearest centres.
Missing: that they are the documented ones (`kmeans_alt_penalty_wrong`). -/
theorem kmeans_alt_pass_partial (A : StdAlg (EuclideanSpace ℝ (Fin d))) (fp : FieldParams) (hm : fp.minsize = 0)
    (rows : List (Obj (EuclideanSpace ℝ (Fin d)))) (hw : ∀ o ∈ rows, 0 ≤ o.w) (hp : ∀ o ∈ rows, o.wpos = o.w) (hpos : 0 < (rows.map Obj.w).sum)
    (cen : ℕ → EuclideanSpace ℝ (Fin d)) (npatch : ℕ) (hn : 1 ≤ npatch) (s1 s2 : Schedule)
    (hs1 : s1.Of (buildField A (euclidGeom d) fp rows).cells.length) (hs2 : s2.Of (buildField A (euclidGeom d) fp rows).cells.length) :
    ∃ (I : ℕ → ℝ) (new : ℕ → EuclideanSpace ℝ (Fin d)) (L₀ L : List (ℕ × Obj (EuclideanSpace ℝ (Fin d)))),
      kmeansPass id true npatch (buildField A (euclidGeom d) fp rows).cells s1 s2 cen = some new ∧
      NearestDivision rows npatch cen L₀ ∧
      (∀ q, 3 / 4 * (3 / ((rows.map Obj.w).sum / npatch) * ((patchRowsOf L₀ q).map fun o => o.w * dist o.pos (cen q) ^ 2).sum) ≤ I q) ∧
      (L.map Prod.snd).Perm rows ∧
      (∀ x ∈ L, x.1 < npatch ∧ ∀ q < npatch, dist x.2.pos (cen x.1) ^ 2 + I x.1 ≤ dist x.2.pos (cen q) ^ 2 + I q) ∧
      ∀ q, new q = if 0 < patchWeight L q then patchMean L q else 0 := by
  have hb := buildField_bounded A (euclidGeom d) (euclidGeom_dominates d) fp hm.ge rows
  have hsum := buildField_sums A fp rows hw hp
  have hobj := buildField_objs A (euclidGeom d) fp rows
  set cells := (buildField A (euclidGeom d) fp rows).cells with hcells
  obtain ⟨a1, a2⟩ := findAll_spec cen none (by simp) (respects_dist cen hm.ge) cells (fun c hc => (hb c hc).1) npatch hn s1 hs1
  have hcs := findAll_each cen none npatch cells hsum s1
  have hcz := findAll_each cen none npatch cells (fun c hc => bounded_inSize c (hm ▸ (hb c hc).1)) s1
  have hcw : ∀ x ∈ (findAll cen none npatch cells s1).flatten, 0 ≤ x.2.w := by
    intro x hx
    rw [(hcs x hx).1]
    refine List.sum_nonneg fun y hy => ?_
    obtain ⟨o, ho, rfl⟩ := List.mem_map.1 hy
    exact hw _ ((a1.trans hobj).mem_iff.1 (List.mem_flatMap.2 ⟨x, hx, ho⟩))
  have htot : ((findAll cen none npatch cells s1).flatten.map fun x => x.2.w).sum = (rows.map Obj.w).sum := by
    rw [sum_calls _ Obj.w _ fun x hx => (hcs x hx).1]
    exact ((a1.trans hobj).map _).sum_eq
  have hnp : (0 : ℝ) < npatch := by exact_mod_cast hn
  have hL0 : NearestDivision rows npatch cen (rowsOfCalls (findAll cen none npatch cells s1).flatten) := by
    refine ⟨?_, ?_, ?_⟩
    · have e : (rowsOfCalls (findAll cen none npatch cells s1).flatten).map Prod.snd =
          (findAll cen none npatch cells s1).flatten.flatMap fun x => x.2.objs := by
        unfold rowsOfCalls
        rw [List.map_flatMap]
        simp [Function.comp_def]
      rw [e]
      exact a1.trans hobj
    · intro x hx
      obtain ⟨y, hy, hx⟩ := List.mem_flatMap.1 hx
      obtain ⟨o, ho, rfl⟩ := List.mem_map.1 hx
      exact (a2 y hy).1
    · intro x hx q hq
      obtain ⟨y, hy, hx⟩ := List.mem_flatMap.1 hx
      obtain ⟨o, ho, rfl⟩ := List.mem_map.1 hx
      have := (a2 y hy).2 o ho q hq
      rw [hm] at this
      linarith
  obtain ⟨I, hI, hI0⟩ : ∃ I, calculateInertia cen npatch cells s1 = some I ∧
      ∀ q, I q = ((((findAll cen none npatch cells s1).flatten.filter fun x => x.1 = q).map (cellInertia cen)).sum) / ((rows.map Obj.w).sum / npatch / 3) := by
    have hmw : ((((findAll cen none npatch cells s1).map fun calls => calls.foldl (Inert.run cen) Inert.reset).foldl Inert.combineWith Inert.reset).sumw /
        npatch / 3) = (rows.map Obj.w).sum / npatch / 3 := by
      rw [(inert_combine cen _ Inert.reset 0).1, htot]
      simp [Inert.reset]
    have hmw0 : 0 < (rows.map Obj.w).sum / npatch / 3 := by positivity
    unfold calculateInertia Inert.fin
    simp only
    rw [hmw, if_neg hmw0.ne']
    refine ⟨_, rfl, fun q => ?_⟩
    rw [(inert_combine cen _ Inert.reset q).2]
    simp only [Inert.reset, zero_add]
  have hI1 : ∀ q, 3 / 4 * (3 / ((rows.map Obj.w).sum / npatch) *
      ((patchRowsOf (rowsOfCalls (findAll cen none npatch cells s1).flatten) q).map fun o => o.w * dist o.pos (cen q) ^ 2).sum) ≤ I q := by
    intro q
    have hsq : ((patchRowsOf (rowsOfCalls (findAll cen none npatch cells s1).flatten) q).map fun o => o.w * dist o.pos (cen q) ^ 2).sum ≤
        4 / 3 * (((findAll cen none npatch cells s1).flatten.filter fun x => x.1 = q).map (cellInertia cen)).sum := by
      rw [patchRowsOf_calls, ← sum_calls ((findAll cen none npatch cells s1).flatten.filter fun x => x.1 = q) (fun o => o.w * dist o.pos (cen q) ^ 2)
        (fun x => (x.2.objs.map fun o => o.w * dist o.pos (cen q) ^ 2).sum) (fun _ _ => rfl), ← List.sum_map_mul_left]
      refine List.sum_le_sum fun x hx => ?_
      obtain ⟨hx1, hx2⟩ := List.mem_filter.1 hx
      simp only [decide_eq_true_eq] at hx2
      subst hx2
      exact cell_le cen x (hcs x hx1) (hcz x hx1) fun o ho => hw _ ((a1.trans hobj).mem_iff.1 (List.mem_flatMap.2 ⟨x, hx1, ho⟩))
    rw [hI0 q]
    generalize (((findAll cen none npatch cells s1).flatten.filter fun x => x.1 = q).map (cellInertia cen)).sum = J at hsq ⊢
    generalize ((patchRowsOf (rowsOfCalls (findAll cen none npatch cells s1).flatten) q).map fun o => o.w * dist o.pos (cen q) ^ 2).sum = T at hsq ⊢
    have hm0 : 0 < (rows.map Obj.w).sum / npatch := by positivity
    generalize (rows.map Obj.w).sum / npatch = m at hm0 ⊢
    rw [show J / (m / 3) = 3 / m * J by field_simp, show 3 / 4 * (3 / m * T) = 3 / m * (3 / 4 * T) by ring]
    exact mul_le_mul_of_nonneg_left (by linarith) (by positivity)
  have hI0 : ∀ q, 0 ≤ I q := by
    intro q
    refine le_trans ?_ (hI1 q)
    have : 0 ≤ ((patchRowsOf (rowsOfCalls (findAll cen none npatch cells s1).flatten) q).map fun o => o.w * dist o.pos (cen q) ^ 2).sum := by
      refine List.sum_nonneg fun y hy => ?_
      obtain ⟨o, ho, rfl⟩ := List.mem_map.1 hy
      exact mul_nonneg (hw _ (hL0.rows.mem_iff.1 (List.mem_map.2 ⟨_, patchRows_mem ho, rfl⟩))) (sq_nonneg _)
    positivity
  obtain ⟨h1, h2⟩ := kmeans_alt_nearest A (euclidGeom d) (euclidGeom_dominates d) fp hm rows cen npatch hn I hI0 s2 hs2
  rw [← hcells] at h1 h2
  have hL : ((rowsOfCalls (findAll cen (some I) npatch cells s2).flatten).map Prod.snd).Perm rows := by
    have e : (rowsOfCalls (findAll cen (some I) npatch cells s2).flatten).map Prod.snd =
        (findAll cen (some I) npatch cells s2).flatten.flatMap fun x => x.2.objs := by
      unfold rowsOfCalls
      rw [List.map_flatMap]
      simp [Function.comp_def]
    rw [e]; exact h1
  have hpass : kmeansPass id true npatch cells s1 s2 cen = some (updateCenters id cen (some I) npatch cells s2) := by
    unfold kmeansPass
    rw [if_pos rfl, hI]
    rfl
  refine ⟨I, _, _, rowsOfCalls (findAll cen (some I) npatch cells s2).flatten, hpass, hL0, hI1, hL, ?_, fun q => ?_⟩
  · intro x hx
    obtain ⟨y, hy, hx⟩ := List.mem_flatMap.1 hx
    obtain ⟨o, ho, rfl⟩ := List.mem_map.1 hx
    exact ⟨(h2 y hy).1, (h2 y hy).2 o ho⟩
  · rw [updateCenters_eq id cen (some I) npatch _ hsum s2 q]
    split
    · rfl
    · rename_i h
      have h0 := patch_weights_zero (fun x hx => hw _ (hL.mem_iff.1 (List.mem_map.2 ⟨x, hx, rfl⟩))) h
      rw [List.map_congr_left (g := fun _ => (0 : EuclideanSpace ℝ (Fin d))) fun o ho => by rw [h0 o ho, zero_smul]]
      simp

/-! ### One patch -/

section one
variable {E : Type} [NormedAddCommGroup E] [InnerProductSpace ℝ E]

theorem findCells_one (cen : ℕ → E) (I : Option (ℕ → ℝ)) (c : Cell E) (ps : ℕ → ℕ) : findCells cen I c ps 1 = ([(ps 0, c)], ps) := by
  cases c with
  | leaf d os => simp [findCells, scan, scanInit, prune]
  | node d s l r => simp [findCells, scan, scanInit, prune]

end one

/-- The rows of a pair as one cell. -/
theorem pair_cell (A : StdAlg (EuclideanSpace ℝ (Fin 2))) (fp : FieldParams) (hm : fp.minsize = 0) (hmt : fp.mintop ≤ 0) (hmax : 1 ≤ fp.maxsize) :
    ∃ l r, (buildField A (euclidGeom 2) fp [ob 0 0 0, ob 2 0 1]).cells = [.node (cellData (euclidGeom 2) [ob 0 0 0, ob 2 0 1]) 1 l r] := by
  have hsz : calcSizeSq (euclidGeom 2) (pt ((0 + 2) / 2) ((0 + 0) / 2)) [ob 0 0 0, ob 2 0 1] = 1 := by
    rw [sizeSq_two]; norm_num
  have htop : topCells A (euclidGeom 2) fp.sm (fp.maxsize * fp.maxsize) fp.mintop fp.maxtop [ob 0 0 0, ob 2 0 1]
      = [[ob 0 0 0, ob 2 0 1]] := by
    rw [topCells]
    simp only [mean_two, hsz]
    rw [if_pos (Or.inr ⟨by nlinarith, hmt⟩)]
  have hcell : ∃ l r, buildCell A (euclidGeom 2) fp.sm (fp.minsize * fp.minsize) [ob 0 0 0, ob 2 0 1]
      = .node (cellData (euclidGeom 2) [ob 0 0 0, ob 2 0 1]) 1 l r := by
    rw [buildCell]
    have : (cellData (euclidGeom 2) [ob 0 0 0, ob 2 0 1]).pos = pt ((0 + 2) / 2) ((0 + 0) / 2) := mean_two _ _ _ _ _ _
    simp only [this, hsz, hm]
    rw [if_pos (by norm_num), Real.sqrt_one]
    exact ⟨_, _, rfl⟩
  obtain ⟨l, r, hc⟩ := hcell
  exact ⟨l, r, by simp only [buildField, htop, List.map_cons, List.map_nil, hc]⟩

/-- **C75 fails** for the penalty of the alternate algorithm, documented as `3 I_i / ⟨N_i⟩` with `I_i = Σ |x_j - μ_i|²`: one patch of the rows (0,0) and (2,0)
about their mean (1,0) has `I = 2` and the documented penalty 3; the code's is 9/4. -/
theorem kmeans_alt_penalty_wrong : ∃ (rows : List (Obj (EuclideanSpace ℝ (Fin 2)))) (cen : ℕ → EuclideanSpace ℝ (Fin 2)),
    rows.length = 2 ∧ (∀ o ∈ rows, o.w = 1) ∧ 3 / (rows.length / 1 : ℝ) * (rows.map fun o => dist o.pos (cen 0) ^ 2).sum = 3 ∧
    ∀ (A : StdAlg _) (fp : FieldParams), fp.minsize = 0 → fp.mintop ≤ 0 → 1 ≤ fp.maxsize →
      ∃ I, calculateInertia cen 1 (buildField A (euclidGeom 2) fp rows).cells [[0]] = some I ∧ I 0 = 9 / 4 := by
  refine ⟨[ob 0 0 0, ob 2 0 1], fun _ => pt 1 0, rfl, by simp, ?_, ?_⟩
  · simp only [List.map_cons, List.map_nil, List.sum_cons, List.sum_nil, ob_pos, dist_pt_x]
    norm_num
  · intro A fp hm hmt hmax
    obtain ⟨l, r, hc⟩ := pair_cell A fp hm hmt hmax
    have hpos : (cellData (euclidGeom 2) [ob 0 0 0, ob 2 0 1]).pos = pt 1 0 := by
      have := mean_two 0 2 0 0 0 1
      norm_num at this
      exact this
    have hw : (cellData (euclidGeom 2) [ob 0 0 0, ob 2 0 1]).w = 2 := by norm_num [cellData]
    rw [hc]
    have hf : findAll (fun _ => pt 1 0) none 1 [.node (cellData (euclidGeom 2) [ob 0 0 0, ob 2 0 1]) 1 l r] [[0]] =
        [[(0, .node (cellData (euclidGeom 2) [ob 0 0 0, ob 2 0 1]) 1 l r)]] := by
      simp [findAll, findThread, findCells_one]
    unfold calculateInertia
    rw [hf]
    refine ⟨fun i => (if i = 0 then 3 / 2 else 0) / (2 / 3), ?_, by norm_num⟩
    simp only [List.map_cons, List.map_nil, List.foldl_cons, List.foldl_nil, Inert.fin, Inert.combineWith, Inert.run, Inert.reset, Cell.size, Cell.w,
      Cell.pos, Cell.data, hpos, hw]
    norm_num
    funext i
    by_cases h : i = 0
    · subst h; norm_num
    · simp [h]

/-! ### The sphere -/

/-- A row on the sphere. -/
def so (p : EuclideanSpace ℝ (Fin 3)) (i : ℕ) : Obj (EuclideanSpace ℝ (Fin 3)) := { pos := p, w := 1, wk := 0, idx := i }

/-- **C75 fails** on the sphere ("update all the centers to be the centroid of the points"): the mean of a cell is put back on the sphere before the cells are
added up.  With the rows (1,0,0), (0,1,0) in one top-level cell and (0,0,1) in another, one patch, the new centre is not the direction of the mean of the rows. -/
theorem kmeans_update_sphere_wrong (A : StdAlg (EuclideanSpace ℝ (Fin 3))) (sm : SplitMethod) (cen : ℕ → EuclideanSpace ℝ (Fin 3)) :
    ∃ a b c : Obj (EuclideanSpace ℝ (Fin 3)), ‖a.pos‖ = 1 ∧ ‖b.pos‖ = 1 ∧ ‖c.pos‖ = 1 ∧ a.w = 1 ∧ b.w = 1 ∧ c.w = 1 ∧
      updateCenters sphereNormalize cen none 1 [buildCell A sphereGeom sm 0 [a, b], buildCell A sphereGeom sm 0 [c]] [[0, 1]] 0 ≠
        sphereNormalize ((3 : ℝ)⁻¹ • (a.pos + b.pos + c.pos)) := by
  refine ⟨so !₂[1, 0, 0] 0, so !₂[0, 1, 0] 1, so !₂[0, 0, 1] 2, ?_, ?_, ?_, rfl, rfl, rfl, ?_⟩
  · simp [so, EuclideanSpace.norm_eq, Fin.sum_univ_three]
  · simp [so, EuclideanSpace.norm_eq, Fin.sum_univ_three]
  · simp [so, EuclideanSpace.norm_eq, Fin.sum_univ_three]
  · have hd : ∃ dd : Cell (EuclideanSpace ℝ (Fin 3)), buildCell A sphereGeom sm 0 [so !₂[1, 0, 0] 0, so !₂[0, 1, 0] 1] = dd ∧ dd.w = 2 ∧
        dd.pos = sphereNormalize !₂[1 / 2, 1 / 2, 0] := by
      refine ⟨_, rfl, ?_⟩
      have e : (cellData sphereGeom [so !₂[1, 0, 0] 0, so !₂[0, 1, 0] 1]).w = 2 ∧
          (cellData sphereGeom [so !₂[1, 0, 0] 0, so !₂[0, 1, 0] 1]).pos = sphereNormalize !₂[1 / 2, 1 / 2, 0] := by
        refine ⟨by norm_num [cellData, so], ?_⟩
        have : (2 : ℝ)⁻¹ • ((!₂[1, 0, 0] : EuclideanSpace ℝ (Fin 3)) + !₂[0, 1, 0]) = !₂[1 / 2, 1 / 2, 0] := by
          ext k; fin_cases k <;> simp
        simp only [cellData, sphereGeom, wmean, so, List.map_cons, List.map_nil, List.sum_cons, List.sum_nil, one_smul, add_zero]
        rw [← this]
        norm_num
      rw [buildCell]
      simp only
      split_ifs
      · exact e
      · exact e
    obtain ⟨dd, h1, h2, h3⟩ := hd
    have h4 : buildCell A sphereGeom sm 0 [so !₂[0, 0, 1] 2] = .leaf ⟨!₂[0, 0, 1], 1, 1, 0⟩ [so !₂[0, 0, 1] 2] := by
      rw [buildCell]; rfl
    have hf : findAll cen none 1 [dd, .leaf ⟨!₂[0, 0, 1], 1, 1, 0⟩ [so !₂[0, 0, 1] 2]] [[0, 1]] =
        [[(0, dd), (0, .leaf ⟨!₂[0, 0, 1], 1, 1, 0⟩ [so !₂[0, 0, 1] 2])]] := by
      simp [findAll, findThread, findCells_one]
    have hu : updateCenters sphereNormalize cen none 1 [dd, .leaf ⟨!₂[0, 0, 1], 1, 1, 0⟩ [so !₂[0, 0, 1] 2]] [[0, 1]] 0 =
        sphereNormalize ((3 : ℝ)⁻¹ • ((2 : ℝ) • sphereNormalize !₂[1 / 2, 1 / 2, 0] + !₂[0, 0, 1])) := by
      unfold updateCenters
      rw [hf]
      simp only [List.map_cons, List.map_nil, List.foldl_cons, List.foldl_nil, Upd.fin, Upd.combineWith, Upd.run, Upd.reset, h2, h3,
        Function.update_self, zero_add]
      norm_num [Cell.w, Cell.pos, Cell.data]
    rw [h1, h4, hu]
    have hn : ‖(!₂[1 / 2, 1 / 2, 0] : EuclideanSpace ℝ (Fin 3))‖ = (Real.sqrt 2)⁻¹ := by
      rw [EuclideanSpace.norm_eq, ← Real.sqrt_inv]
      congr 1
      rw [Fin.sum_univ_three, show (!₂[1 / 2, 1 / 2, 0] : EuclideanSpace ℝ (Fin 3)) 2 = 0 from rfl,
        show (!₂[1 / 2, 1 / 2, 0] : EuclideanSpace ℝ (Fin 3)) 0 = 1 / 2 from rfl,
        show (!₂[1 / 2, 1 / 2, 0] : EuclideanSpace ℝ (Fin 3)) 1 = 1 / 2 from rfl]
      norm_num
    have hs2 : (1 : ℝ) < Real.sqrt 2 := by
      rw [show (1 : ℝ) = Real.sqrt 1 by simp]
      exact Real.sqrt_lt_sqrt (by norm_num) (by norm_num)
    intro heq
    -- the first and third coordinates of the right-hand side agree, those of the left-hand side do not
    have hne : ∀ p : EuclideanSpace ℝ (Fin 3), p 0 ≠ 0 → sphereNormalize p 0 = sphereNormalize p 2 → p 0 = p 2 := by
      intro p hp h
      have hp0 : ‖p‖ ≠ 0 := by
        intro h0
        rw [norm_eq_zero] at h0
        exact hp (by rw [h0]; rfl)
      unfold sphereNormalize at h
      rw [if_neg hp0] at h
      simpa [hp0] using h
    have hr : sphereNormalize ((3 : ℝ)⁻¹ • ((so !₂[1, 0, 0] 0).pos + (so !₂[0, 1, 0] 1).pos + (so !₂[0, 0, 1] 2).pos)) 0 =
        sphereNormalize ((3 : ℝ)⁻¹ • ((so !₂[1, 0, 0] 0).pos + (so !₂[0, 1, 0] 1).pos + (so !₂[0, 0, 1] 2).pos)) 2 := by
      unfold sphereNormalize
      split_ifs with h0
      · exfalso
        rw [norm_eq_zero] at h0
        have := congrArg (fun p : EuclideanSpace ℝ (Fin 3) => p 0) h0
        simp [so] at this
      · simp [so]
    rw [← heq] at hr
    have hsn : sphereNormalize (!₂[1 / 2, 1 / 2, 0] : EuclideanSpace ℝ (Fin 3)) = (Real.sqrt 2) • !₂[1 / 2, 1 / 2, 0] := by
      unfold sphereNormalize
      rw [hn, if_neg (by positivity), inv_inv]
    rw [hsn] at hr
    have := hne _ (by simp) hr
    have e0 : (![1 / 2, 1 / 2, 0] : Fin 3 → ℝ) 2 = 0 := rfl
    have e1 : (![1 / 2, 1 / 2, 0] : Fin 3 → ℝ) 0 = 1 / 2 := rfl
    have e2 : (![0, 0, 1] : Fin 3 → ℝ) 2 = 1 := rfl
    have e3 : (![0, 0, 1] : Fin 3 → ℝ) 0 = 0 := rfl
    simp only [PiLp.smul_apply, PiLp.add_apply, smul_eq_mul] at this
    rw [e0, e1, e2, e3] at this
    linarith

/-! ### Cases -/

/-- A schedule of one thread. -/
theorem oneThread_of (n : ℕ) : Schedule.Of [List.range n] n := by simp [Schedule.Of]

/-- A case of the theorems on the standard algorithm: the total inertia of the five rows goes down, and the passes come to rest. -/
example : ∃ out, kmeansRun id (buildField (sortAlg _ 0) (euclidGeom 2) exFp lostRows) 3 200 (1 / 100000) false
      (fun _ => ([List.range (buildField (sortAlg _ 0) (euclidGeom 2) exFp lostRows).cells.length],
        [List.range (buildField (sortAlg _ 0) (euclidGeom 2) exFp lostRows).cells.length])) lostCen = some out ∧
    wcss lostRows 3 out ≤ wcss lostRows 3 lostCen :=
  kmeans_refine_inertia_partial (sortAlg _ 0) exFp rfl lostRows lost_w lost_wpos lostCen 3 (by norm_num) 200 _ _ fun _ => oneThread_of _

/-- And one of the alternate algorithm. -/
example : ∃ (new : ℕ → EuclideanSpace ℝ (Fin 2)), kmeansPass id true 3 (buildField (sortAlg _ 0) (euclidGeom 2) exFp lostRows).cells
      [List.range (buildField (sortAlg _ 0) (euclidGeom 2) exFp lostRows).cells.length]
      [List.range (buildField (sortAlg _ 0) (euclidGeom 2) exFp lostRows).cells.length] lostCen = some new := by
  obtain ⟨-, new, -, -, h, -⟩ := kmeans_alt_pass_partial (sortAlg _ 0) exFp rfl lostRows lost_w lost_wpos (by norm_num [lostRows, ob]) lostCen 3 (by norm_num)
    [List.range (buildField (sortAlg _ 0) (euclidGeom 2) exFp lostRows).cells.length]
    [List.range (buildField (sortAlg _ 0) (euclidGeom 2) exFp lostRows).cells.length] (oneThread_of _) (oneThread_of _)
  exact ⟨new, h⟩

end
end TreeCorr
