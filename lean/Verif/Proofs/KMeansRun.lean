import Verif.Model.KMeansRun
import Verif.Spec.KMeans
import Verif.Proofs.KMeans
import Verif.Proofs.Tree

namespace TreeCorr.KMeans
open Classical List
noncomputable section

/-! ### The cells handed to `f.run` are cells of the tree -/

/-- A property of a cell and all cells below it. -/
def _root_.TreeCorr.Cell.Each {P : Type} (p : Cell P → Prop) : Cell P → Prop
  | .leaf d os => p (.leaf d os)
  | .node d s l r => p (.node d s l r) ∧ l.Each p ∧ r.Each p

theorem _root_.TreeCorr.Cell.Each.self {P : Type} {p : Cell P → Prop} {c : Cell P} (h : c.Each p) : p c := by
  cases c with
  | leaf => exact h
  | node => exact h.1

theorem findCells_each {P : Type} [PseudoMetricSpace P] {p : Cell P → Prop} (cen : ℕ → P) (I : Option (ℕ → ℝ)) (c : Cell P) (h : c.Each p)
    (ps : ℕ → ℕ) (n : ℕ) : ∀ x ∈ (findCells cen I c ps n).1, p x.2 := by
  induction c generalizing ps n with
  | leaf d os =>
    intro x hx
    simp only [findCells, List.mem_singleton] at hx
    subst hx; exact h
  | node d s l r ihl ihr =>
    intro x hx
    rw [findCells] at hx
    simp only at hx
    split at hx
    · simp only [List.mem_singleton] at hx
      subst hx; exact h.1
    · rcases List.mem_append.1 hx with hx | hx
      · exact ihl h.2.1 _ _ x hx
      · exact ihr h.2.2 _ _ x hx

theorem findThread_each {P : Type} [PseudoMetricSpace P] {p : Cell P → Prop} (cen : ℕ → P) (I : Option (ℕ → ℝ)) (n : ℕ) (cells : List (Cell P))
    (h : ∀ c ∈ cells, c.Each p) : ∀ x ∈ findThread cen I n cells, p x.2 := by
  unfold findThread
  suffices H : ∀ (cells : List (Cell P)), (∀ c ∈ cells, c.Each p) → ∀ (acc : List (ℕ × Cell P) × (ℕ → ℕ)), (∀ x ∈ acc.1, p x.2) →
      ∀ x ∈ (cells.foldl (fun (acc : List (ℕ × Cell P) × (ℕ → ℕ)) c =>
        ((acc.1 ++ (findCells cen I c acc.2 n).1), (findCells cen I c acc.2 n).2)) acc).1, p x.2 from H cells h ([], id) (by simp)
  intro cells
  induction cells with
  | nil => intro _ acc ha; exact ha
  | cons c cells ih =>
    intro h acc ha
    rw [List.foldl_cons]
    refine ih (fun c' hc' => h c' (by simp [hc'])) _ ?_
    intro x hx
    rcases List.mem_append.1 hx with hx | hx
    · exact ha x hx
    · exact findCells_each cen I c (h c (by simp)) _ _ x hx

theorem findAll_each {P : Type} [PseudoMetricSpace P] {p : Cell P → Prop} (cen : ℕ → P) (I : Option (ℕ → ℝ)) (n : ℕ) (cells : List (Cell P))
    (h : ∀ c ∈ cells, c.Each p) (sched : Schedule) : ∀ x ∈ (findAll cen I n cells sched).flatten, p x.2 := by
  intro x hx
  obtain ⟨t, ht, hx⟩ := List.mem_flatten.1 hx
  obtain ⟨is, -, rfl⟩ := List.mem_map.1 ht
  refine findThread_each cen I n _ ?_ x hx
  intro c hc
  obtain ⟨i, -, e⟩ := List.mem_filterMap.1 hc
  exact h c (List.mem_of_getElem? e)

/-! ### The arrays of `UpdateCenters` -/

variable {E : Type} [NormedAddCommGroup E] [InnerProductSpace ℝ E]

theorem foldl_run (calls : List (ℕ × Cell E)) (u : Upd E) (q : ℕ) :
    (calls.foldl Upd.run u).w q = u.w q + ((calls.filter fun x => x.1 = q).map fun x => x.2.w).sum ∧
    (calls.foldl Upd.run u).newCenters q = u.newCenters q + ((calls.filter fun x => x.1 = q).map fun x => x.2.w • x.2.pos).sum := by
  induction calls generalizing u with
  | nil => simp
  | cons x calls ih =>
    rw [List.foldl_cons, (ih _).1, (ih _).2]
    by_cases h : x.1 = q
    · subst h
      simp [Upd.run, add_assoc]
    · have h' : q ≠ x.1 := fun e => h e.symm
      simp [Upd.run, h, h']

theorem foldl_combine (ts : List (List (ℕ × Cell E))) (u : Upd E) (q : ℕ) :
    ((ts.map fun calls => calls.foldl Upd.run Upd.reset).foldl Upd.combineWith u).w q =
      u.w q + ((ts.flatten.filter fun x => x.1 = q).map fun x => x.2.w).sum ∧
    ((ts.map fun calls => calls.foldl Upd.run Upd.reset).foldl Upd.combineWith u).newCenters q =
      u.newCenters q + ((ts.flatten.filter fun x => x.1 = q).map fun x => x.2.w • x.2.pos).sum := by
  induction ts generalizing u with
  | nil => simp
  | cons t ts ih =>
    rw [List.map_cons, List.foldl_cons, (ih _).1, (ih _).2]
    simp only [Upd.combineWith, (foldl_run t Upd.reset q).1, (foldl_run t Upd.reset q).2, List.flatten_cons,
      List.filter_append, List.map_append, List.sum_append]
    simp only [Upd.reset, zero_add, add_assoc, and_self]

/-- Weight and weighted position of a cell are the sums over its rows. -/
def CellSums (c : Cell E) : Prop := c.w = (c.objs.map Obj.w).sum ∧ c.w • c.pos = (c.objs.map fun o => o.w • o.pos).sum

/-- The pairs of patch and row that the calls stand for. -/
def rowsOfCalls (calls : List (ℕ × Cell E)) : List (ℕ × Obj E) := calls.flatMap fun x => x.2.objs.map fun o => (x.1, o)

theorem patchRowsOf_calls (calls : List (ℕ × Cell E)) (q : ℕ) :
    patchRowsOf (rowsOfCalls calls) q = (calls.filter fun x => x.1 = q).flatMap fun x => x.2.objs := by
  unfold patchRowsOf rowsOfCalls
  induction calls with
  | nil => rfl
  | cons x calls ih =>
    rw [List.flatMap_cons, List.filter_append, List.map_append, ih]
    by_cases h : x.1 = q
    · rw [List.filter_cons_of_pos (by simpa using h), List.flatMap_cons]
      congr 1
      rw [List.filter_map, List.map_map]
      have : (x.2.objs.filter ((fun x : ℕ × Obj E => decide (x.1 = q)) ∘ fun o => (x.1, o))) = x.2.objs := by
        rw [List.filter_eq_self]; intro o _; simpa using h
      rw [this]
      simp [Function.comp_def]
    · rw [List.filter_cons_of_neg (by simpa using h)]
      have : ((x.2.objs.map fun o => (x.1, o)).filter fun x => decide (x.1 = q)) = [] := by
        rw [List.filter_eq_nil_iff]
        intro y hy
        obtain ⟨o, -, rfl⟩ := List.mem_map.1 hy
        simpa using h
      rw [this]; rfl

theorem sum_calls {M : Type} [AddCommMonoid M] (calls : List (ℕ × Cell E)) (f : Obj E → M) (g : ℕ × Cell E → M)
    (h : ∀ x ∈ calls, g x = (x.2.objs.map f).sum) :
    (calls.map g).sum = ((calls.flatMap fun x => x.2.objs).map f).sum := by
  induction calls with
  | nil => rfl
  | cons x calls ih =>
    rw [List.map_cons, List.sum_cons, ih fun y hy => h y (by simp [hy]), h x (by simp), List.flatMap_cons, List.map_append, List.sum_append]

theorem updateCenters_eq (norm : E → E) (cen : ℕ → E) (I : Option (ℕ → ℝ)) (n : ℕ) (cells : List (Cell E)) (hc : ∀ c ∈ cells, c.Each CellSums)
    (sched : Schedule) (q : ℕ) :
    updateCenters norm cen I n cells sched q =
      if 0 < patchWeight (rowsOfCalls (findAll cen I n cells sched).flatten) q
      then norm (patchMean (rowsOfCalls (findAll cen I n cells sched).flatten) q)
      else ((patchRowsOf (rowsOfCalls (findAll cen I n cells sched).flatten) q).map fun o => o.w • o.pos).sum := by
  have hs := findAll_each cen I n cells hc sched
  have hw : (((findAll cen I n cells sched).flatten.filter fun x => x.1 = q).map fun x => x.2.w).sum =
      patchWeight (rowsOfCalls (findAll cen I n cells sched).flatten) q := by
    rw [patchWeight, patchRowsOf_calls]
    exact sum_calls _ _ _ fun x hx => (hs x (List.mem_filter.1 hx).1).1
  have hp : (((findAll cen I n cells sched).flatten.filter fun x => x.1 = q).map fun x => x.2.w • x.2.pos).sum =
      ((patchRowsOf (rowsOfCalls (findAll cen I n cells sched).flatten) q).map fun o => o.w • o.pos).sum := by
    rw [patchRowsOf_calls]
    exact sum_calls _ _ _ fun x hx => (hs x (List.mem_filter.1 hx).1).2
  unfold updateCenters Upd.fin
  rw [(foldl_combine _ _ q).1, (foldl_combine _ _ q).2, hw, hp]
  simp only [Upd.reset, zero_add]
  rfl

/-! ### Trees of flat and 3d positions -/

theorem wmean_smul (l : List (Obj E)) (hw : ∀ o ∈ l, 0 ≤ o.w) (hp : ∀ o ∈ l, o.wpos = o.w) :
    (l.map Obj.w).sum • wmean id l = (l.map fun o => o.w • o.pos).sum := by
  have e1 : (l.map Obj.wpos).sum = (l.map Obj.w).sum := by rw [List.map_congr_left fun o ho => hp o ho]
  have e2 : (l.map fun o => o.wpos • o.pos).sum = (l.map fun o => o.w • o.pos).sum := by
    rw [List.map_congr_left fun o ho => by rw [hp o ho]]
  unfold wmean
  simp only
  rw [e1, e2]
  split
  · rename_i h
    rw [id, smul_smul, mul_inv_cancel₀ h, one_smul]
  · rename_i h
    push Not at h
    rw [h, zero_smul]
    have : ∀ o ∈ l, o.w = 0 := by
      intro o ho
      exact List.all_zero_of_le_zero_le_of_sum_eq_zero (l := l.map Obj.w)
        (by intro x hx; obtain ⟨o, ho, rfl⟩ := List.mem_map.1 hx; exact hw o ho) h (List.mem_map.2 ⟨o, ho, rfl⟩)
    rw [List.map_congr_left fun o ho => by rw [this o ho, zero_smul]]
    simp

theorem buildCell_sums {d : ℕ} (A : StdAlg (EuclideanSpace ℝ (Fin d))) (sm : SplitMethod) (m : ℝ) (l : List (Obj (EuclideanSpace ℝ (Fin d))))
    (hw : ∀ o ∈ l, 0 ≤ o.w) (hp : ∀ o ∈ l, o.wpos = o.w) : (buildCell A (euclidGeom d) sm m l).Each CellSums := by
  induction l using buildCell.induct A (euclidGeom d) sm m with
  | case1 => simp [buildCell, Cell.Each, CellSums, Cell.w, Cell.data, Cell.objs]
  | case2 o => simp [buildCell, Cell.Each, CellSums, Cell.w, Cell.pos, Cell.data, Cell.objs]
  | case3 o1 o2 os l data sizesq h sp ih1 ih2 =>
    have hperm := buildCell_perm A (euclidGeom d) sm m l
    have hl : buildCell A (euclidGeom d) sm m l = .node data (Real.sqrt sizesq) (buildCell A (euclidGeom d) sm m sp.1)
        (buildCell A (euclidGeom d) sm m sp.2) := by
      rw [show l = o1 :: o2 :: os from rfl, buildCell, if_pos h]
    change (buildCell A (euclidGeom d) sm m l).Each CellSums
    have hsp := splitData_perm A (euclidGeom d) sm l data.pos
    have m1 : ∀ o ∈ sp.1, o ∈ l := fun o ho => hsp.mem_iff.1 (List.mem_append.2 (.inl ho))
    have m2 : ∀ o ∈ sp.2, o ∈ l := fun o ho => hsp.mem_iff.1 (List.mem_append.2 (.inr ho))
    rw [hl] at hperm ⊢
    refine ⟨⟨?_, ?_⟩, ih1 (fun o ho => hw o (m1 o ho)) (fun o ho => hp o (m1 o ho)), ih2 (fun o ho => hw o (m2 o ho)) (fun o ho => hp o (m2 o ho))⟩
    · exact (hperm.map Obj.w).sum_eq.symm
    · rw [(hperm.map fun o => o.w • o.pos).sum_eq]
      exact wmean_smul l hw hp
  | case4 o1 o2 os l data sizesq h =>
    rw [buildCell, if_neg h]
    exact ⟨rfl, wmean_smul l hw hp⟩

theorem buildField_sums {d : ℕ} (A : StdAlg (EuclideanSpace ℝ (Fin d))) (fp : FieldParams) (l : List (Obj (EuclideanSpace ℝ (Fin d))))
    (hw : ∀ o ∈ l, 0 ≤ o.w) (hp : ∀ o ∈ l, o.wpos = o.w) : ∀ c ∈ (buildField A (euclidGeom d) fp l).cells, c.Each CellSums := by
  intro c hc
  obtain ⟨s, hs, rfl⟩ := List.mem_map.1 hc
  have hm : ∀ o ∈ s, o ∈ l := fun o ho =>
    (topCells_perm A (euclidGeom d) fp.sm _ fp.mintop fp.maxtop l).mem_iff.1 (List.mem_flatten.2 ⟨s, hs, ho⟩)
  exact buildCell_sums A fp.sm _ s (fun o ho => hw o (hm o ho)) (fun o ho => hp o (hm o ho))

/-! ### The inertia -/

theorem sum_by_patch {M : Type} [AddCommMonoid M] (n : ℕ) (L : List (ℕ × Obj E)) (hL : ∀ x ∈ L, x.1 < n) (f : ℕ × Obj E → M) :
    (L.map f).sum = ∑ q ∈ Finset.range n, ((L.filter fun x => x.1 = q).map f).sum := by
  induction L with
  | nil => simp
  | cons x L ih =>
    rw [List.map_cons, List.sum_cons, ih fun y hy => hL y (by simp [hy])]
    rw [← Finset.add_sum_erase _ _ (Finset.mem_range.2 (hL x (by simp))), ← Finset.add_sum_erase (a := x.1) _ _ (Finset.mem_range.2 (hL x (by simp)))]
    rw [List.filter_cons_of_pos (by simp), List.map_cons, List.sum_cons, add_assoc]
    congr 2
    refine Finset.sum_congr rfl fun q hq => ?_
    rw [List.filter_cons_of_neg]
    simpa using fun e : x.1 = q => (Finset.mem_erase.1 hq).1 e.symm

/-- The sum of the squared distances of rows from a point, by way of their mean. -/
theorem huygens (l : List (Obj E)) (W : ℝ) (m c : E) (hW : (l.map Obj.w).sum = W) (hm : (l.map fun o => o.w • o.pos).sum = W • m) :
    (l.map fun o => o.w * dist o.pos c ^ 2).sum = (l.map fun o => o.w * dist o.pos m ^ 2).sum + W * dist m c ^ 2 := by
  have key : ∀ l : List (Obj E), (l.map fun o => o.w * dist o.pos c ^ 2).sum =
      (l.map fun o => o.w * dist o.pos m ^ 2).sum + (l.map Obj.w).sum * dist m c ^ 2 +
        2 * inner ℝ ((l.map fun o => o.w • o.pos).sum - (l.map Obj.w).sum • m) (m - c) := by
    intro l
    induction l with
    | nil => simp
    | cons o l ih =>
      have h1 : dist o.pos c ^ 2 = dist o.pos m ^ 2 + dist m c ^ 2 + 2 * inner ℝ (o.pos - m) (m - c) := by
        rw [dist_eq_norm, dist_eq_norm, dist_eq_norm, show o.pos - c = (o.pos - m) + (m - c) by abel, norm_add_sq_real]
        ring
      have h2 : (o.w • o.pos + (l.map fun o => o.w • o.pos).sum) - (o.w + (l.map Obj.w).sum) • m =
          o.w • (o.pos - m) + ((l.map fun o => o.w • o.pos).sum - (l.map Obj.w).sum • m) := by
        rw [smul_sub, add_smul]; abel
      simp only [List.map_cons, List.sum_cons]
      rw [ih, h2, inner_add_left, real_inner_smul_left, h1]
      ring
  rw [key l, hW, hm, sub_self, inner_zero_left]
  ring

theorem patch_terms (L : List (ℕ × Obj E)) (q : ℕ) (f : ℕ → Obj E → ℝ) :
    ((L.filter fun x => x.1 = q).map fun x => f x.1 x.2).sum = ((patchRowsOf L q).map (f q)).sum := by
  rw [patchRowsOf, List.map_map]
  congr 1
  refine List.map_congr_left fun x hx => ?_
  have := (List.mem_filter.1 hx).2
  simp only [decide_eq_true_eq] at this
  rw [Function.comp, this]

theorem patchRows_mem {L : List (ℕ × Obj E)} {q : ℕ} {o : Obj E} (h : o ∈ patchRowsOf L q) : (q, o) ∈ L := by
  obtain ⟨x, hx, rfl⟩ := List.mem_map.1 h
  obtain ⟨h1, h2⟩ := List.mem_filter.1 hx
  simp only [decide_eq_true_eq] at h2
  subst h2; exact h1

/-- The inertia of a division about given centres. -/
def cost (L : List (ℕ × Obj E)) (cen : ℕ → E) : ℝ := (L.map fun x => x.2.w * dist x.2.pos (cen x.1) ^ 2).sum

theorem patch_weights_zero {L : List (ℕ × Obj E)} (hw : ∀ x ∈ L, 0 ≤ x.2.w) {q : ℕ} (h : ¬ 0 < patchWeight L q) :
    ∀ o ∈ patchRowsOf L q, o.w = 0 := by
  intro o ho
  have nn : ∀ x ∈ (patchRowsOf L q).map Obj.w, 0 ≤ x := by
    intro x hx
    obtain ⟨o, ho, rfl⟩ := List.mem_map.1 hx
    exact hw _ (patchRows_mem ho)
  have h0 : ((patchRowsOf L q).map Obj.w).sum = 0 := le_antisymm (not_lt.1 h) (List.sum_nonneg nn)
  exact List.all_zero_of_le_zero_le_of_sum_eq_zero nn h0 (List.mem_map.2 ⟨o, ho, rfl⟩)

/-- New centres at the means lower the inertia of a division by the shifts. -/
theorem cost_update {n : ℕ} {L : List (ℕ × Obj E)} (hL : ∀ x ∈ L, x.1 < n) (hw : ∀ x ∈ L, 0 ≤ x.2.w) (cen new : ℕ → E)
    (hn : ∀ q < n, 0 < patchWeight L q → new q = patchMean L q) :
    cost L cen = cost L new + ∑ q ∈ Finset.range n, patchWeight L q * dist (new q) (cen q) ^ 2 := by
  unfold cost
  rw [sum_by_patch n L hL, sum_by_patch n L hL, ← Finset.sum_add_distrib]
  refine Finset.sum_congr rfl fun q hq => ?_
  rw [patch_terms L q fun q o => o.w * dist o.pos (cen q) ^ 2, patch_terms L q fun q o => o.w * dist o.pos (new q) ^ 2]
  by_cases h : 0 < patchWeight L q
  · refine huygens _ _ _ _ rfl ?_
    rw [hn q (Finset.mem_range.1 hq) h, patchMean, smul_smul, mul_inv_cancel₀ h.ne', one_smul]
  · have h0 := patch_weights_zero hw h
    have hz : patchWeight L q = 0 := by
      rw [patchWeight, List.map_congr_left fun o ho => h0 o ho]; simp
    have hc : ∀ c : E, ((patchRowsOf L q).map fun o => o.w * dist o.pos c ^ 2).sum = 0 := by
      intro c
      rw [List.map_congr_left (g := fun _ => (0 : ℝ)) fun o ho => by rw [h0 o ho, zero_mul]]
      simp
    rw [hc, hc, hz]
    ring

theorem iInf_near {n : ℕ} {cen : ℕ → E} {p : E} {q : ℕ} (hq : q < n) (h : ∀ q' < n, dist p (cen q) ≤ dist p (cen q')) :
    (⨅ q : Fin n, dist p (cen q) ^ 2) = dist p (cen q) ^ 2 := by
  have : Nonempty (Fin n) := ⟨⟨q, hq⟩⟩
  refine le_antisymm (ciInf_le (Set.finite_range _).bddBelow (⟨q, hq⟩ : Fin n)) (le_ciInf fun q' => ?_)
  exact pow_le_pow_left₀ dist_nonneg (h q' q'.2) 2

theorem wcss_eq {rows : List (Obj E)} {n : ℕ} {cen : ℕ → E} {L : List (ℕ × Obj E)} (h : NearestDivision rows n cen L) :
    wcss rows n cen = cost L cen := by
  rw [wcss, ← (h.rows.map fun o => o.w * ⨅ q : Fin n, dist o.pos (cen q) ^ 2).sum_eq, List.map_map]
  unfold cost
  congr 1
  refine List.map_congr_left fun x hx => ?_
  rw [Function.comp, iInf_near (h.lt x hx) (h.near x hx)]

theorem wcss_le {rows : List (Obj E)} {n : ℕ} (cen : ℕ → E) {L : List (ℕ × Obj E)} (hr : (L.map Prod.snd).Perm rows) (hL : ∀ x ∈ L, x.1 < n)
    (hw : ∀ o ∈ rows, 0 ≤ o.w) : wcss rows n cen ≤ cost L cen := by
  rw [wcss, ← (hr.map fun o => o.w * ⨅ q : Fin n, dist o.pos (cen q) ^ 2).sum_eq, List.map_map]
  unfold cost
  refine List.sum_le_sum fun x hx => ?_
  refine mul_le_mul_of_nonneg_left ?_ (hw _ (hr.mem_iff.1 (List.mem_map.2 ⟨x, hx, rfl⟩)))
  exact ciInf_le (Set.finite_range _).bddBelow (⟨x.1, hL x hx⟩ : Fin n)

end
end TreeCorr.KMeans
