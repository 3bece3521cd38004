import Verif.Model.Tree
import Verif.Proofs.LogExact

/-! The tree builder makes good cells holding every object once. -/

namespace TreeCorr
open Classical
variable {P : Type}

theorem foldl_max_ge (f : Obj P → ℝ) (l : List (Obj P)) (s : ℝ) :
    s ≤ l.foldl (fun s o => if f o > s then f o else s) s ∧
    ∀ o ∈ l, f o ≤ l.foldl (fun s o => if f o > s then f o else s) s := by
  induction l generalizing s with
  | nil => simp
  | cons o os ih =>
    simp only [List.foldl_cons, List.mem_cons, forall_eq_or_imp]
    obtain ⟨h1, h2⟩ := ih (if f o > s then f o else s)
    refine ⟨?_, ?_, h2⟩
    · refine le_trans ?_ h1
      split
      · rename_i h; exact le_of_lt h
      · exact le_rfl
    · refine le_trans ?_ h1
      split
      · exact le_rfl
      · rename_i h; exact not_lt.1 h

theorem calcSizeSq_nonneg (g : Geom P) (cen : P) (l : List (Obj P)) : 0 ≤ calcSizeSq g cen l :=
  (foldl_max_ge (fun o => g.normSq cen o.pos) l 0).1

theorem le_calcSizeSq (g : Geom P) (cen : P) (l : List (Obj P)) {o : Obj P} (h : o ∈ l) :
    g.normSq cen o.pos ≤ calcSizeSq g cen l :=
  (foldl_max_ge (fun o => g.normSq cen o.pos) l 0).2 o h

theorem buildCell_perm (A : StdAlg P) (g : Geom P) (sm : SplitMethod) (m : ℝ) (l : List (Obj P)) :
    (buildCell A g sm m l).objs.Perm l := by
  induction l using buildCell.induct A g sm m with
  | case1 => simp [buildCell, Cell.objs]
  | case2 o => simp [buildCell, Cell.objs]
  | case3 o1 o2 os l data sizesq h sp ih1 ih2 =>
    rw [buildCell, if_pos h]
    simp only [Cell.objs]
    exact (ih1.append ih2).trans (splitData_perm A g sm l data.pos)
  | case4 o1 o2 os l data sizesq h =>
    rw [buildCell, if_neg h]
    simp [Cell.objs]

theorem buildCell_sumsOK (A : StdAlg P) (g : Geom P) (sm : SplitMethod) (m : ℝ) (l : List (Obj P)) :
    l ≠ [] → (buildCell A g sm m l).SumsOK := by
  induction l using buildCell.induct A g sm m with
  | case1 => intro h; exact (h rfl).elim
  | case2 o => intro _; simp [buildCell, Cell.SumsOK]
  | case3 o1 o2 os l data sizesq h sp ih1 ih2 =>
    intro _
    have hp := buildCell_perm A g sm m l
    have hl : buildCell A g sm m l = .node data (Real.sqrt sizesq) (buildCell A g sm m sp.1)
        (buildCell A g sm m sp.2) := by
      rw [show l = o1 :: o2 :: os from rfl, buildCell, if_pos h]
    change (buildCell A g sm m l).SumsOK
    rw [hl] at hp ⊢
    have hlt := splitData_lt A g sm l data.pos (by simp [l])
    have n1 : sp.1 ≠ [] := List.length_pos_iff.1 hlt.1
    have n2 : sp.2 ≠ [] := List.length_pos_iff.1 hlt.2.2.1
    refine ⟨hp.length_eq.symm, ?_, ?_, ih1 n1, ih2 n2⟩
    · exact (hp.map Obj.w).sum_eq.symm
    · exact (hp.map Obj.wk).sum_eq.symm
  | case4 o1 o2 os l data sizesq h =>
    intro _
    rw [buildCell, if_neg h]
    exact ⟨by simp, rfl, rfl, rfl⟩

/-- The size computed with `normSq` bounds the distance used by the metric. -/
def Geom.Dominates [PseudoMetricSpace P] (g : Geom P) : Prop :=
  ∀ p q : P, dist p q ^ 2 ≤ g.normSq q p

theorem buildCell_bounded [PseudoMetricSpace P] (A : StdAlg P) (g : Geom P) (hg : g.Dominates)
    (sm : SplitMethod) {m : ℝ} (hm : 0 ≤ m) (l : List (Obj P)) :
    (buildCell A g sm (m * m) l).Bounded m := by
  induction l using buildCell.induct A g sm (m * m) with
  | case1 => simp [buildCell, Cell.Bounded]
  | case2 o => simp [buildCell, Cell.Bounded, hm]
  | case3 o1 o2 os l data sizesq h sp ih1 ih2 =>
    rw [buildCell, if_pos h]
    have h0 : 0 < sizesq := lt_of_le_of_lt (mul_nonneg hm hm) h
    refine ⟨Real.sqrt_pos.2 h0, ?_, ih1, ih2⟩
    intro o ho
    have hp := ((buildCell_perm A g sm (m * m) sp.1).append
      (buildCell_perm A g sm (m * m) sp.2)).trans (splitData_perm A g sm l data.pos)
    have hol : o ∈ l := hp.mem_iff.1 ho
    apply Real.le_sqrt_of_sq_le
    exact (hg o.pos data.pos).trans (le_calcSizeSq g data.pos l hol)
  | case4 o1 o2 os l data sizesq h =>
    rw [buildCell, if_neg h]
    intro o ho
    have h1 := (hg o.pos data.pos).trans (le_calcSizeSq g data.pos l ho)
    have h2 : dist o.pos data.pos ^ 2 ≤ m ^ 2 := by
      rw [sq m]; exact h1.trans (not_lt.1 h)
    exact le_of_sq_le_sq h2 hm

theorem topCells_perm (A : StdAlg P) (g : Geom P) (sm : SplitMethod) (mx : ℝ) (mintop maxtop : ℤ)
    (l : List (Obj P)) : (topCells A g sm mx mintop maxtop l).flatten.Perm l := by
  induction mintop, maxtop, l using topCells.induct A g sm mx with
  | case1 => simp [topCells]
  | case2 mintop maxtop o => simp [topCells]
  | case3 mintop maxtop o1 o2 os l ave sizesq h =>
    rw [topCells, if_pos h]; simp
  | case4 mintop maxtop o1 o2 os l ave sizesq h h2 =>
    rw [topCells, if_neg h, if_pos h2]; simp
  | case5 mintop maxtop o1 o2 os l ave sizesq h h2 sp ih1 ih2 =>
    rw [topCells, if_neg h, if_neg h2, List.flatten_append]
    exact (ih1.append ih2).trans (splitData_perm A g sm l ave)

theorem topCells_ne_nil (A : StdAlg P) (g : Geom P) (sm : SplitMethod) (mx : ℝ) (mintop maxtop : ℤ)
    (l : List (Obj P)) : ∀ s ∈ topCells A g sm mx mintop maxtop l, s ≠ [] := by
  induction mintop, maxtop, l using topCells.induct A g sm mx with
  | case1 => simp [topCells]
  | case2 mintop maxtop o => simp [topCells]
  | case3 mintop maxtop o1 o2 os l ave sizesq h =>
    rw [topCells, if_pos h]; simp
  | case4 mintop maxtop o1 o2 os l ave sizesq h h2 =>
    rw [topCells, if_neg h, if_pos h2]; simp
  | case5 mintop maxtop o1 o2 os l ave sizesq h h2 sp ih1 ih2 =>
    rw [topCells, if_neg h, if_neg h2]
    intro s hs
    rcases List.mem_append.1 hs with hs | hs
    · exact ih1 s hs
    · exact ih2 s hs

theorem flatMap_perm_flatten {α β : Type} (f : List α → β) (g : β → List α)
    (h : ∀ l, (g (f l)).Perm l) (ls : List (List α)) :
    ((ls.map f).flatMap g).Perm ls.flatten := by
  induction ls with
  | nil => simp
  | cons l ls ih => simpa using (h l).append ih

theorem buildField_objs (A : StdAlg P) (g : Geom P) (fp : FieldParams) (l : List (Obj P)) :
    (objsOf (buildField A g fp l).cells).Perm l :=
  (flatMap_perm_flatten _ _ (buildCell_perm A g fp.sm (fp.minsize * fp.minsize)) _).trans
    (topCells_perm A g fp.sm _ fp.mintop fp.maxtop l)

theorem buildField_bounded [PseudoMetricSpace P] (A : StdAlg P) (g : Geom P) (hg : g.Dominates)
    (fp : FieldParams) (hm : 0 ≤ fp.minsize) (l : List (Obj P)) :
    ∀ c ∈ (buildField A g fp l).cells, c.Bounded fp.minsize ∧ c.SumsOK := by
  intro c hc
  simp only [buildField, List.mem_map] at hc
  obtain ⟨s, hs, rfl⟩ := hc
  exact ⟨buildCell_bounded A g hg fp.sm hm s,
    buildCell_sumsOK A g fp.sm _ s (topCells_ne_nil A g fp.sm _ fp.mintop fp.maxtop l s hs)⟩

theorem buildField_good [PseudoMetricSpace P] (A : StdAlg P) (g : Geom P) (hg : g.Dominates)
    (fp : FieldParams) (hm : 0 ≤ fp.minsize) (l : List (Obj P)) (hw : ∀ o ∈ l, 0 < o.w) :
    ∀ c ∈ (buildField A g fp l).cells, GoodCell fp.minsize c := by
  intro c hc
  refine ⟨buildField_bounded A g hg fp hm l c hc, ?_⟩
  intro o ho
  apply hw
  rw [← (buildField_objs A g fp l).mem_iff]
  exact List.mem_flatMap.2 ⟨c, hc, ho⟩

theorem buildField_center [PseudoMetricSpace P] (A : StdAlg P) (g : Geom P) (hg : g.Dominates)
    (fp : FieldParams) (l : List (Obj P)) :
    ∀ o ∈ l, dist o.pos (buildField A g fp l).center ≤ (buildField A g fp l).size := by
  intro o ho
  apply Real.le_sqrt_of_sq_le
  exact (hg o.pos _).trans (le_calcSizeSq g _ l ho)

theorem euclidGeom_dominates (d : ℕ) : (euclidGeom d).Dominates := by
  intro p q
  simp only [euclidGeom]
  rw [dist_comm, dist_eq_norm]

theorem sphereGeom_dominates : sphereGeom.Dominates := by
  intro p q
  simp only [sphereGeom, euclidGeom]
  rw [dist_comm, dist_eq_norm]

end TreeCorr
