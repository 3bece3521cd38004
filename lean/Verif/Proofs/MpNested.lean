import Verif.Proofs.MpSlopSums
import Verif.Proofs.NearHull
import Verif.Props.Multipole

/-! The centres of the cells of a tree are nested. -/

namespace TreeCorr
open Classical
variable {P : Type} [PseudoMetricSpace P]

/-- No row is further from another than the radius up to which balls hold the means of rows in them. -/
def Gathered (g : Geom P) (l : List (Obj P)) : Prop :=
  ∃ U R, g.Hull U R ∧ (∀ o ∈ l, U o.pos ∧ 0 ≤ o.wpos) ∧ ∀ o ∈ l, ∀ o' ∈ l, dist o.pos o'.pos ≤ R

theorem gathered_flat (d : ℕ) (l : List (Obj (EuclideanSpace ℝ (Fin d)))) (hw : ∀ o ∈ l, 0 ≤ o.wpos) : Gathered (euclidGeom d) l := by
  obtain ⟨R, hR⟩ := ((l.flatMap fun o => l.map fun o' => dist o.pos o'.pos).toFinset : Finset ℝ).bddAbove
  refine ⟨_, R, euclidGeom_hull d R, fun o ho => ⟨trivial, hw o ho⟩, fun o ho o' ho' => hR ?_⟩
  simp only [Finset.mem_coe, List.mem_toFinset, List.mem_flatMap, List.mem_map]
  exact ⟨o, ho, o', ho', rfl⟩

theorem gathered_sphere {l : List (Obj (EuclideanSpace ℝ (Fin 3)))} (hw : ∀ o ∈ l, 0 ≤ o.wpos) (hu : ∀ o ∈ l, ‖o.pos‖ = 1) {R : ℝ}
    (hR : R < Real.sqrt 2) (hd : ∀ o ∈ l, ∀ o' ∈ l, dist o.pos o'.pos ≤ R) : Gathered sphereGeom l :=
  ⟨_, R, sphereGeom_hull hR, fun o ho => ⟨hu o ho, hw o ho⟩, hd⟩

theorem Gathered.sub {g : Geom P} {l l' : List (Obj P)} (h : Gathered g l) (hs : ∀ o ∈ l', o ∈ l) : Gathered g l' := by
  obtain ⟨U, R, h1, h2, h3⟩ := h
  exact ⟨U, R, h1, fun o ho => h2 o (hs o ho), fun o ho o' ho' => h3 o (hs o ho) o' (hs o' ho')⟩

theorem buildCell_centres (A : StdAlg P) (g : Geom P) {U : P → Prop} {R : ℝ} (hh : g.Hull U R) (sm : SplitMethod) (m : ℝ)
    (l : List (Obj P)) : l ≠ [] → (∀ o ∈ l, U o.pos ∧ 0 ≤ o.wpos) → ∀ c, U c → ∀ s ≤ R, (∀ o ∈ l, dist o.pos c ≤ s) →
      ∀ q ∈ (buildCell A g sm m l).centres, dist q c ≤ s := by
  induction l using buildCell.induct A g sm m with
  | case1 => intro h; exact absurd rfl h
  | case2 o =>
    intro _ hl c hc s hs h q hq
    simp only [buildCell, Cell.centres, List.mem_singleton] at hq
    exact hq ▸ h o (by simp)
  | case3 o1 o2 os l d sz h sp ih1 ih2 =>
    intro hne hl c hc s hs hd q hq
    rw [buildCell, if_pos h] at hq
    have hp := splitData_perm A g sm (o1 :: o2 :: os) d.pos
    have hlt := splitData_lt A g sm (o1 :: o2 :: os) d.pos (by simp)
    simp only [Cell.centres, List.mem_cons, List.mem_append] at hq
    have m1 : ∀ o ∈ sp.1, o ∈ l := fun o ho => hp.mem_iff.1 (List.mem_append_left _ ho)
    have m2 : ∀ o ∈ sp.2, o ∈ l := fun o ho => hp.mem_iff.1 (List.mem_append_right _ ho)
    rcases hq with hq | hq | hq
    · rw [hq]; exact hh.mean_dist l hne hl c hc s hs hd
    · exact ih1 (List.ne_nil_of_length_pos hlt.1) (fun o ho => hl o (m1 o ho)) c hc s hs (fun o ho => hd o (m1 o ho)) q hq
    · exact ih2 (List.ne_nil_of_length_pos hlt.2.2.1) (fun o ho => hl o (m2 o ho)) c hc s hs (fun o ho => hd o (m2 o ho)) q hq
  | case4 o1 o2 os l d sz h =>
    intro hne hl c hc s hs hd q hq
    rw [buildCell, if_neg h] at hq
    simp only [Cell.centres, List.mem_singleton] at hq
    rw [hq]
    exact hh.mean_dist l hne hl c hc s hs hd

theorem buildCell_nested (A : StdAlg P) (g : Geom P) (hg : g.Dominates) (sm : SplitMethod) {m : ℝ} (hm : 0 ≤ m) (l : List (Obj P))
    (hl : Gathered g l) : (buildCell A g sm (m * m) l).Nested := by
  induction l using buildCell.induct A g sm (m * m) with
  | case1 => simp [buildCell, Cell.Nested]
  | case2 o => simp [buildCell, Cell.Nested]
  | case3 o1 o2 os l d sz h sp ih1 ih2 =>
    have hb := buildCell_bounded A g hg sm hm l
    have hper := buildCell_perm A g sm (m * m) l
    simp only [l] at hb hper
    rw [buildCell, if_pos h] at hb hper ⊢
    have hp := splitData_perm A g sm (o1 :: o2 :: os) d.pos
    have hlt := splitData_lt A g sm (o1 :: o2 :: os) d.pos (by simp)
    have m1 : ∀ o ∈ sp.1, o ∈ l := fun o ho => hp.mem_iff.1 (List.mem_append_left _ ho)
    have m2 : ∀ o ∈ sp.2, o ∈ l := fun o ho => hp.mem_iff.1 (List.mem_append_right _ ho)
    refine ⟨?_, ih1 (hl.sub m1), ih2 (hl.sub m2)⟩
    obtain ⟨U, R, hh, hu, hR⟩ := hl
    have hc : U d.pos := hh.mean_mem l (by simp [l]) fun o ho => (hu o ho).1
    have hd : ∀ o ∈ l, dist o.pos d.pos ≤ min (Real.sqrt sz) R := by
      intro o ho
      refine le_min (hb.2.1 o (hper.mem_iff.2 ho)) ?_
      rw [dist_comm]
      exact hh.mean_dist l (by simp [l]) hu o.pos (hu o ho).1 R le_rfl fun o' ho' => hR o' ho' o ho
    intro x hx
    rcases List.mem_append.1 hx with hx | hx
    · exact (buildCell_centres A g hh sm _ sp.1 (List.ne_nil_of_length_pos hlt.1) (fun o ho => hu o (m1 o ho)) d.pos hc _ (min_le_right _ _)
        (fun o ho => hd o (m1 o ho)) x hx).trans (min_le_left _ _)
    · exact (buildCell_centres A g hh sm _ sp.2 (List.ne_nil_of_length_pos hlt.2.2.1) (fun o ho => hu o (m2 o ho)) d.pos hc _
        (min_le_right _ _) (fun o ho => hd o (m2 o ho)) x hx).trans (min_le_left _ _)
  | case4 o1 o2 os l d sz h => rw [buildCell, if_neg h]; trivial

theorem field_slopCell (A : StdAlg P) (g : Geom P) (hg : g.Dominates) (fp : FieldParams) {δ : ℝ} (hδ : 0 ≤ δ) (hf : fp.minsize = δ)
    (l : List (Obj P)) (hl : Gathered g l) : ∀ c ∈ (buildField A g fp l).cells, SlopCell δ False c := by
  intro c hc
  subst hf
  refine ⟨⟨buildField_bounded A g hg fp hδ l c hc, ?_⟩, False.elim⟩
  simp only [buildField, List.mem_map] at hc
  obtain ⟨s, hs, rfl⟩ := hc
  refine buildCell_nested A g hg fp.sm hδ s (hl.sub fun o ho => ?_)
  rw [← (topCells_perm A g fp.sm (fp.maxsize * fp.maxsize) fp.mintop fp.maxtop l).mem_iff]
  exact List.mem_flatten.2 ⟨s, hs, ho⟩

theorem field_slopApart (A : StdAlg P) (g : Geom P) (hg : g.Dominates) (fp : FieldParams) (hf : fp.minsize = 0)
    (l : List (Obj P)) (hl : Gathered g l) (ha : Apart l) : ∀ c ∈ (buildField A g fp l).cells, SlopCell 0 True c :=
  fun c hc => ⟨(field_slopCell A g hg fp le_rfl hf l hl c hc).1, fun _ => ⟨(field_mpCell A g hg fp hf l c hc).1.1,
    apart_cell (apart_perm (buildField_objs A g fp l) ha) hc⟩⟩

/-- The views do not depend on the order of the rows. -/
theorem SeenViews.perm {p : Params} {δ : ℝ} {l1 l1' l2 l2' l3 l3' : List (Obj P)} {L : List (View P)} (h : SeenViews p δ l1 l2 l3 L)
    (h1 : l1.Perm l1') (h2 : l2.Perm l2') (h3 : l3.Perm l3') : SeenViews p δ l1' l2' l3' L := by
  refine ⟨h.rows.trans h1, ?_, ?_⟩
  · rw [← Multiset.coe_eq_coe.2 h2]; exact h.sees2
  · rw [← Multiset.coe_eq_coe.2 h3]; exact h.sees3

end TreeCorr
