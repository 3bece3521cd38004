import Verif.Proofs.MpFields
import Verif.Props.LogCounts

/-!
C57: a three-point correlation with `LogMultipole` bins and no slop holds, for each pair of side bins, the number of triangles, the
sums of the sides, and the multipoles of the weight and of the correlation.
-/

namespace TreeCorr
open Classical
variable {P : Type}

section
variable [PseudoMetricSpace P]

theorem field_mpCell (A : StdAlg P) (g : Geom P) (hg : g.Dominates) (fp : FieldParams) (hf : fp.minsize = 0) (l : List (Obj P)) :
    ∀ c ∈ (buildField A g fp l).cells, MpCell False c := by
  intro c hc
  have := buildField_bounded A g hg fp hf.ge l c hc
  rw [hf] at this
  exact ⟨this, False.elim⟩

theorem field_mpApart (A : StdAlg P) (g : Geom P) (hg : g.Dominates) (fp : FieldParams) (hf : fp.minsize = 0) (l : List (Obj P))
    (ha : Apart l) : ∀ c ∈ (buildField A g fp l).cells, MpCell True c :=
  fun c hc => ⟨(field_mpCell A g hg fp hf l c hc).1, fun _ => apart_cell (apart_perm (buildField_objs A g fp l) ha) hc⟩

theorem cross12_perm {α : Type} {l1 l1' l2 l2' : List α} (h1 : l1.Perm l1') (h2 : l2.Perm l2') :
    cross12Triples l1 l2 = cross12Triples l1' l2' := by
  rw [← from12_first_eq, ← from12_first_eq]; exact from12_perm (by simp) h1 h2

theorem swap_perm {α : Type} (s : Bool) {l1 l1' l2 l2' l3 l3' : List α} (h1 : l1.Perm l1') (h2 : l2.Perm l2') (h3 : l3.Perm l3') :
    swapTriples s l1 l2 l3 = swapTriples s l1' l2' l3' := by
  unfold swapTriples crossTriples
  rw [Multiset.coe_eq_coe.2 h1, Multiset.coe_eq_coe.2 h2, Multiset.coe_eq_coe.2 h3]

theorem unitAt_of {p : Params} {ph : P → P → ℂ} {n : ℤ} {l1 l2 : List (Obj P)} (h : n = 0 ∨ p.a = 0 ∧ IsPhase ph l1 l2) :
    PhaseOk p ph n ∧ ∀ o1 ∈ l1, ∀ o2 ∈ l2, dist o1.pos o2.pos ≠ 0 → UnitAt ph n o1.pos o2 := by
  rcases h with h | ⟨ha, h⟩
  · exact ⟨.inl h, fun _ _ _ _ _ => .inl h⟩
  · exact ⟨.inr ⟨ha, h.same⟩, fun o1 h1 o2 h2 hd => .inr (h.unit o1 h1 o2 h2 hd)⟩

theorem unitOn_swap {ph : P → P → ℂ} {n : ℤ} {l1 l2 l3 : List (Obj P)} (s : Bool)
    (h2 : ∀ o1 ∈ l1, ∀ o2 ∈ l2, dist o1.pos o2.pos ≠ 0 → UnitAt ph n o1.pos o2)
    (h3 : ∀ o1 ∈ l1, ∀ o2 ∈ l3, dist o1.pos o2.pos ≠ 0 → UnitAt ph n o1.pos o2) : UnitOn ph n (swapTriples s l1 l2 l3) := by
  rintro ⟨a, b, c⟩ hq
  unfold swapTriples crossTriples at hq
  cases s
  · simp only [Bool.false_eq_true, if_false, add_zero, Multiset.mem_product, Multiset.mem_coe] at hq
    exact ⟨h2 a hq.1 b hq.2.1, h3 a hq.1 c hq.2.2⟩
  · simp only [if_true, Multiset.mem_add, Multiset.mem_product, Multiset.mem_coe] at hq
    rcases hq with hq | hq
    · exact ⟨h2 a hq.1 b hq.2.1, h3 a hq.1 c hq.2.2⟩
    · exact ⟨h3 a hq.1 b hq.2.1, h2 a hq.1 c hq.2.2⟩

variable {p : Params} (hp : LogParams p) (hnb : 0 < p.nbins) (hsh : p.b = 0 ∨ p.a = 0) (maxn : ℕ) (ph : P → P → ℂ)
include hp hnb hsh

/-- **C57, one catalogue, partly.** With `bin_slop = 0` or `angle_slop = 0` the run ends and `ntri` is exact for every catalogue.  If
no two rows are at the same place, the total weight and correlation (`n = 0`) are exact; with `angle_slop = 0` so are all multipoles
with `|n| ≤ max_n`, and the sums of the sides and of their logarithms.  Missing: rows at the same place
(`multipole_coincident_wrong`), slop. -/
theorem multipole_auto_exact_partial (A : StdAlg P) (g : Geom P) (hg : g.Dominates) (fp : FieldParams) (hf : fp.minsize = 0)
    (l : List (Obj P)) :
    ∃ out, multipoleAuto p maxn ph (buildField A g fp l).cells = some out ∧
      MpCounts p (orderedTriples l) out ∧
      (Apart l →
        (∀ n : ℤ, n.natAbs ≤ maxn → (n = 0 ∨ p.a = 0 ∧ IsPhase ph l l) → MpPhases p ph n (orderedTriples l) out) ∧
        (p.a = 0 → MpMeans p (orderedTriples l) out ∧ MpLog3 p (orderedTriples l) out)) := by
  have q := field_mpCell A g hg fp hf l
  have hl := buildField_objs A g fp l
  obtain ⟨out, e, h1, h2⟩ := run_holds (ph := ph) (maxn := maxn) hp hnb hsh _ _ q q
  have hT : ∀ k2 k3, (cross12Triples (objsOf (buildField A g fp l).cells) (objsOf (buildField A g fp l).cells)).filter
      (InSides p k2 k3) = (orderedTriples l).filter (InSides p k2 k3) := by
    intro k2 k3
    rw [cross12_perm hl hl]
    exact ordered_filter l _ (InSides.ne1 hp) (InSides.ne2 hp)
  refine ⟨out, e, h1.congr hT, ?_⟩
  intro ha
  obtain ⟨h3, h4⟩ := h2 (field_mpApart A g hg fp hf l ha)
  refine ⟨?_, fun h => ⟨(h4 h).1.congr hT, (h4 h).2.congr hT⟩⟩
  intro n hn h
  obtain ⟨k1, k2⟩ := unitAt_of h
  exact (h3 n hn k1 fun o1 m1 o2 m2 => k2 o1 (hl.mem_iff.1 m1) o2 (hl.mem_iff.1 m2)).congr hT

/-- **C57, two catalogues, partly.** `ordered=True`: point 1 is from the first catalogue. -/
theorem multipole_cross12_exact_partial (A1 A2 : StdAlg P) (g : Geom P) (hg : g.Dominates) (fp1 fp2 : FieldParams)
    (hf1 : fp1.minsize = 0) (hf2 : fp2.minsize = 0) (l1 l2 : List (Obj P)) :
    ∃ out, multipoleCross12 p maxn ph true (buildField A1 g fp1 l1).cells (buildField A2 g fp2 l2).cells = some out ∧
      MpCounts p (cross12Triples l1 l2) out ∧
      (Apart l2 →
        (∀ n : ℤ, n.natAbs ≤ maxn → (n = 0 ∨ p.a = 0 ∧ IsPhase ph l1 l2) → MpPhases p ph n (cross12Triples l1 l2) out) ∧
        (p.a = 0 → MpMeans p (cross12Triples l1 l2) out ∧ MpLog3 p (cross12Triples l1 l2) out)) := by
  have q1 := field_mpCell A1 g hg fp1 hf1 l1
  have q2 := field_mpCell A2 g hg fp2 hf2 l2
  have e1 := buildField_objs A1 g fp1 l1
  have e2 := buildField_objs A2 g fp2 l2
  obtain ⟨out, e, h1, h2⟩ := run_holds (ph := ph) (maxn := maxn) hp hnb hsh _ _ q1 q2
  rw [cross12_perm e1 e2] at h1 h2
  refine ⟨out, by simp only [multipoleCross12, if_true, e, List.nil_append], h1, ?_⟩
  intro ha
  obtain ⟨h3, h4⟩ := h2 (field_mpApart A2 g hg fp2 hf2 l2 ha)
  refine ⟨?_, h4⟩
  intro n hn h
  obtain ⟨k1, k2⟩ := unitAt_of h
  exact h3 n hn k1 fun o1 m1 o2 m2 => k2 o1 (e1.mem_iff.1 m1) o2 (e2.mem_iff.1 m2)

/-- **C57, two catalogues, any order, partly.** `ordered=False`: the rows may take any place in the triangle.  Missing besides:
`meanlogd3` (`multipole_meanlogd3_wrong`). -/
theorem multipole_cross12_unordered_exact_partial (A1 A2 : StdAlg P) (g : Geom P) (hg : g.Dominates) (fp1 fp2 : FieldParams)
    (hf1 : fp1.minsize = 0) (hf2 : fp2.minsize = 0) (l1 l2 : List (Obj P)) :
    ∃ out, multipoleCross12 p maxn ph false (buildField A1 g fp1 l1).cells (buildField A2 g fp2 l2).cells = some out ∧
      MpCounts p (mixedTriples l1 l2) out ∧
      (Apart l2 →
        (∀ n : ℤ, n.natAbs ≤ maxn → (n = 0 ∨ p.a = 0 ∧ IsPhase ph (l1 ++ l2) (l1 ++ l2)) → MpPhases p ph n (mixedTriples l1 l2) out) ∧
        (p.a = 0 → MpMeans p (mixedTriples l1 l2) out)) := by
  have q1 := field_mpCell A1 g hg fp1 hf1 l1
  have q2 := field_mpCell A2 g hg fp2 hf2 l2
  have e1 := buildField_objs A1 g fp1 l1
  have e2 := buildField_objs A2 g fp2 l2
  obtain ⟨out, e, h1, h2⟩ := run_holds (ph := ph) (maxn := maxn) hp hnb hsh _ _ q1 q2
  obtain ⟨out', e', h1', h2', h3', -⟩ := run2_holds (ph := ph) (maxn := maxn) hp hnb hsh true _ _ _ q2 q1 q2
  rw [cross12_perm e1 e2] at h1 h2
  rw [swap_perm true e2 e1 e2] at h1' h2' h3'
  have hT : ∀ k2 k3, (swapTriples true l2 l1 l2 + cross12Triples l1 l2).filter (InSides p k2 k3) =
      (mixedTriples l1 l2).filter (InSides p k2 k3) := by
    intro k2 k3
    exact mixed_filter l1 l2 _ (InSides.ne1 hp) (InSides.ne2 hp)
  refine ⟨out' ++ out, by simp only [multipoleCross12, Bool.false_eq_true, if_false, e, e'], (h1'.append h1).congr hT, ?_⟩
  intro ha
  obtain ⟨h3, h4⟩ := h2 (field_mpApart A2 g hg fp2 hf2 l2 ha)
  refine ⟨?_, fun h => ((h3' h).append (h4 h).1).congr hT⟩
  intro n hn h
  obtain ⟨k1, k2⟩ := unitAt_of h
  have m : ∀ {o : Obj P}, o ∈ l1 ∨ o ∈ l2 → o ∈ l1 ++ l2 := fun h => List.mem_append.2 h
  exact ((h2' n hn k1 (unitOn_swap true (fun o1 m1 o2 m2 => k2 o1 (m (.inr m1)) o2 (m (.inl m2)))
    (fun o1 m1 o2 m2 => k2 o1 (m (.inr m1)) o2 (m (.inr m2))))).append
    (h3 n hn k1 fun o1 m1 o2 m2 => k2 o1 (m (.inl (e1.mem_iff.1 m1))) o2 (m (.inr (e2.mem_iff.1 m2))))).congr hT

/-- **C57, three catalogues, partly.** `ordered=True`: every row in the place of its catalogue.  Rows at the same place do no harm
here.  Missing: slop. -/
theorem multipole_cross123_exact_partial (A1 A2 A3 : StdAlg P) (g : Geom P) (hg : g.Dominates) (fp1 fp2 fp3 : FieldParams)
    (hf1 : fp1.minsize = 0) (hf2 : fp2.minsize = 0) (hf3 : fp3.minsize = 0) (l1 l2 l3 : List (Obj P)) :
    ∃ out, multipoleCross123 p maxn ph .fixed (buildField A1 g fp1 l1).cells (buildField A2 g fp2 l2).cells
        (buildField A3 g fp3 l3).cells = some out ∧
      MpCounts p (crossTriples l1 l2 l3) out ∧
      (∀ n : ℤ, n.natAbs ≤ maxn → (n = 0 ∨ p.a = 0 ∧ IsPhase ph l1 (l2 ++ l3)) → MpPhases p ph n (crossTriples l1 l2 l3) out) ∧
      (p.a = 0 → MpMeans p (crossTriples l1 l2 l3) out ∧ MpLog3 p (crossTriples l1 l2 l3) out) := by
  obtain ⟨out, e, h1, h2, h3, h4⟩ := run2_holds (ph := ph) (maxn := maxn) hp hnb hsh false _ _ _ (field_mpCell A1 g hg fp1 hf1 l1)
    (field_mpCell A2 g hg fp2 hf2 l2) (field_mpCell A3 g hg fp3 hf3 l3)
  rw [swap_perm false (buildField_objs A1 g fp1 l1) (buildField_objs A2 g fp2 l2) (buildField_objs A3 g fp3 l3)] at h1 h2 h3 h4
  have hs : swapTriples false l1 l2 l3 = crossTriples l1 l2 l3 := by simp [swapTriples]
  have m : ∀ {o : Obj P}, o ∈ l2 ∨ o ∈ l3 → o ∈ l2 ++ l3 := fun h => List.mem_append.2 h
  refine ⟨out, e, hs ▸ h1, ?_, fun h => ⟨hs ▸ h3 h, hs ▸ h4 h rfl⟩⟩
  intro n hn h
  obtain ⟨k1, k2⟩ := unitAt_of h
  exact hs ▸ h2 n hn k1 (unitOn_swap false (fun o1 m1 o2 m2 => k2 o1 m1 o2 (m (.inl m2)))
    (fun o1 m1 o2 m2 => k2 o1 m1 o2 (m (.inr m2))))

/-- **C57, three catalogues, point 1 from the first, partly.** `ordered=1`: points 2 and 3 may swap.  Missing besides: `meanlogd3`
(`multipole_meanlogd3_wrong`). -/
theorem multipole_cross123_first_exact_partial (A1 A2 A3 : StdAlg P) (g : Geom P) (hg : g.Dominates) (fp1 fp2 fp3 : FieldParams)
    (hf1 : fp1.minsize = 0) (hf2 : fp2.minsize = 0) (hf3 : fp3.minsize = 0) (l1 l2 l3 : List (Obj P)) :
    ∃ out, multipoleCross123 p maxn ph .first (buildField A1 g fp1 l1).cells (buildField A2 g fp2 l2).cells
        (buildField A3 g fp3 l3).cells = some out ∧
      MpCounts p (crossTriples l1 l2 l3 + crossTriples l1 l3 l2) out ∧
      (∀ n : ℤ, n.natAbs ≤ maxn → (n = 0 ∨ p.a = 0 ∧ IsPhase ph l1 (l2 ++ l3)) →
        MpPhases p ph n (crossTriples l1 l2 l3 + crossTriples l1 l3 l2) out) ∧
      (p.a = 0 → MpMeans p (crossTriples l1 l2 l3 + crossTriples l1 l3 l2) out) := by
  obtain ⟨out, e, h1, h2, h3, -⟩ := run2_holds (ph := ph) (maxn := maxn) hp hnb hsh true _ _ _ (field_mpCell A1 g hg fp1 hf1 l1)
    (field_mpCell A2 g hg fp2 hf2 l2) (field_mpCell A3 g hg fp3 hf3 l3)
  rw [swap_perm true (buildField_objs A1 g fp1 l1) (buildField_objs A2 g fp2 l2) (buildField_objs A3 g fp3 l3)] at h1 h2 h3
  have m : ∀ {o : Obj P}, o ∈ l2 ∨ o ∈ l3 → o ∈ l2 ++ l3 := fun h => List.mem_append.2 h
  refine ⟨out, e, h1, ?_, h3⟩
  intro n hn h
  obtain ⟨k1, k2⟩ := unitAt_of h
  exact h2 n hn k1 (unitOn_swap true (fun o1 m1 o2 m2 => k2 o1 m1 o2 (m (.inl m2)))
    (fun o1 m1 o2 m2 => k2 o1 m1 o2 (m (.inr m2))))

/-- **C57, three catalogues, any order, partly.** `ordered=False`.  Missing besides: `meanlogd3`. -/
theorem multipole_cross123_unordered_exact_partial (A1 A2 A3 : StdAlg P) (g : Geom P) (hg : g.Dominates) (fp1 fp2 fp3 : FieldParams)
    (hf1 : fp1.minsize = 0) (hf2 : fp2.minsize = 0) (hf3 : fp3.minsize = 0) (l1 l2 l3 : List (Obj P)) :
    ∃ out, multipoleCross123 p maxn ph .any (buildField A1 g fp1 l1).cells (buildField A2 g fp2 l2).cells
        (buildField A3 g fp3 l3).cells = some out ∧
      MpCounts p (mixed3Triples l1 l2 l3) out ∧
      (∀ n : ℤ, n.natAbs ≤ maxn → (n = 0 ∨ p.a = 0 ∧ IsPhase ph (l1 ++ l2 ++ l3) (l1 ++ l2 ++ l3)) →
        MpPhases p ph n (mixed3Triples l1 l2 l3) out) ∧
      (p.a = 0 → MpMeans p (mixed3Triples l1 l2 l3) out) := by
  have q1 := field_mpCell A1 g hg fp1 hf1 l1
  have q2 := field_mpCell A2 g hg fp2 hf2 l2
  have q3 := field_mpCell A3 g hg fp3 hf3 l3
  have e1 := buildField_objs A1 g fp1 l1
  have e2 := buildField_objs A2 g fp2 l2
  have e3 := buildField_objs A3 g fp3 l3
  obtain ⟨a, ea, a1, a2, a3, -⟩ := run2_holds (ph := ph) (maxn := maxn) hp hnb hsh true _ _ _ q2 q1 q3
  obtain ⟨b, eb, b1, b2, b3, -⟩ := run2_holds (ph := ph) (maxn := maxn) hp hnb hsh true _ _ _ q3 q1 q2
  obtain ⟨c, ec, c1, c2, c3, -⟩ := run2_holds (ph := ph) (maxn := maxn) hp hnb hsh true _ _ _ q1 q2 q3
  rw [swap_perm true e2 e1 e3] at a1 a2 a3
  rw [swap_perm true e3 e1 e2] at b1 b2 b3
  rw [swap_perm true e1 e2 e3] at c1 c2 c3
  have hs : mixed3Triples l1 l2 l3 = swapTriples true l2 l1 l3 + (swapTriples true l3 l1 l2 + swapTriples true l1 l2 l3) :=
    mixed3_eq l1 l2 l3
  rw [hs]
  have m : ∀ {o : Obj P}, o ∈ l1 ∨ o ∈ l2 ∨ o ∈ l3 → o ∈ l1 ++ l2 ++ l3 := by
    intro o h
    rw [List.mem_append, List.mem_append]
    tauto
  refine ⟨a ++ (b ++ c), by simp only [multipoleCross123, ea, eb, ec], a1.append (b1.append c1), ?_,
    fun h => (a3 h).append ((b3 h).append (c3 h))⟩
  intro n hn h
  obtain ⟨k1, k2⟩ := unitAt_of h
  have k : ∀ x y : List (Obj P), (∀ o ∈ x, o ∈ l1 ∨ o ∈ l2 ∨ o ∈ l3) → (∀ o ∈ y, o ∈ l1 ∨ o ∈ l2 ∨ o ∈ l3) →
      ∀ o1 ∈ x, ∀ o2 ∈ y, dist o1.pos o2.pos ≠ 0 → UnitAt ph n o1.pos o2 :=
    fun x y hx hy o1 m1 o2 m2 => k2 o1 (m (hx o1 m1)) o2 (m (hy o2 m2))
  have i1 : ∀ o ∈ l1, o ∈ l1 ∨ o ∈ l2 ∨ o ∈ l3 := fun _ h => .inl h
  have i2 : ∀ o ∈ l2, o ∈ l1 ∨ o ∈ l2 ∨ o ∈ l3 := fun _ h => .inr (.inl h)
  have i3 : ∀ o ∈ l3, o ∈ l1 ∨ o ∈ l2 ∨ o ∈ l3 := fun _ h => .inr (.inr h)
  exact (a2 n hn k1 (unitOn_swap true (k _ _ i2 i1) (k _ _ i2 i3))).append
    ((b2 n hn k1 (unitOn_swap true (k _ _ i3 i1) (k _ _ i3 i2))).append
      (c2 n hn k1 (unitOn_swap true (k _ _ i1 i2) (k _ _ i1 i3))))

end

end TreeCorr
