import Verif.Proofs.MpHom
import Verif.Proofs.MpShearRuns
import Verif.Props.Multipole

/-!
C73: the multipole algorithm for shear holds, for each pair of side bins, the multipoles of the four natural components in the "x"
projection; the counts, weights and sums of the sides are those of the scalar class.
-/

namespace TreeCorr
open Classical ComplexConjugate
variable {P : Type} [PseudoMetricSpace P]

/-! ## Counts, weights and sides: as for the scalar class, for every input and every slop -/

section
variable (p : Params) (maxn : ℕ) (ph fac : P → P → ℂ) (wg : Cell P → ℂ)

theorem base_zetaG (c : Cell P) (mp : GScratch) (a b : ℤ) :
    calculateZeta maxn p.nbins c mp.base a b = (calculateZetaG maxn p.nbins wg c mp a b).map fun x => (x.1, x.2.1, x.2.2.base) := by
  simp only [calculateZeta, calculateZetaG, List.map_flatMap, List.map_cons, List.map_nil]
  rfl

theorem base_zetaG2 (swap23 : Bool) (c : Cell P) (mp2 mp3 : GScratch) (a b : ℤ) :
    calculateZeta2 maxn p.nbins swap23 c mp2.base mp3.base a b =
      (calculateZetaG2 maxn p.nbins wg swap23 c mp2 mp3 a b).map fun x => (x.1, x.2.1, x.2.2.base) := by
  simp only [calculateZeta2, calculateZetaG2, List.map_flatMap, List.map_map]
  rfl

theorem base_multipoleG (cs1 cs2 : List (Cell P)) :
    multipoleRun p (calculateGn ph maxn true) (calculateZeta maxn p.nbins) Scratch.clear cs1 cs2 =
      (multipoleG p maxn ph fac wg cs1 cs2).map baseOut :=
  run_part (π := GScratch.base) (ρ := fun x : ℤ × ℤ × GVals => (x.1, x.2.1, x.2.2.base))
    (gn := calculateGnG ph fac wg maxn true) (gn' := calculateGn ph maxn true) (fun _ _ _ _ _ _ => rfl)
    (base_zetaG p maxn wg) GScratch.clear cs1 cs2

theorem base_multipoleG3 (swap23 : Bool) (cs1 cs2 cs3 : List (Cell P)) :
    multipole3 p maxn ph swap23 cs1 cs2 cs3 = (multipoleG3 p maxn ph fac wg swap23 cs1 cs2 cs3).map baseOut :=
  run2_part (π := GScratch.base) (ρ := fun x : ℤ × ℤ × GVals => (x.1, x.2.1, x.2.2.base))
    (gn := calculateGnG ph fac wg maxn false) (gn' := calculateGn ph maxn false) (fun _ _ _ _ _ _ => rfl)
    (base_zetaG2 p maxn wg swap23) GScratch.clear cs1 cs2 cs3

theorem baseOut_append (a b : List (ℤ × ℤ × GVals)) : baseOut (a ++ b) = baseOut a ++ baseOut b := List.map_append

/-- **C73, counts and sides.** Whatever the slop, the shear class adds to `ntri`, `weight` and the sums of the sides exactly what the
scalar class adds (and fails exactly when that one fails). -/
theorem multipoleG_counts (O : Ord3) (ordered : Bool) (cs1 cs2 cs3 : List (Cell P)) :
    (multipoleAutoG p maxn ph fac wg cs1).map baseOut = multipoleAuto p maxn ph cs1 ∧
    (multipoleCross12G p maxn ph fac wg ordered cs1 cs2).map baseOut = multipoleCross12 p maxn ph ordered cs1 cs2 ∧
    (multipoleCross123G p maxn ph fac wg O cs1 cs2 cs3).map baseOut = multipoleCross123 p maxn ph O cs1 cs2 cs3 := by
  refine ⟨(base_multipoleG p maxn ph fac wg cs1 cs1).symm, ?_, ?_⟩
  · unfold multipoleCross12G multipoleCross12
    rw [base_multipoleG p maxn ph fac wg, base_multipoleG3 p maxn ph fac wg]
    cases ordered
    · simp only [Bool.false_eq_true, if_false]
      cases multipoleG3 p maxn ph fac wg true cs2 cs1 cs2 with
      | none => rfl
      | some a =>
        cases multipoleG p maxn ph fac wg cs1 cs2 with
        | none => rfl
        | some b => simp [baseOut_append]
    · simp only [if_true]
      cases multipoleG p maxn ph fac wg cs1 cs2 with
      | none => rfl
      | some b => simp
  · unfold multipoleCross123G multipoleCross123
    simp only [base_multipoleG3 p maxn ph fac wg]
    cases O with
    | fixed => rfl
    | first => rfl
    | any =>
      simp only
      cases multipoleG3 p maxn ph fac wg true cs2 cs1 cs3 with
      | none => rfl
      | some a =>
        cases multipoleG3 p maxn ph fac wg true cs3 cs1 cs2 with
        | none => rfl
        | some b =>
          cases multipoleG3 p maxn ph fac wg true cs1 cs2 cs3 with
          | none => rfl
          | some c => simp [baseOut_append]

end

/-! ## The natural components -/

theorem good_of {ph fac : P → P → ℂ} {l1 l2 : List (Obj P)} (h : IsProj ph fac l1 l2) :
    ∀ o1 ∈ l1, ∀ o2 ∈ l2, dist o1.pos o2.pos ≠ 0 → GoodAt ph fac o1.pos o2 :=
  fun o1 h1 o2 h2 hd => ⟨h.phase.unit o1 h1 o2 h2 hd, h.unit o1 h1 o2 h2 hd⟩

theorem goodOn_swap {ph fac : P → P → ℂ} {l1 l2 l3 : List (Obj P)} (s : Bool)
    (h2 : ∀ o1 ∈ l1, ∀ o2 ∈ l2, dist o1.pos o2.pos ≠ 0 → GoodAt ph fac o1.pos o2)
    (h3 : ∀ o1 ∈ l1, ∀ o2 ∈ l3, dist o1.pos o2.pos ≠ 0 → GoodAt ph fac o1.pos o2) : GoodOn ph fac (swapTriples s l1 l2 l3) := by
  rintro ⟨a, b, c⟩ hq
  unfold swapTriples crossTriples at hq
  cases s
  · simp only [Bool.false_eq_true, if_false, add_zero, Multiset.mem_product, Multiset.mem_coe] at hq
    exact ⟨h2 a hq.1 b hq.2.1, h3 a hq.1 c hq.2.2⟩
  · simp only [if_true, Multiset.mem_add, Multiset.mem_product, Multiset.mem_coe] at hq
    rcases hq with hq | hq
    · exact ⟨h2 a hq.1 b hq.2.1, h3 a hq.1 c hq.2.2⟩
    · exact ⟨h3 a hq.1 b hq.2.1, h2 a hq.1 c hq.2.2⟩

variable {p : Params} (hp : LogParams p) (hnb : 0 < p.nbins) (ha : p.a = 0) (maxn : ℕ) {ph fac : P → P → ℂ} {sh : Obj P → ℂ}
  {wg : Cell P → ℂ} (hwg : SumsShear sh wg)
include hp hnb ha hwg

/-- **C73, one catalogue, partly.** With `angle_slop = 0` and no two rows at the same place, `gam0 … gam3` of every index
`|n| ≤ max_n` are the sums over the triangles of the natural components with the phase `e^{in(φ3-φ2)}`.  Missing: slop, rows at the same
place (`multipoleG_coincident_wrong`). -/
theorem multipoleG_auto_exact_partial (A : StdAlg P) (g : Geom P) (hg : g.Dominates) (fp : FieldParams) (hf : fp.minsize = 0)
    (l : List (Obj P)) (hl : Apart l) (hph : IsProj ph fac l l) :
    ∃ out, multipoleAutoG p maxn ph fac wg (buildField A g fp l).cells = some out ∧
      ∀ n : ℤ, n.natAbs ≤ maxn → MpGam p ph (natX ph fac sh) n (orderedTriples l) out := by
  have e := buildField_objs A g fp l
  obtain ⟨out, h1, h2⟩ := runG_holds (maxn := maxn) hp hnb ha hph.phase.same hph.same hwg _ _ (field_mpCell A g hg fp hf l)
    (field_mpApart A g hg fp hf l hl) (fun o1 m1 o2 m2 => good_of hph o1 (e.mem_iff.1 m1) o2 (e.mem_iff.1 m2))
  refine ⟨out, h1, fun n hn => (h2 n hn).congr fun k2 k3 => ?_⟩
  rw [cross12_perm e e]
  exact ordered_filter l _ (InSides.ne1 hp) (InSides.ne2 hp)

/-- **C73, two catalogues, partly.** `ordered=True`: point 1 is from the first catalogue. -/
theorem multipoleG_cross12_exact_partial (A1 A2 : StdAlg P) (g : Geom P) (hg : g.Dominates) (fp1 fp2 : FieldParams)
    (hf1 : fp1.minsize = 0) (hf2 : fp2.minsize = 0) (l1 l2 : List (Obj P)) (hl : Apart l2) (hph : IsProj ph fac l1 l2) :
    ∃ out, multipoleCross12G p maxn ph fac wg true (buildField A1 g fp1 l1).cells (buildField A2 g fp2 l2).cells = some out ∧
      ∀ n : ℤ, n.natAbs ≤ maxn → MpGam p ph (natX ph fac sh) n (cross12Triples l1 l2) out := by
  have e1 := buildField_objs A1 g fp1 l1
  have e2 := buildField_objs A2 g fp2 l2
  obtain ⟨out, h1, h2⟩ := runG_holds (maxn := maxn) hp hnb ha hph.phase.same hph.same hwg _ _ (field_mpCell A1 g hg fp1 hf1 l1)
    (field_mpApart A2 g hg fp2 hf2 l2 hl) (fun o1 m1 o2 m2 => good_of hph o1 (e1.mem_iff.1 m1) o2 (e2.mem_iff.1 m2))
  rw [cross12_perm e1 e2] at h2
  exact ⟨out, by simp only [multipoleCross12G, if_true, h1, List.nil_append], h2⟩

/-- **C73, two catalogues, any order, partly.** `ordered=False`. -/
theorem multipoleG_cross12_unordered_exact_partial (A1 A2 : StdAlg P) (g : Geom P) (hg : g.Dominates) (fp1 fp2 : FieldParams)
    (hf1 : fp1.minsize = 0) (hf2 : fp2.minsize = 0) (l1 l2 : List (Obj P)) (hl : Apart l2)
    (hph : IsProj ph fac (l1 ++ l2) (l1 ++ l2)) :
    ∃ out, multipoleCross12G p maxn ph fac wg false (buildField A1 g fp1 l1).cells (buildField A2 g fp2 l2).cells = some out ∧
      ∀ n : ℤ, n.natAbs ≤ maxn → MpGam p ph (natX ph fac sh) n (mixedTriples l1 l2) out := by
  have e1 := buildField_objs A1 g fp1 l1
  have e2 := buildField_objs A2 g fp2 l2
  have k2 := good_of hph
  have m : ∀ {o : Obj P}, o ∈ l1 ∨ o ∈ l2 → o ∈ l1 ++ l2 := fun h => List.mem_append.2 h
  obtain ⟨out, h1, h2⟩ := runG_holds (maxn := maxn) hp hnb ha hph.phase.same hph.same hwg _ _ (field_mpCell A1 g hg fp1 hf1 l1)
    (field_mpApart A2 g hg fp2 hf2 l2 hl)
    (fun o1 m1 o2 m2 => k2 o1 (m (.inl (e1.mem_iff.1 m1))) o2 (m (.inr (e2.mem_iff.1 m2))))
  obtain ⟨out', h1', h2'⟩ := runG3_holds (maxn := maxn) hp hnb ha hph.phase.same hph.same hwg true _ _ _
    (field_mpCell A2 g hg fp2 hf2 l2) (field_mpCell A1 g hg fp1 hf1 l1) (field_mpCell A2 g hg fp2 hf2 l2) (by
      rw [swap_perm true e2 e1 e2]
      exact goodOn_swap true (fun o1 m1 o2 m2 => k2 o1 (m (.inr m1)) o2 (m (.inl m2)))
        (fun o1 m1 o2 m2 => k2 o1 (m (.inr m1)) o2 (m (.inr m2))))
  rw [cross12_perm e1 e2] at h2
  rw [swap_perm true e2 e1 e2] at h2'
  refine ⟨out' ++ out, by simp only [multipoleCross12G, Bool.false_eq_true, if_false, h1, h1'], fun n hn => ?_⟩
  exact ((h2' n hn).append (h2 n hn)).congr fun j2 j3 => mixed_filter l1 l2 _ (InSides.ne1 hp) (InSides.ne2 hp)

/-- **C73, three catalogues, partly.** `ordered=True`: every row in the place of its catalogue.  Rows at the same place do no harm
here.  Missing: slop. -/
theorem multipoleG_cross123_exact_partial (A1 A2 A3 : StdAlg P) (g : Geom P) (hg : g.Dominates) (fp1 fp2 fp3 : FieldParams)
    (hf1 : fp1.minsize = 0) (hf2 : fp2.minsize = 0) (hf3 : fp3.minsize = 0) (l1 l2 l3 : List (Obj P))
    (hph : IsProj ph fac l1 (l2 ++ l3)) :
    ∃ out, multipoleCross123G p maxn ph fac wg .fixed (buildField A1 g fp1 l1).cells (buildField A2 g fp2 l2).cells
        (buildField A3 g fp3 l3).cells = some out ∧
      ∀ n : ℤ, n.natAbs ≤ maxn → MpGam p ph (natX ph fac sh) n (crossTriples l1 l2 l3) out := by
  have k2 := good_of hph
  have m : ∀ {o : Obj P}, o ∈ l2 ∨ o ∈ l3 → o ∈ l2 ++ l3 := fun h => List.mem_append.2 h
  have hT := swap_perm false (buildField_objs A1 g fp1 l1) (buildField_objs A2 g fp2 l2) (buildField_objs A3 g fp3 l3)
  obtain ⟨out, h1, h2⟩ := runG3_holds (maxn := maxn) hp hnb ha hph.phase.same hph.same hwg false _ _ _
    (field_mpCell A1 g hg fp1 hf1 l1) (field_mpCell A2 g hg fp2 hf2 l2) (field_mpCell A3 g hg fp3 hf3 l3) (by
      rw [hT]
      exact goodOn_swap false (fun o1 m1 o2 m2 => k2 o1 m1 o2 (m (.inl m2))) (fun o1 m1 o2 m2 => k2 o1 m1 o2 (m (.inr m2))))
  rw [hT, show swapTriples false l1 l2 l3 = crossTriples l1 l2 l3 by simp [swapTriples]] at h2
  exact ⟨out, h1, h2⟩

/-- **C73, three catalogues, point 1 from the first, partly.** `ordered=1`: points 2 and 3 may swap.  Missing: slop. -/
theorem multipoleG_cross123_first_exact_partial (A1 A2 A3 : StdAlg P) (g : Geom P) (hg : g.Dominates) (fp1 fp2 fp3 : FieldParams)
    (hf1 : fp1.minsize = 0) (hf2 : fp2.minsize = 0) (hf3 : fp3.minsize = 0) (l1 l2 l3 : List (Obj P))
    (hph : IsProj ph fac l1 (l2 ++ l3)) :
    ∃ out, multipoleCross123G p maxn ph fac wg .first (buildField A1 g fp1 l1).cells (buildField A2 g fp2 l2).cells
        (buildField A3 g fp3 l3).cells = some out ∧
      ∀ n : ℤ, n.natAbs ≤ maxn → MpGam p ph (natX ph fac sh) n (crossTriples l1 l2 l3 + crossTriples l1 l3 l2) out := by
  have k2 := good_of hph
  have m : ∀ {o : Obj P}, o ∈ l2 ∨ o ∈ l3 → o ∈ l2 ++ l3 := fun h => List.mem_append.2 h
  have hT := swap_perm true (buildField_objs A1 g fp1 l1) (buildField_objs A2 g fp2 l2) (buildField_objs A3 g fp3 l3)
  obtain ⟨out, h1, h2⟩ := runG3_holds (maxn := maxn) hp hnb ha hph.phase.same hph.same hwg true _ _ _
    (field_mpCell A1 g hg fp1 hf1 l1) (field_mpCell A2 g hg fp2 hf2 l2) (field_mpCell A3 g hg fp3 hf3 l3) (by
      rw [hT]
      exact goodOn_swap true (fun o1 m1 o2 m2 => k2 o1 m1 o2 (m (.inl m2))) (fun o1 m1 o2 m2 => k2 o1 m1 o2 (m (.inr m2))))
  rw [hT] at h2
  exact ⟨out, h1, h2⟩

/-- **C73, three catalogues, any order, partly.** `ordered=False`.  Missing: slop. -/
theorem multipoleG_cross123_unordered_exact_partial (A1 A2 A3 : StdAlg P) (g : Geom P) (hg : g.Dominates) (fp1 fp2 fp3 : FieldParams)
    (hf1 : fp1.minsize = 0) (hf2 : fp2.minsize = 0) (hf3 : fp3.minsize = 0) (l1 l2 l3 : List (Obj P))
    (hph : IsProj ph fac (l1 ++ l2 ++ l3) (l1 ++ l2 ++ l3)) :
    ∃ out, multipoleCross123G p maxn ph fac wg .any (buildField A1 g fp1 l1).cells (buildField A2 g fp2 l2).cells
        (buildField A3 g fp3 l3).cells = some out ∧
      ∀ n : ℤ, n.natAbs ≤ maxn → MpGam p ph (natX ph fac sh) n (mixed3Triples l1 l2 l3) out := by
  have q1 := field_mpCell A1 g hg fp1 hf1 l1
  have q2 := field_mpCell A2 g hg fp2 hf2 l2
  have q3 := field_mpCell A3 g hg fp3 hf3 l3
  have e1 := buildField_objs A1 g fp1 l1
  have e2 := buildField_objs A2 g fp2 l2
  have e3 := buildField_objs A3 g fp3 l3
  have m : ∀ {o : Obj P}, o ∈ l1 ∨ o ∈ l2 ∨ o ∈ l3 → o ∈ l1 ++ l2 ++ l3 := by
    intro o h
    rw [List.mem_append, List.mem_append]
    tauto
  have k : ∀ x y : List (Obj P), (∀ o ∈ x, o ∈ l1 ∨ o ∈ l2 ∨ o ∈ l3) → (∀ o ∈ y, o ∈ l1 ∨ o ∈ l2 ∨ o ∈ l3) →
      ∀ o1 ∈ x, ∀ o2 ∈ y, dist o1.pos o2.pos ≠ 0 → GoodAt ph fac o1.pos o2 :=
    fun x y hx hy o1 m1 o2 m2 => good_of hph o1 (m (hx o1 m1)) o2 (m (hy o2 m2))
  have i1 : ∀ o ∈ l1, o ∈ l1 ∨ o ∈ l2 ∨ o ∈ l3 := fun _ h => .inl h
  have i2 : ∀ o ∈ l2, o ∈ l1 ∨ o ∈ l2 ∨ o ∈ l3 := fun _ h => .inr (.inl h)
  have i3 : ∀ o ∈ l3, o ∈ l1 ∨ o ∈ l2 ∨ o ∈ l3 := fun _ h => .inr (.inr h)
  have s1 := swap_perm true e2 e1 e3
  have s2 := swap_perm true e3 e1 e2
  have s3 := swap_perm true e1 e2 e3
  obtain ⟨a, ea, a1⟩ := runG3_holds (maxn := maxn) hp hnb ha hph.phase.same hph.same hwg true _ _ _ q2 q1 q3
    (s1 ▸ goodOn_swap true (k _ _ i2 i1) (k _ _ i2 i3))
  obtain ⟨b, eb, b1⟩ := runG3_holds (maxn := maxn) hp hnb ha hph.phase.same hph.same hwg true _ _ _ q3 q1 q2
    (s2 ▸ goodOn_swap true (k _ _ i3 i1) (k _ _ i3 i2))
  obtain ⟨c, ec, c1⟩ := runG3_holds (maxn := maxn) hp hnb ha hph.phase.same hph.same hwg true _ _ _ q1 q2 q3
    (s3 ▸ goodOn_swap true (k _ _ i1 i2) (k _ _ i1 i3))
  rw [s1] at a1
  rw [s2] at b1
  rw [s3] at c1
  rw [mixed3_eq l1 l2 l3]
  exact ⟨a ++ (b ++ c), by simp only [multipoleCross123G, ea, eb, ec],
    fun n hn => (a1 n hn).append ((b1 n hn).append (c1 n hn))⟩

end TreeCorr
