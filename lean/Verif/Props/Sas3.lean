import Verif.Proofs.SasPlane
import Verif.Props.Corr3

/-!
C55: a three-point correlation with `LogSAS` bins, no slop and the full range of angles counts exactly the triangles of each bin.
-/

namespace TreeCorr
open Classical
variable {P : Type}

section
variable [PseudoMetricSpace P]

/-- **C55, one catalogue, partly.** Every bin holds the sums over the triples of distinct rows, each triangle once for each of its
corners: that corner first, the other two such that 1, 3, 2 are counter-clockwise.  Missing: limits on the angle (0 to π here, see
`sas_maxphi_wrong`, `sas_minphi_wrong`), three rows on a line in range, `bin_slop > 0`. -/
theorem auto_sas_exact_partial (A : StdAlg P) (g : Geom P) (hg : g.Dominates) (fp : FieldParams) (hf : fp.minsize = 0)
    {p : Prm3} (hp : SasParams p) (hu0 : p.minu = 0) (hu1 : p.maxu = Real.pi) (hb : p.b = 0)
    {M : Metric3 P} (hM : M.Of) (hO : M.Oriented) (l : List (Obj P)) (hw : ∀ o ∈ l, o.Valid)
    (hline : ∀ t ∈ orderedTriples l, (∃ k2 k3 kphi, InSas p k2 k3 kphi t) → ¬ OnLine M.ccw t) :
    ∃ es, processAuto3 (binSAS p M) M p.minsep (buildField A g fp l).cells = some es ∧
      ∀ k, (accumulate3 Acc3.zero es).Holds k ((orderedTriples l).filter (inSas p M.ccw k)) triPhi triCos := by
  have hv := buildField_valid A g hg fp hf.ge l hw
  rw [hf] at hv
  have hperm := orderedTriples_perm (buildField_objs A g fp l)
  obtain ⟨es, h, he⟩ := processAuto3_ex (sas_exact3 hp hu0 hu1 hb hM hO) (hered_valid 0) hp.minsep _ hv (by
    rw [hperm]
    exact fun q hq => sasOK_of hline hq (by simp))
  rw [hperm] at he
  exact ⟨es, h, holds_of_ex3 he⟩

/-- **C55, two catalogues, partly.** One row from the first and two from the second, `ordered=True`: the first row is point 1 of the
triangle. -/
theorem cross12_sas_exact_partial (A1 A2 : StdAlg P) (g : Geom P) (hg : g.Dominates) (fp1 fp2 : FieldParams)
    (hf1 : fp1.minsize = 0) (hf2 : fp2.minsize = 0)
    {p : Prm3} (hp : SasParams p) (hu0 : p.minu = 0) (hu1 : p.maxu = Real.pi) (hb : p.b = 0)
    {M : Metric3 P} (hM : M.Of) (hO : M.Oriented) (l1 l2 : List (Obj P)) (hw1 : ∀ o ∈ l1, o.Valid) (hw2 : ∀ o ∈ l2, o.Valid)
    (hline : ∀ t ∈ cross12Triples l1 l2, (∃ k2 k3 kphi, InSas p k2 k3 kphi t) → ¬ OnLine M.ccw t) :
    ∃ es, processCross12 (binSAS p M) M .first (buildField A1 g fp1 l1).cells (buildField A2 g fp2 l2).cells = some es ∧
      ∀ k, (accumulate3 Acc3.zero es).Holds k ((cross12Triples l1 l2).filter (inSas p M.ccw k)) triPhi triCos := by
  have h1 := buildField_valid A1 g hg fp1 hf1.ge l1 hw1
  have h2 := buildField_valid A2 g hg fp2 hf2.ge l2 hw2
  rw [hf1] at h1
  rw [hf2] at h2
  have e := from12_perm (O := .first) (by simp) (buildField_objs A1 g fp1 l1) (buildField_objs A2 g fp2 l2)
  rw [from12_first_eq l1 l2] at e
  obtain ⟨es, h, he⟩ := processCross12_ex (sas_exact3 hp hu0 hu1 hb hM hO) (hered_valid 0) .first (by simp) _ _ h1 h2 (by
    rw [e]
    exact fun q hq => sasOK_of hline hq (by simp))
  rw [e] at he
  exact ⟨es, h, holds_of_ex3 he⟩

/-- **C55, two catalogues, any order, partly.** With `ordered=False` the three rows may take any place. -/
theorem cross12_unordered_sas_exact_partial (A1 A2 : StdAlg P) (g : Geom P) (hg : g.Dominates) (fp1 fp2 : FieldParams)
    (hf1 : fp1.minsize = 0) (hf2 : fp2.minsize = 0)
    {p : Prm3} (hp : SasParams p) (hu0 : p.minu = 0) (hu1 : p.maxu = Real.pi) (hb : p.b = 0)
    {M : Metric3 P} (hM : M.Of) (hO : M.Oriented) (l1 l2 : List (Obj P)) (hw1 : ∀ o ∈ l1, o.Valid) (hw2 : ∀ o ∈ l2, o.Valid)
    (hline : ∀ t ∈ mixedTriples l1 l2, (∃ k2 k3 kphi, InSas p k2 k3 kphi t) → ¬ OnLine M.ccw t) :
    ∃ es, processCross12 (binSAS p M) M .any (buildField A1 g fp1 l1).cells (buildField A2 g fp2 l2).cells = some es ∧
      ∀ k, (accumulate3 Acc3.zero es).Holds k ((mixedTriples l1 l2).filter (inSas p M.ccw k)) triPhi triCos := by
  have h1 := buildField_valid A1 g hg fp1 hf1.ge l1 hw1
  have h2 := buildField_valid A2 g hg fp2 hf2.ge l2 hw2
  rw [hf1] at h1
  rw [hf2] at h2
  have e := from12_perm (O := .any) (by simp) (buildField_objs A1 g fp1 l1) (buildField_objs A2 g fp2 l2)
  rw [from12_any_eq l1 l2] at e
  obtain ⟨es, h, he⟩ := processCross12_ex (sas_exact3 hp hu0 hu1 hb hM hO) (hered_valid 0) .any (by simp) _ _ h1 h2 (by
    rw [e]
    exact fun q hq => sasOK_of hline hq (by simp))
  rw [e] at he
  exact ⟨es, h, holds_of_ex3 he⟩

/-- **C55, three catalogues, any order, partly.** -/
theorem cross123_unordered_sas_exact_partial (A1 A2 A3 : StdAlg P) (g : Geom P) (hg : g.Dominates) (fp1 fp2 fp3 : FieldParams)
    (hf1 : fp1.minsize = 0) (hf2 : fp2.minsize = 0) (hf3 : fp3.minsize = 0)
    {p : Prm3} (hp : SasParams p) (hu0 : p.minu = 0) (hu1 : p.maxu = Real.pi) (hb : p.b = 0)
    {M : Metric3 P} (hM : M.Of) (hO : M.Oriented) (l1 l2 l3 : List (Obj P)) (hw1 : ∀ o ∈ l1, o.Valid) (hw2 : ∀ o ∈ l2, o.Valid)
    (hw3 : ∀ o ∈ l3, o.Valid)
    (hline : ∀ t ∈ mixed3Triples l1 l2 l3, (∃ k2 k3 kphi, InSas p k2 k3 kphi t) → ¬ OnLine M.ccw t) :
    ∃ es, processCross123 (binSAS p M) M .any (buildField A1 g fp1 l1).cells (buildField A2 g fp2 l2).cells
        (buildField A3 g fp3 l3).cells = some es ∧
      ∀ k, (accumulate3 Acc3.zero es).Holds k ((mixed3Triples l1 l2 l3).filter (inSas p M.ccw k)) triPhi triCos := by
  have h1 := buildField_valid A1 g hg fp1 hf1.ge l1 hw1
  have h2 := buildField_valid A2 g hg fp2 hf2.ge l2 hw2
  have h3 := buildField_valid A3 g hg fp3 hf3.ge l3 hw3
  rw [hf1] at h1
  rw [hf2] at h2
  rw [hf3] at h3
  have e := from111_perm_list (O := .any) (buildField_objs A1 g fp1 l1) (buildField_objs A2 g fp2 l2) (buildField_objs A3 g fp3 l3)
  rw [from111_any_eq l1 l2 l3] at e
  obtain ⟨es, h, he⟩ := processCross123_ex (sas_exact3 hp hu0 hu1 hb hM hO) (hered_valid 0) .any _ _ _ h1 h2 h3 (by
    rw [e]
    exact fun q hq => sasOK_of hline hq (by simp))
  rw [e] at he
  exact ⟨es, h, holds_of_ex3 he⟩

/-- **C54, `LogSAS`, partly.** With `ordered=False` the order of the catalogues does not matter (here the first two exchanged): the arrays are the
same, provided no three rows in range are on a line. -/
theorem cross123_unordered_sas_swap_partial (A1 A2 A3 : StdAlg P) (g : Geom P) (hg : g.Dominates) (fp1 fp2 fp3 : FieldParams)
    (hf1 : fp1.minsize = 0) (hf2 : fp2.minsize = 0) (hf3 : fp3.minsize = 0)
    {p : Prm3} (hp : SasParams p) (hu0 : p.minu = 0) (hu1 : p.maxu = Real.pi) (hb : p.b = 0)
    {M : Metric3 P} (hM : M.Of) (hO : M.Oriented) (l1 l2 l3 : List (Obj P)) (hw1 : ∀ o ∈ l1, o.Valid) (hw2 : ∀ o ∈ l2, o.Valid)
    (hw3 : ∀ o ∈ l3, o.Valid)
    (hline : ∀ t ∈ mixed3Triples l1 l2 l3, (∃ k2 k3 kphi, InSas p k2 k3 kphi t) → ¬ OnLine M.ccw t) :
    ∃ es es', processCross123 (binSAS p M) M .any (buildField A1 g fp1 l1).cells (buildField A2 g fp2 l2).cells
        (buildField A3 g fp3 l3).cells = some es ∧
      processCross123 (binSAS p M) M .any (buildField A2 g fp2 l2).cells (buildField A1 g fp1 l1).cells
        (buildField A3 g fp3 l3).cells = some es' ∧
      ∀ k, (accumulate3 Acc3.zero es).weight k = (accumulate3 Acc3.zero es').weight k ∧
        (accumulate3 Acc3.zero es).zeta k = (accumulate3 Acc3.zero es').zeta k ∧
        (accumulate3 Acc3.zero es).meand1 k = (accumulate3 Acc3.zero es').meand1 k ∧
        (accumulate3 Acc3.zero es).meand2 k = (accumulate3 Acc3.zero es').meand2 k ∧
        (accumulate3 Acc3.zero es).meand3 k = (accumulate3 Acc3.zero es').meand3 k ∧
        (accumulate3 Acc3.zero es).meanu k = (accumulate3 Acc3.zero es').meanu k ∧
        (accumulate3 Acc3.zero es).meanv k = (accumulate3 Acc3.zero es').meanv k := by
  have e : mixed3Triples l2 l1 l3 = mixed3Triples l1 l2 l3 := by
    rw [← from111_any_eq, ← from111_any_eq]
    exact from111_swap12 l1 l2 l3
  obtain ⟨es, h, hk⟩ := cross123_unordered_sas_exact_partial A1 A2 A3 g hg fp1 fp2 fp3 hf1 hf2 hf3 hp hu0 hu1 hb hM hO l1 l2 l3
    hw1 hw2 hw3 hline
  obtain ⟨es', h', hk'⟩ := cross123_unordered_sas_exact_partial A2 A1 A3 g hg fp2 fp1 fp3 hf2 hf1 hf3 hp hu0 hu1 hb hM hO l2 l1 l3
    hw2 hw1 hw3 (by rwa [e])
  rw [e] at hk'
  refine ⟨es, es', h, h', fun k => ?_⟩
  have a := hk k
  have b := hk' k
  exact ⟨a.weight.trans b.weight.symm, a.zeta.trans b.zeta.symm, a.meand1.trans b.meand1.symm, a.meand2.trans b.meand2.symm,
    a.meand3.trans b.meand3.symm, a.meanu.trans b.meanu.symm, a.meanv.trans b.meanv.symm⟩


/-- **C55, an angle of π.** The last bin ends before π, so three rows on a line with the first between the others belong to no bin. -/
theorem sas_phi_pi_never {p : Prm3} (hp : SasParams p) (ccw : P → P → P → Prop) (k : ℤ) (t : Obj P × Obj P × Obj P)
    (h : side1 t = side2 t + side3 t) : ¬ inSas p ccw k t := by
  rintro ⟨k2, k3, kphi, ⟨h2, h3, hphi⟩, _⟩
  have hlt := hphi.lt hp.phibinsize hp.maxphi
  have p2 := h2.pos hp.minsep
  have p3 := h3.pos hp.minsep
  have : triPhi t = Real.pi := by
    have e : triCos t = -1 := by
      rw [triCos, h, div_eq_iff (by positivity)]
      ring
    rw [triPhi, e, Real.arccos_neg_one]
  have := hp.maxphi_le
  linarith

/-- **C55, both orders.** A triangle is in at most one of the bins with a given corner first: if the rows 1, 2, 3 are in some bin, the
rows 1, 3, 2 are in none. -/
theorem sas_one_order (p : Prm3) {M : Metric3 P} (hO : M.Oriented) (a b c : Obj P) (k k' : ℤ)
    (h : inSas p M.ccw k (a, b, c)) : ¬ inSas p M.ccw k' (a, c, b) := by
  rintro ⟨_, _, _, _, h', _⟩
  obtain ⟨_, _, _, _, h, _⟩ := h
  exact hO.anti _ _ _ h h'

end

/-- **C55, three catalogues, partly.** `ordered=True`, positions in the plane: the rows are points 1, 2, 3 of the triangle in the order of the
catalogues.  In space this fails (`sas_space_wrong`). -/
theorem cross123_sas_exact_partial (A1 A2 A3 : StdAlg (EuclideanSpace ℝ (Fin 2))) (g : Geom (EuclideanSpace ℝ (Fin 2))) (hg : g.Dominates) (fp1 fp2 fp3 : FieldParams)
    (hf1 : fp1.minsize = 0) (hf2 : fp2.minsize = 0) (hf3 : fp3.minsize = 0)
    {p : Prm3} (hp : SasParams p) (hu0 : p.minu = 0) (hu1 : p.maxu = Real.pi) (hb : p.b = 0)
    (l1 l2 l3 : List (Obj (EuclideanSpace ℝ (Fin 2)))) (hw1 : ∀ o ∈ l1, o.Valid) (hw2 : ∀ o ∈ l2, o.Valid)
    (hw3 : ∀ o ∈ l3, o.Valid) :
    ∃ es, processCross123 (binSAS p flatMetric3) flatMetric3 .fixed (buildField A1 g fp1 l1).cells (buildField A2 g fp2 l2).cells
        (buildField A3 g fp3 l3).cells = some es ∧
      ∀ k, (accumulate3 Acc3.zero es).Holds k ((crossTriples l1 l2 l3).filter (inSas p flatMetric3.ccw k)) triPhi triCos := by
  have h1 := buildField_valid A1 g hg fp1 hf1.ge l1 hw1
  have h2 := buildField_valid A2 g hg fp2 hf2.ge l2 hw2
  have h3 := buildField_valid A3 g hg fp3 hf3.ge l3 hw3
  rw [hf1] at h1
  rw [hf2] at h2
  rw [hf3] at h3
  obtain ⟨es, h, he⟩ := processCross123_ex (sas_exact3 hp hu0 hu1 hb flatMetric3_of flatMetric3_oriented) (hered_valid 0) .fixed _ _ _ h1 h2 h3
    (fun _ _ => ⟨fun h => absurd rfl h, fun _ => flatMetric3_turn⟩)
  rw [from111_perm_list (buildField_objs A1 g fp1 l1) (buildField_objs A2 g fp2 l2) (buildField_objs A3 g fp3 l3),
    ← crossTriples_eq] at he
  exact ⟨es, h, holds_of_ex3 he⟩


/-! ### A case -/

noncomputable section

/-- Three bins from 1 for `d2` and for `d3`, two in the angle, no slop. -/
def exSas : Prm3 :=
  { minsep := 1, maxsep := Real.exp 3, nbins := 3, binsize := 1, b := 0, a := 1 / 10, minu := 0, maxu := Real.pi, nubins := 2,
    ubinsize := Real.pi / 2, bu := 0, minv := -1, maxv := 1, nvbins := 0, vbinsize := 0, bv := 0 }

theorem exSas_ok : SasParams exSas := by
  constructor <;> norm_num [exSas, Real.pi_pos]
  ring

/-- The right angle of the triangle with sides 5, 4, 3. -/
theorem ex345_sas_in : inSas exSas flatMetric3.ccw 9 (ob 0 0 0, ob 0 3 1, ob 4 0 2) := by
  refine ⟨1, 1, 1, ⟨?_, ?_, ?_⟩, ?_, ?_⟩
  · simpa [side2, d_origin_4, exSas] using inLog1 4 (by norm_num) le_rfl
  · simpa [side3, d_origin_3, exSas] using inLog1 3 le_rfl (by norm_num)
  · have : triPhi (ob 0 0 0, ob 0 3 1, ob 4 0 2) = Real.pi / 2 := by
      have e : triCos (ob 0 0 0, ob 0 3 1, ob 4 0 2) = 0 := by
        norm_num [triCos, side1, side2, side3, d_origin_3, d_origin_4, d_345]
      rw [triPhi, e, Real.arccos_zero]
    rw [this]
    have := Real.pi_pos
    refine ⟨by norm_num, by norm_num [exSas], ?_, ?_⟩
    · norm_num [linEdge, exSas]
    · norm_num [linEdge, exSas]
      linarith
  · norm_num [flatMetric3, pt]
  · norm_num [sasPlace, exSas]

/-- It is the only angle of the triangle in that bin, in the only order. -/
theorem ex345_sas_out {t : Obj (EuclideanSpace ℝ (Fin 2)) × Obj _ × Obj _}
    (ht : t ∈ orderedTriples [ob 0 0 0, ob 0 3 1, ob 4 0 2]) (h : inSas exSas flatMetric3.ccw 9 t) :
    t = (ob 0 0 0, ob 0 3 1, ob 4 0 2) := by
  obtain ⟨k2, k3, kphi, ⟨_, _, g1, g2, g3, _⟩, hc, hk⟩ := h
  have hkphi : kphi = 1 := by
    simp only [sasPlace, exSas] at hk g2
    omega
  subst hkphi
  have hcos : triCos t ≤ 0 := by
    by_contra hpos
    push Not at hpos
    have : triPhi t < Real.pi / 2 := Real.arccos_lt_pi_div_two.2 hpos
    norm_num [linEdge, exSas] at g3
    linarith
  have e : orderedTriples [ob 0 0 0, ob 0 3 1, ob 4 0 2] = orders6 (ob 0 0 0, ob 0 3 1, ob 4 0 2) := by
    simp [orderedTriples, autoTriples, autoPairs]
  rw [e] at ht
  simp only [orders6, Multiset.mem_add, Multiset.mem_singleton] at ht
  have e1 := d_origin_3
  have e2 := d_origin_4
  have e3 := d_345
  have e4 := (dist_comm _ _).trans e1
  have e5 := (dist_comm _ _).trans e2
  have e6 := (dist_comm _ _).trans e3
  rcases ht with ((((rfl | rfl) | rfl) | rfl) | rfl) | rfl
  · rfl
  · exfalso
    norm_num [flatMetric3, pt] at hc
  all_goals
    exfalso
    simp only [triCos, side1, side2, side3, ob_pos, e1, e2, e3, e4, e5, e6] at hcos
    norm_num at hcos

theorem ex345_line {t : Obj (EuclideanSpace ℝ (Fin 2)) × Obj _ × Obj _}
    (ht : t ∈ orderedTriples [ob 0 0 0, ob 0 3 1, ob 4 0 2]) : ¬ OnLine flatMetric3.ccw t := by
  have e : orderedTriples [ob 0 0 0, ob 0 3 1, ob 4 0 2] = orders6 (ob 0 0 0, ob 0 3 1, ob 4 0 2) := by
    simp [orderedTriples, autoTriples, autoPairs]
  rw [e] at ht
  simp only [orders6, Multiset.mem_add, Multiset.mem_singleton] at ht
  rcases ht with ((((rfl | rfl) | rfl) | rfl) | rfl) | rfl <;> norm_num [OnLine, flatMetric3, pt]

/-- C55 applied to the three rows (0,0), (0,3), (4,0): the right angle is the only one in bin 9. -/
example : ∃ es, processAuto3 (binSAS exSas flatMetric3) flatMetric3 exSas.minsep
    (buildField (sortAlg _ 0) (euclidGeom 2) exFp [ob 0 0 0, ob 0 3 1, ob 4 0 2]).cells = some es ∧
    (accumulate3 Acc3.zero es).ntri 9 = 1 := by
  obtain ⟨es, h, hk⟩ := auto_sas_exact_partial (sortAlg _ 0) (euclidGeom 2) (euclidGeom_dominates 2) exFp rfl exSas_ok rfl rfl rfl
    flatMetric3_of flatMetric3_oriented [ob 0 0 0, ob 0 3 1, ob 4 0 2] (by simp [ob_valid]) (fun t ht _ => ex345_line ht)
  refine ⟨es, h, ?_⟩
  have e : (orderedTriples [ob 0 0 0, ob 0 3 1, ob 4 0 2]).filter (inSas exSas flatMetric3.ccw 9) =
      {(ob 0 0 0, ob 0 3 1, ob 4 0 2)} := by
    have e : orderedTriples [ob 0 0 0, ob 0 3 1, ob 4 0 2] = orders6 (ob 0 0 0, ob 0 3 1, ob 4 0 2) := by
      simp [orderedTriples, autoTriples, autoPairs]
    have key : ∀ t ∈ orderedTriples [ob 0 0 0, ob 0 3 1, ob 4 0 2],
        (inSas exSas flatMetric3.ccw 9 t ↔ t = (ob 0 0 0, ob 0 3 1, ob 4 0 2)) := by
      intro t ht
      constructor
      · exact ex345_sas_out ht
      · rintro rfl
        exact ex345_sas_in
    rw [Multiset.filter_congr key, e]
    have hne1 : ob 0 0 0 ≠ ob 0 3 1 := fun h => by simpa [ob] using congrArg Obj.idx h
    have hne2 : ob 0 0 0 ≠ ob 4 0 2 := fun h => by simpa [ob] using congrArg Obj.idx h
    have hne3 : ob 0 3 1 ≠ ob 4 0 2 := fun h => by simpa [ob] using congrArg Obj.idx h
    simp [orders6, Multiset.filter_add, Multiset.filter_singleton, hne1, hne2, hne3, hne1.symm, hne2.symm, hne3.symm]
  rw [(hk 9).ntri (by rw [e]; simp [ob]), e]
  simp [brute3N]

end
end TreeCorr
