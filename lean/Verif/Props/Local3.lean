import Verif.Proofs.Local3
import Verif.Proofs.Local3Mpi
import Verif.Props.Patch3
import Verif.Props.Patch3Cases
import Verif.Props.Local

/-!
C68: `patch_method='local'` for three-point objects (`algo='triangle'`).
-/

namespace TreeCorr
open Classical
noncomputable section

/-! ### What is counted -/

theorem inRuv_near {P : Type} [PseudoMetricSpace P] {p : Prm3} (hp : RuvParams p) {ccw : P → P → P → Prop} (k : ℤ)
    (t : Obj P × Obj P × Obj P) (h : inRuv p ccw k t) : side2 t < p.maxsep ∧ side3 t < p.maxsep := by
  obtain ⟨kr, ku, kv, ⟨_, h32, h3, hr, _⟩, _⟩ := h
  have h2 := logBin_lt_max hp.minsep hp.binsize hp.maxsep hr
  exact ⟨h2, lt_of_le_of_lt h32 h2⟩

theorem inRuv_pos {P : Type} [PseudoMetricSpace P] {p : Prm3} {ccw : P → P → P → Prop} (k : ℤ)
    (t : Obj P × Obj P × Obj P) (h : inRuv p ccw k t) : 0 < side2 t ∧ 0 < side3 t := by
  obtain ⟨kr, ku, kv, ⟨_, h32, h3, _⟩, _⟩ := h
  exact ⟨lt_of_lt_of_le h3 h32, h3⟩

theorem inSas_near {P : Type} [PseudoMetricSpace P] {p : Prm3} (hp : SasParams p) {ccw : P → P → P → Prop} (k : ℤ)
    (t : Obj P × Obj P × Obj P) (h : inSas p ccw k t) : side2 t < p.maxsep ∧ side3 t < p.maxsep := by
  obtain ⟨k2, k3, kphi, ⟨h2, h3, _⟩, _⟩ := h
  exact ⟨logBin_lt_max hp.minsep hp.binsize hp.maxsep h2, logBin_lt_max hp.minsep hp.binsize hp.maxsep h3⟩

theorem InSas_pos {P : Type} [PseudoMetricSpace P] {p : Prm3} (hp : SasParams p) {k2 k3 kphi : ℤ}
    {t : Obj P × Obj P × Obj P} (h : InSas p k2 k3 kphi t) : 0 < side2 t ∧ 0 < side3 t :=
  ⟨h.1.pos hp.minsep, h.2.1.pos hp.minsep⟩

theorem inSas_pos {P : Type} [PseudoMetricSpace P] {p : Prm3} (hp : SasParams p) {ccw : P → P → P → Prop} (k : ℤ)
    (t : Obj P × Obj P × Obj P) (h : inSas p ccw k t) : 0 < side2 t ∧ 0 < side3 t := by
  obtain ⟨k2, k3, kphi, h, _⟩ := h
  exact InSas_pos hp h

section
variable {d : ℕ} (A : StdAlg (EuclideanSpace ℝ (Fin d))) (g : Geom (EuclideanSpace ℝ (Fin d))) (hg : g.Dominates) (fp : FieldParams)
  (hf : fp.minsize = 0) (same : List (Obj (EuclideanSpace ℝ (Fin d))) → List (Obj (EuclideanSpace ℝ (Fin d))) → Prop) (nn threeD : Bool)
  {cats cats1 cats2 cats3 : List (ℕ × List (Obj (EuclideanSpace ℝ (Fin d))))}
  (hu : UnitFar threeD cats) (hu1 : UnitFar threeD cats1) (hu2 : UnitFar threeD cats2) (hu3 : UnitFar threeD cats3)
  (hw : ∀ o ∈ cats.flatMap Prod.snd, o.Valid) (hw1 : ∀ o ∈ cats1.flatMap Prod.snd, o.Valid)
  (hw2 : ∀ o ∈ cats2.flatMap Prod.snd, o.Valid) (hw3 : ∀ o ∈ cats3.flatMap Prod.snd, o.Valid) (S : TriCorr Acc3) (k : ℤ)
include hg hf

section ruv
variable {p : Prm3} (hp : RuvParams p) (hv0 : p.minv = 0) (hb : p.b = 0) (hbu : p.bu = 0)
  {M : Metric3 (EuclideanSpace ℝ (Fin d))} (hM : M.Of)
include hp hv0 hb hbu hM

include hu hw in
/-- **C68, LogRUV, one catalogue, partly.** `process(cat, patch_method='local')` without slop: every bin gets exactly the triangles of the
whole catalogue that belong there, each in every order of its corners with `d1 ≥ d2 ≥ d3`, however the catalogue is divided.  An isosceles
triangle (`d1 = d2`) has two such orders and is counted twice, unlike in the global mode (`local3_isosceles_wrong`).  Missing: bin
slop, `min_v > 0`, 3d coordinates nearer than 1 to the origin, other metrics (`local3_periodic_wrong`). -/
theorem local3_auto_ruv_partial :
    ((triKit A g fp (binRUV p M) M p same nn).localAuto threeD p.maxsep true cats S).self.acc.Holds k
      ((orderedTriples (cats.flatMap Prod.snd)).filter (inRuv p M.ccw k)) triU (triVs M.ccw) := by
  have hK := triKit_good (A := A) (same := same) (nn := nn) hg hf.ge (ruv_rows3 p hM) rfl hp.minsep
  rw [localAuto3_self hK, ← from12_auto_filter (fun k t h => inRuv_pos k t h)]
  exact pass12_holds (ruv_exact3 hp hv0 (Or.inr (euclid_ptolemaic d)) hb hbu hM) (fun _ _ h => inRuv_sides hp h) (inRuv_near hp) hg hf (each_valid hw) hw
    (hu.near hu) (fun _ _ h => by cases h) k

include hu1 hu2 hw1 hw2 in
/-- **C68, LogRUV, two catalogues, `ordered=True`, partly.** -/
theorem local3_cross12_ruv_partial :
    ((triKit A g fp (binRUV p M) M p same nn).localCross12 threeD p.maxsep true true cats1 cats2 S).self.acc.Holds k
      ((cross12Triples (cats1.flatMap Prod.snd) (cats2.flatMap Prod.snd)).filter (inRuv p M.ccw k)) triU (triVs M.ccw) := by
  have hK := triKit_good (A := A) (same := same) (nn := nn) hg hf.ge (ruv_rows3 p hM) rfl hp.minsep
  rw [localCross12_self hK, if_pos rfl, add_zero, ← from12_first_eq]
  exact pass12_holds (ruv_exact3 hp hv0 (Or.inr (euclid_ptolemaic d)) hb hbu hM) (fun _ _ h => inRuv_sides hp h) (inRuv_near hp) hg hf (each_valid hw1) hw2
    (hu1.near hu2) (fun _ _ h => by cases h) k

include hu1 hu2 hw1 hw2 in
/-- **C68, LogRUV, two catalogues, `ordered=False`, partly.** -/
theorem local3_cross12_unordered_ruv_partial :
    ((triKit A g fp (binRUV p M) M p same nn).localCross12 threeD p.maxsep true false cats1 cats2 S).self.acc.Holds k
      ((mixedTriples (cats1.flatMap Prod.snd) (cats2.flatMap Prod.snd)).filter (inRuv p M.ccw k)) triU (triVs M.ccw) := by
  have hK := triKit_good (A := A) (same := same) (nn := nn) hg hf.ge (ruv_rows3 p hM) rfl hp.minsep
  rw [localCross12_self hK, if_neg (by simp), ← from12_mixed_filter (fun k t h => inRuv_pos k t h), Res3.add_acc]
  refine Acc3.Holds.add ?_ ?_
  · exact pass12_holds (ruv_exact3 hp hv0 (Or.inr (euclid_ptolemaic d)) hb hbu hM) (fun _ _ h => inRuv_sides hp h) (inRuv_near hp) hg hf (each_valid hw1) hw2
      (hu1.near hu2) (fun _ _ h => by cases h) k
  · exact pass123_holds (ruv_exact3 hp hv0 (Or.inr (euclid_ptolemaic d)) hb hbu hM) (fun _ _ h => inRuv_sides hp h) (inRuv_near hp) hg hf (by simp) (each_valid hw2)
      hw1 hw2 (hu2.near hu1) (hu2.near hu2) (fun _ _ h => by cases h) k

include hu1 hu2 hu3 hw1 hw2 hw3 in
/-- **C68, LogRUV, three catalogues, `ordered=True`, partly.** -/
theorem local3_cross_ruv_partial :
    ((triKit A g fp (binRUV p M) M p same nn).localCross threeD p.maxsep true .fixed cats1 cats2 cats3 S).self.acc.Holds k
      ((crossTriples (cats1.flatMap Prod.snd) (cats2.flatMap Prod.snd) (cats3.flatMap Prod.snd)).filter (inRuv p M.ccw k))
      triU (triVs M.ccw) := by
  have hK := triKit_good (A := A) (same := same) (nn := nn) hg hf.ge (ruv_rows3 p hM) rfl hp.minsep
  rw [localCross3_self hK _ _ (by simp), crossTriples_eq]
  exact pass123_holds (ruv_exact3 hp hv0 (Or.inr (euclid_ptolemaic d)) hb hbu hM) (fun _ _ h => inRuv_sides hp h) (inRuv_near hp) hg hf (by simp) (each_valid hw1)
      hw2 hw3 (hu1.near hu2) (hu1.near hu3) (fun _ _ h => by cases h) k

include hu1 hu2 hu3 hw1 hw2 hw3 in
/-- **C68, LogRUV, three catalogues, `ordered=1`, partly.** The first corner is from the first catalogue. -/
theorem local3_cross_first_ruv_partial :
    ((triKit A g fp (binRUV p M) M p same nn).localCross threeD p.maxsep true .first cats1 cats2 cats3 S).self.acc.Holds k
      ((crossTriples (cats1.flatMap Prod.snd) (cats2.flatMap Prod.snd) (cats3.flatMap Prod.snd) +
        crossTriples (cats1.flatMap Prod.snd) (cats3.flatMap Prod.snd) (cats2.flatMap Prod.snd)).filter (inRuv p M.ccw k))
      triU (triVs M.ccw) := by
  have hK := triKit_good (A := A) (same := same) (nn := nn) hg hf.ge (ruv_rows3 p hM) rfl hp.minsep
  rw [localCross3_self hK _ _ (by simp), ← from111_first_eq]
  exact pass123_holds (ruv_exact3 hp hv0 (Or.inr (euclid_ptolemaic d)) hb hbu hM) (fun _ _ h => inRuv_sides hp h) (inRuv_near hp) hg hf (by simp) (each_valid hw1)
      hw2 hw3 (hu1.near hu2) (hu1.near hu3) (fun _ _ h => by cases h) k

include hu1 hu2 hu3 hw1 hw2 hw3 in
/-- **C68, LogRUV, three catalogues, `ordered=False`, partly.** -/
theorem local3_cross_unordered_ruv_partial :
    ((triKit A g fp (binRUV p M) M p same nn).localCross threeD p.maxsep true .any cats1 cats2 cats3 S).self.acc.Holds k
      ((mixed3Triples (cats1.flatMap Prod.snd) (cats2.flatMap Prod.snd) (cats3.flatMap Prod.snd)).filter (inRuv p M.ccw k))
      triU (triVs M.ccw) := by
  have hK := triKit_good (A := A) (same := same) (nn := nn) hg hf.ge (ruv_rows3 p hM) rfl hp.minsep
  rw [localCross3_self_any hK, ← from111_mixed, Multiset.filter_add, Multiset.filter_add, Res3.add_acc, Res3.add_acc]
  refine Acc3.Holds.add (Acc3.Holds.add ?_ ?_) ?_
  · exact pass123_holds (ruv_exact3 hp hv0 (Or.inr (euclid_ptolemaic d)) hb hbu hM) (fun _ _ h => inRuv_sides hp h) (inRuv_near hp) hg hf (by simp) (each_valid hw1)
      hw2 hw3 (hu1.near hu2) (hu1.near hu3) (fun _ _ h => by cases h) k
  · exact pass123_holds (ruv_exact3 hp hv0 (Or.inr (euclid_ptolemaic d)) hb hbu hM) (fun _ _ h => inRuv_sides hp h) (inRuv_near hp) hg hf (by simp) (each_valid hw2)
      hw1 hw3 (hu2.near hu1) (hu2.near hu3) (fun _ _ h => by cases h) k
  · exact pass123_holds (ruv_exact3 hp hv0 (Or.inr (euclid_ptolemaic d)) hb hbu hM) (fun _ _ h => inRuv_sides hp h) (inRuv_near hp) hg hf (by simp) (each_valid hw3)
      hw1 hw2 (hu3.near hu1) (hu3.near hu2) (fun _ _ h => by cases h) k

end ruv

section sas
variable {p : Prm3} (hp : SasParams p) (hu0 : p.minu = 0) (hpi : p.maxu = Real.pi) (hb : p.b = 0)
  {M : Metric3 (EuclideanSpace ℝ (Fin d))} (hM : M.Of) (hO : M.Oriented)
include hp hu0 hpi hb hM hO

include hu hw in
/-- **C68, LogSAS (`algo='triangle'`), one catalogue, partly.** As `local3_auto_ruv_partial`. -/
theorem local3_auto_sas_partial
    (hline : ∀ t ∈ orderedTriples (cats.flatMap Prod.snd), (∃ k2 k3 kphi, InSas p k2 k3 kphi t) → ¬ OnLine M.ccw t) :
    ((triKit A g fp (binSAS p M) M p same nn).localAuto threeD p.maxsep true cats S).self.acc.Holds k
      ((orderedTriples (cats.flatMap Prod.snd)).filter (inSas p M.ccw k)) triPhi triCos := by
  have hK := triKit_good (A := A) (same := same) (nn := nn) hg hf.ge (sas_rows3 p M) rfl hp.minsep
  rw [localAuto3_self hK, ← from12_auto_filter (fun k t h => inSas_pos hp k t h)]
  refine pass12_holds (sas_exact3 hp hu0 hpi hb hM hO) (fun _ _ h => inSas_sides hp h) (inSas_near hp) hg hf (each_valid hw) hw
    (hu.near hu) (fun q hq => ⟨fun _ hin => ?_, fun e => by cases e⟩) k
  have e := from12_auto_filter (inBin := fun _ t => ∃ k2 k3 kphi, InSas p k2 k3 kphi t)
    (fun _ t ⟨_, _, _, h⟩ => InSas_pos hp h) 0 (cats.flatMap Prod.snd)
  have hm : q ∈ (from12 .first (cats.flatMap Prod.snd) (cats.flatMap Prod.snd)).filter
    (fun t => ∃ k2 k3 kphi, InSas p k2 k3 kphi t) := Multiset.mem_filter.2 ⟨hq, hin⟩
  rw [e] at hm
  exact hline q (Multiset.mem_filter.1 hm).1 hin

include hu1 hu2 hw1 hw2 in
/-- **C68, LogSAS, two catalogues, `ordered=True`, partly.** -/
theorem local3_cross12_sas_partial
    (hline : ∀ t ∈ cross12Triples (cats1.flatMap Prod.snd) (cats2.flatMap Prod.snd),
      (∃ k2 k3 kphi, InSas p k2 k3 kphi t) → ¬ OnLine M.ccw t) :
    ((triKit A g fp (binSAS p M) M p same nn).localCross12 threeD p.maxsep true true cats1 cats2 S).self.acc.Holds k
      ((cross12Triples (cats1.flatMap Prod.snd) (cats2.flatMap Prod.snd)).filter (inSas p M.ccw k)) triPhi triCos := by
  have hK := triKit_good (A := A) (same := same) (nn := nn) hg hf.ge (sas_rows3 p M) rfl hp.minsep
  rw [← from12_first_eq] at hline ⊢
  rw [localCross12_self hK, if_pos rfl, add_zero]
  exact pass12_holds (sas_exact3 hp hu0 hpi hb hM hO) (fun _ _ h => inSas_sides hp h) (inSas_near hp) hg hf (each_valid hw1) hw2
    (hu1.near hu2) (fun _ hq => sasOK_of hline hq (by simp)) k

include hu1 hu2 hw1 hw2 in
/-- **C68, LogSAS, two catalogues, `ordered=False`, partly.** -/
theorem local3_cross12_unordered_sas_partial
    (hline : ∀ t ∈ mixedTriples (cats1.flatMap Prod.snd) (cats2.flatMap Prod.snd),
      (∃ k2 k3 kphi, InSas p k2 k3 kphi t) → ¬ OnLine M.ccw t) :
    ((triKit A g fp (binSAS p M) M p same nn).localCross12 threeD p.maxsep true false cats1 cats2 S).self.acc.Holds k
      ((mixedTriples (cats1.flatMap Prod.snd) (cats2.flatMap Prod.snd)).filter (inSas p M.ccw k)) triPhi triCos := by
  have hK := triKit_good (A := A) (same := same) (nn := nn) hg hf.ge (sas_rows3 p M) rfl hp.minsep
  have e := from12_mixed_filter (inBin := fun _ t => ∃ k2 k3 kphi, InSas p k2 k3 kphi t)
    (fun _ t ⟨_, _, _, h⟩ => InSas_pos hp h) 0 (cats1.flatMap Prod.snd) (cats2.flatMap Prod.snd)
  rw [localCross12_self hK, if_neg (by simp), ← from12_mixed_filter (fun k t h => inSas_pos hp k t h), Res3.add_acc]
  refine Acc3.Holds.add ?_ ?_
  · refine pass12_holds (sas_exact3 hp hu0 hpi hb hM hO) (fun _ _ h => inSas_sides hp h) (inSas_near hp) hg hf (each_valid hw1) hw2
      (hu1.near hu2) (fun q hq => ⟨fun _ hin => ?_, fun e => by cases e⟩) k
    have hm := (congrArg (q ∈ ·) e).mp (Multiset.mem_add.2 (Or.inl (Multiset.mem_filter.2 ⟨hq, hin⟩)))
    exact hline q (Multiset.mem_filter.1 hm).1 hin
  · refine pass123_holds (sas_exact3 hp hu0 hpi hb hM hO) (fun _ _ h => inSas_sides hp h) (inSas_near hp) hg hf (by simp) (each_valid hw2)
      hw1 hw2 (hu2.near hu1) (hu2.near hu2) (fun q hq => ⟨fun _ hin => ?_, fun e => by cases e⟩) k
    have hm := (congrArg (q ∈ ·) e).mp (Multiset.mem_add.2 (Or.inr (Multiset.mem_filter.2 ⟨hq, hin⟩)))
    exact hline q (Multiset.mem_filter.1 hm).1 hin

include hu1 hu2 hu3 hw1 hw2 hw3 in
/-- **C68, LogSAS, three catalogues, `ordered=1`, partly.** -/
theorem local3_cross_first_sas_partial
    (hline : ∀ t ∈ crossTriples (cats1.flatMap Prod.snd) (cats2.flatMap Prod.snd) (cats3.flatMap Prod.snd) +
      crossTriples (cats1.flatMap Prod.snd) (cats3.flatMap Prod.snd) (cats2.flatMap Prod.snd),
      (∃ k2 k3 kphi, InSas p k2 k3 kphi t) → ¬ OnLine M.ccw t) :
    ((triKit A g fp (binSAS p M) M p same nn).localCross threeD p.maxsep true .first cats1 cats2 cats3 S).self.acc.Holds k
      ((crossTriples (cats1.flatMap Prod.snd) (cats2.flatMap Prod.snd) (cats3.flatMap Prod.snd) +
        crossTriples (cats1.flatMap Prod.snd) (cats3.flatMap Prod.snd) (cats2.flatMap Prod.snd)).filter (inSas p M.ccw k))
      triPhi triCos := by
  have hK := triKit_good (A := A) (same := same) (nn := nn) hg hf.ge (sas_rows3 p M) rfl hp.minsep
  rw [← from111_first_eq] at hline ⊢
  rw [localCross3_self hK _ _ (by simp)]
  exact pass123_holds (sas_exact3 hp hu0 hpi hb hM hO) (fun _ _ h => inSas_sides hp h) (inSas_near hp) hg hf (by simp) (each_valid hw1)
    hw2 hw3 (hu1.near hu2) (hu1.near hu3) (fun _ hq => sasOK_of hline hq (by simp)) k

include hu1 hu2 hu3 hw1 hw2 hw3 in
/-- **C68, LogSAS, three catalogues, `ordered=False`, partly.** -/
theorem local3_cross_unordered_sas_partial
    (hline : ∀ t ∈ mixed3Triples (cats1.flatMap Prod.snd) (cats2.flatMap Prod.snd) (cats3.flatMap Prod.snd),
      (∃ k2 k3 kphi, InSas p k2 k3 kphi t) → ¬ OnLine M.ccw t) :
    ((triKit A g fp (binSAS p M) M p same nn).localCross threeD p.maxsep true .any cats1 cats2 cats3 S).self.acc.Holds k
      ((mixed3Triples (cats1.flatMap Prod.snd) (cats2.flatMap Prod.snd) (cats3.flatMap Prod.snd)).filter (inSas p M.ccw k))
      triPhi triCos := by
  have hK := triKit_good (A := A) (same := same) (nn := nn) hg hf.ge (sas_rows3 p M) rfl hp.minsep
  rw [← from111_mixed] at hline ⊢
  rw [localCross3_self_any hK, Multiset.filter_add, Multiset.filter_add, Res3.add_acc, Res3.add_acc]
  have h1 := fun t h => hline t (Multiset.mem_add.2 (Or.inl (Multiset.mem_add.2 (Or.inl h))))
  have h2 := fun t h => hline t (Multiset.mem_add.2 (Or.inl (Multiset.mem_add.2 (Or.inr h))))
  have h3 := fun t h => hline t (Multiset.mem_add.2 (Or.inr h))
  refine Acc3.Holds.add (Acc3.Holds.add ?_ ?_) ?_
  · exact pass123_holds (sas_exact3 hp hu0 hpi hb hM hO) (fun _ _ h => inSas_sides hp h) (inSas_near hp) hg hf (by simp) (each_valid hw1)
      hw2 hw3 (hu1.near hu2) (hu1.near hu3) (fun _ hq => sasOK_of h1 hq (by simp)) k
  · exact pass123_holds (sas_exact3 hp hu0 hpi hb hM hO) (fun _ _ h => inSas_sides hp h) (inSas_near hp) hg hf (by simp) (each_valid hw2)
      hw1 hw3 (hu2.near hu1) (hu2.near hu3) (fun _ hq => sasOK_of h2 hq (by simp)) k
  · exact pass123_holds (sas_exact3 hp hu0 hpi hb hM hO) (fun _ _ h => inSas_sides hp h) (inSas_near hp) hg hf (by simp) (each_valid hw3)
      hw1 hw2 (hu3.near hu1) (hu3.near hu2) (fun _ hq => sasOK_of h3 hq (by simp)) k

end sas
end

/-- **C68, LogSAS, three catalogues, `ordered=True`, in the plane, partly.** -/
theorem local3_cross_sas_partial (A : StdAlg (EuclideanSpace ℝ (Fin 2))) (g : Geom (EuclideanSpace ℝ (Fin 2))) (hg : g.Dominates)
    (fp : FieldParams) (hf : fp.minsize = 0) (same : List (Obj (EuclideanSpace ℝ (Fin 2))) → List (Obj (EuclideanSpace ℝ (Fin 2))) → Prop)
    (nn : Bool) {cats1 cats2 cats3 : List (ℕ × List (Obj (EuclideanSpace ℝ (Fin 2))))}
    (hw1 : ∀ o ∈ cats1.flatMap Prod.snd, o.Valid) (hw2 : ∀ o ∈ cats2.flatMap Prod.snd, o.Valid)
    (hw3 : ∀ o ∈ cats3.flatMap Prod.snd, o.Valid) (S : TriCorr Acc3) (k : ℤ)
    {p : Prm3} (hp : SasParams p) (hu0 : p.minu = 0) (hpi : p.maxu = Real.pi) (hb : p.b = 0) :
    ((triKit A g fp (binSAS p flatMetric3) flatMetric3 p same nn).localCross false p.maxsep true .fixed cats1 cats2 cats3 S).self.acc.Holds k
      ((crossTriples (cats1.flatMap Prod.snd) (cats2.flatMap Prod.snd) (cats3.flatMap Prod.snd)).filter (inSas p flatMetric3.ccw k))
      triPhi triCos := by
  have hK := triKit_good (A := A) (same := same) (nn := nn) hg hf.ge (sas_rows3 p flatMetric3) rfl hp.minsep
  have hfar : ∀ cats : List (ℕ × List (Obj (EuclideanSpace ℝ (Fin 2)))), UnitFar false cats := fun _ h => by cases h
  rw [localCross3_self hK _ _ (by simp), crossTriples_eq]
  exact pass123_holds (sas_exact3 hp hu0 hpi hb flatMetric3_of flatMetric3_oriented) (fun _ _ h => inSas_sides hp h) (inSas_near hp) hg hf
    (by simp) (each_valid hw1) hw2 hw3 ((hfar _).near (hfar _)) ((hfar _).near (hfar _))
    (fun _ _ => ⟨fun h => absurd rfl h, fun _ => flatMetric3_turn⟩) k

/-! ### The two modes -/

/-- **C68, the two modes agree**, one catalogue, LogRUV: without isosceles triangles the arrays are those of
`patch_method='global'`. -/
theorem local3_auto_is_global_partial {d : ℕ} (A : StdAlg (EuclideanSpace ℝ (Fin d))) (g : Geom (EuclideanSpace ℝ (Fin d)))
    (hg : g.Dominates) (fp : FieldParams) (hf : fp.minsize = 0)
    (same : List (Obj (EuclideanSpace ℝ (Fin d))) → List (Obj (EuclideanSpace ℝ (Fin d))) → Prop) (nn : Bool)
    {cats : List (ℕ × List (Obj (EuclideanSpace ℝ (Fin d))))} (hid : (cats.map Prod.fst).Nodup)
    (hpos : ∀ o ∈ cats.flatMap Prod.snd, 0 < o.w) (S : TriCorr Acc3) (k : ℤ)
    {p : Prm3} (hp : RuvParams p) (hv0 : p.minv = 0) (hb : p.b = 0) (hbu : p.bu = 0)
    {M : Metric3 (EuclideanSpace ℝ (Fin d))} (hM : M.Of)
    (htie : ∀ t ∈ orderedTriples (cats.flatMap Prod.snd), side1 t = side2 t → ∀ k, ¬ inRuv p M.ccw k t) :
    ((triKit A g fp (binRUV p M) M p same nn).localAuto false p.maxsep true cats S).self.acc.SameAt
      ((triKit A g fp (binRUV p M) M p same nn).processAuto true cats S).self.acc k := by
  have hw : ∀ o ∈ cats.flatMap Prod.snd, o.Valid := fun o ho => ⟨(hpos o ho).le, fun h => absurd h (hpos o ho).ne'⟩
  have hfar : UnitFar false cats := fun h => by cases h
  have h1 := local3_auto_ruv_partial A g hg fp hf same nn false hfar hw S k hp hv0 hb hbu hM
  have h2 := patched_auto_ruv_partial A g hg fp hf same nn hid hw S k hp hv0 hb hbu hM htie
  refine h1.same h2 fun t ht => ?_
  obtain ⟨a, b, c⟩ := mem_orderedTriples (Multiset.mem_filter.1 ht).1
  exact ⟨hpos _ a, hpos _ b, hpos _ c⟩

/-! ### `tot` -/

section tot
variable {d : ℕ} {V : Type} [AddCommMonoid V] {K : Kit3 V (List (Obj (EuclideanSpace ℝ (Fin d))))} {G : V → Prop}
  {threeD : Bool} {maxsep : ℝ} {cats1 cats2 cats3 : List (ℕ × List (Obj (EuclideanSpace ℝ (Fin d))))}

theorem pass12_tot (hnn : K.nn = true)
    (h : ∀ c ∈ cats1, ∃ e, expandPatch threeD maxsep c.2 (cats2.map Prod.snd) = some e ∧ ¬ K.triv c.2 e e) :
    (pass12Val K threeD maxsep cats1 cats2).tot = 0.5 * K.allSumw cats1 * K.allSumw cats2 ^ 2 := by
  unfold pass12Val
  have e : 0.5 * K.allSumw cats1 * K.allSumw cats2 ^ 2 = (cats1.map fun c => K.sumw c.2).sum * (0.5 * K.allSumw cats2 ^ 2) := by
    unfold Kit3.allSumw; ring
  rw [Res3.sum_tot, List.map_map, e, ← List.sum_map_mul_right]
  congr 1
  apply List.map_congr_left
  intro c hc
  obtain ⟨e, he, ht⟩ := h c hc
  simp only [Function.comp_apply, he, Kit3.localRes12, if_neg ht, hnn, if_true]
  ring

theorem pass123_tot (hnn : K.nn = true) (O : Ord3)
    (h : ∀ c ∈ cats1, ∃ e2 e3, expandPatch threeD maxsep c.2 (cats2.map Prod.snd) = some e2 ∧
      expandPatch threeD maxsep c.2 (cats3.map Prod.snd) = some e3 ∧ ¬ K.triv c.2 e2 e3) :
    (pass123Val K threeD maxsep O cats1 cats2 cats3).tot = K.allSumw cats1 * K.allSumw cats2 * K.allSumw cats3 := by
  unfold pass123Val
  have e : K.allSumw cats1 * K.allSumw cats2 * K.allSumw cats3
      = (cats1.map fun c => K.sumw c.2).sum * (K.allSumw cats2 * K.allSumw cats3) := by
    unfold Kit3.allSumw; ring
  rw [Res3.sum_tot, List.map_map, e, ← List.sum_map_mul_right]
  congr 1
  apply List.map_congr_left
  intro c hc
  obtain ⟨e2, e3, he2, he3, ht⟩ := h c hc
  simp only [Function.comp_apply, he2, he3, Kit3.localRes123, if_neg ht, hnn, if_true]
  ring

/-- **C68, the total, two catalogues, `ordered=True`** (NNN): `sumw1*sumw2²/2` as in the global mode, if every patch of the first
catalogue has rows of the second in reach.  Missing: patches with none, whose share is lost (`local3_cross12_tot_wrong`). -/
theorem local3_cross12_tot_partial (hK : K.Good G) (hnn : K.nn = true)
    (h : ∀ c ∈ cats1, ∃ e, expandPatch threeD maxsep c.2 (cats2.map Prod.snd) = some e ∧ ¬ K.triv c.2 e e) (S : TriCorr V) :
    (K.localCross12 threeD maxsep true true cats1 cats2 S).self.tot
      = 0.5 * (cats1.map fun c => K.sumw c.2).sum * (cats2.map fun c => K.sumw c.2).sum ^ 2 := by
  rw [localCross12_self hK, if_pos rfl, add_zero, pass12_tot hnn h]
  rfl

/-- **C68, the total, two catalogues, `ordered=False`** (NNN): three times the total of the global mode, although the counts are
the same. -/
theorem local3_cross12_unordered_tot_partial (hK : K.Good G) (hnn : K.nn = true)
    (h : ∀ c ∈ cats1, ∃ e, expandPatch threeD maxsep c.2 (cats2.map Prod.snd) = some e ∧ ¬ K.triv c.2 e e)
    (h' : ∀ c ∈ cats2, ∃ e2 e3, expandPatch threeD maxsep c.2 (cats1.map Prod.snd) = some e2 ∧
      expandPatch threeD maxsep c.2 (cats2.map Prod.snd) = some e3 ∧ ¬ K.triv c.2 e2 e3) (S : TriCorr V) :
    (K.localCross12 threeD maxsep true false cats1 cats2 S).self.tot
      = 3 * (0.5 * (cats1.map fun c => K.sumw c.2).sum * (cats2.map fun c => K.sumw c.2).sum ^ 2) := by
  rw [localCross12_self hK, if_neg (by simp), Res3.add_tot, pass12_tot hnn h, pass123_tot hnn .first h']
  simp only [Kit3.allSumw]
  ring

/-- **C68, the total, three catalogues, `ordered=True` or 1** (NNN). -/
theorem local3_cross_tot_partial (hK : K.Good G) (hnn : K.nn = true) {O : Ord3} (hO : O ≠ .any)
    (h : ∀ c ∈ cats1, ∃ e2 e3, expandPatch threeD maxsep c.2 (cats2.map Prod.snd) = some e2 ∧
      expandPatch threeD maxsep c.2 (cats3.map Prod.snd) = some e3 ∧ ¬ K.triv c.2 e2 e3) (S : TriCorr V) :
    (K.localCross threeD maxsep true O cats1 cats2 cats3 S).self.tot
      = (cats1.map fun c => K.sumw c.2).sum * (cats2.map fun c => K.sumw c.2).sum * (cats3.map fun c => K.sumw c.2).sum := by
  rw [localCross3_self hK _ _ hO, pass123_tot hnn O h]
  rfl

/-- **C68, the total, three catalogues, `ordered=False`** (NNN): three times the total of the global mode. -/
theorem local3_cross_unordered_tot_partial (hK : K.Good G) (hnn : K.nn = true)
    (h1 : ∀ c ∈ cats1, ∃ e2 e3, expandPatch threeD maxsep c.2 (cats2.map Prod.snd) = some e2 ∧
      expandPatch threeD maxsep c.2 (cats3.map Prod.snd) = some e3 ∧ ¬ K.triv c.2 e2 e3)
    (h2 : ∀ c ∈ cats2, ∃ e1 e3, expandPatch threeD maxsep c.2 (cats1.map Prod.snd) = some e1 ∧
      expandPatch threeD maxsep c.2 (cats3.map Prod.snd) = some e3 ∧ ¬ K.triv c.2 e1 e3)
    (h3 : ∀ c ∈ cats3, ∃ e1 e2, expandPatch threeD maxsep c.2 (cats1.map Prod.snd) = some e1 ∧
      expandPatch threeD maxsep c.2 (cats2.map Prod.snd) = some e2 ∧ ¬ K.triv c.2 e1 e2) (S : TriCorr V) :
    (K.localCross threeD maxsep true .any cats1 cats2 cats3 S).self.tot
      = 3 * ((cats1.map fun c => K.sumw c.2).sum * (cats2.map fun c => K.sumw c.2).sum * (cats3.map fun c => K.sumw c.2).sum) := by
  rw [localCross3_self_any hK, Res3.add_tot, Res3.add_tot, pass123_tot hnn .first h1, pass123_tot hnn .first h2, pass123_tot hnn .first h3]
  simp only [Kit3.allSumw]
  ring

end tot

section
variable {d : ℕ}

theorem not_triv_own {maxsep : ℝ} (hm : 0 < maxsep) {l e : List (Obj (EuclideanSpace ℝ (Fin d)))} {o : Obj (EuclideanSpace ℝ (Fin d))}
    (h1 : o ∈ l) (h2 : o ∈ e) : ¬ trivZero3 maxsep l e e := by
  intro h
  have a := centerSize_le l o h1
  have b := centerSize_le e o h2
  have t := dist_triangle (centerSize e).1 o.pos (centerSize l).1
  have n : 0 ≤ (centerSize e).2 := dist_nonneg.trans b
  rw [dist_comm (centerSize e).1 o.pos] at t
  have key : middle (dist (centerSize e).1 (centerSize e).1) (dist (centerSize e).1 (centerSize l).1)
      (dist (centerSize l).1 (centerSize e).1) ≤ (centerSize l).2 + (centerSize e).2 := by
    rw [dist_self, dist_comm (centerSize l).1]
    unfold middle
    have : dist (centerSize e).1 (centerSize l).1 ≤ (centerSize l).2 + (centerSize e).2 := by linarith
    have h0 : 0 ≤ dist (centerSize e).1 (centerSize l).1 := dist_nonneg
    simp only [max_le_iff, min_le_iff, le_min_iff]
    grind
  simp only [trivZero3] at h
  linarith

/-- **C68, the total, one catalogue** (NNN): half the cube of the sum of weights, three times the total of the global mode
(`patched3_auto_tot`), although the counts are the same.  No patch may be empty. -/
theorem local3_auto_tot (A : StdAlg (EuclideanSpace ℝ (Fin d))) (g : Geom (EuclideanSpace ℝ (Fin d))) (fp : FieldParams)
    {B : Bin3 (EuclideanSpace ℝ (Fin d))} {M : Metric3 (EuclideanSpace ℝ (Fin d))} {p : Prm3}
    (same : List (Obj (EuclideanSpace ℝ (Fin d))) → List (Obj (EuclideanSpace ℝ (Fin d))) → Prop) {G : Acc3 → Prop}
    (hK : (triKit A g fp B M p same true).Good G) (hm : 0 < p.maxsep)
    (threeD : Bool) {cats : List (ℕ × List (Obj (EuclideanSpace ℝ (Fin d))))} (hu : UnitFar threeD cats)
    (hne : ∀ c ∈ cats, c.2 ≠ []) (S : TriCorr Acc3) :
    ((triKit A g fp B M p same true).localAuto threeD p.maxsep true cats S).self.tot
      = 0.5 * ((cats.flatMap Prod.snd).map Obj.w).sum ^ 3 := by
  rw [localAuto3_self hK, pass12_tot rfl]
  · have : (triKit A g fp B M p same true).allSumw cats = ((cats.flatMap Prod.snd).map Obj.w).sum := by
      show (cats.map fun c => (c.2.map Obj.w).sum).sum = _
      induction cats with
      | nil => rfl
      | cons c t ih =>
        rw [List.map_cons, List.sum_cons, ih (fun h c hc => hu h c (by simp [hc])) (fun c hc => hne c (by simp [hc]))]
        simp
    rw [this]
    ring
  · intro c hc
    obtain ⟨o, ho⟩ := List.exists_mem_of_ne_nil _ (hne c hc)
    have hin := expand_self hm hc (hu.near hu c hc c hc) o ho
    refine ⟨_, by rw [expandPatch_eq, if_neg (List.ne_nil_of_mem hin)], not_triv_own hm ho hin⟩

end

/-! ### What is recorded, and MPI -/

section mpi
variable {d : ℕ} {V : Type} [AddCommMonoid V] {K : Kit3 V (List (Obj (EuclideanSpace ℝ (Fin d))))} {G : V → Prop}
  (threeD : Bool) (maxsep : ℝ) (cats cats1 cats2 cats3 : List (ℕ × List (Obj (EuclideanSpace ℝ (Fin d)))))

/-- **C68, patch results**, one catalogue: one entry `(i,i,i)` for each patch, and their sum is the object. -/
theorem local3_auto_results (hK : K.Good G) (hid : (cats.map Prod.fst).Nodup) (S : TriCorr V) :
    let R := K.localAuto threeD maxsep true cats S
    R.results.map Prod.fst = cats.map (fun c => (c.1, c.1, c.1)) ∧ R.self = (R.results.map Prod.snd).sum := by
  have hg : ∀ c, G (K.localRes12 (K.allSumw cats) c (expandPatch threeD maxsep c (cats.map Prod.snd))).acc := fun _ => localRes12_good hK _ _ _
  simp only [Kit3.localAuto, Kit3.allLocalAuto, Kit3.localPass12, if_true]
  rw [localPass_eq, serial_filter3, run_jobs3 hK _ _ (localJobs3_good hg _) (localJobs3_nodup _ hid) (by simp [TriCorr.clear]),
    localJobs3_stored, localJobs3_val]
  refine ⟨by simp [TriCorr.clear, Function.comp_def], ?_⟩
  simp only [TriCorr.clear, List.nil_append, List.map_map, Function.comp_def]
  exact zero_add _

/-- **C68, patch results**, three catalogues, `ordered=True` or 1. -/
theorem local3_cross_results (hK : K.Good G) (hid : (cats1.map Prod.fst).Nodup) {O : Ord3} (hO : O ≠ .any) (S : TriCorr V) :
    let R := K.localCross threeD maxsep true O cats1 cats2 cats3 S
    R.results.map Prod.fst = cats1.map (fun c => (c.1, c.1, c.1)) ∧ R.self = (R.results.map Prod.snd).sum := by
  have hg : ∀ c, G (K.localRes123 O (K.allSumw cats2) (K.allSumw cats3) c (expandPatch threeD maxsep c (cats2.map Prod.snd))
    (expandPatch threeD maxsep c (cats3.map Prod.snd))).acc := fun _ => localRes123_good hK _ _ _ _ _ _
  have e : K.localCross threeD maxsep true O cats1 cats2 cats3 S
      = K.localPass123 (fun _ _ _ => True) threeD maxsep O cats1 cats2 cats3 TriCorr.clear := by
    cases O with
    | any => exact absurd rfl hO
    | first => rfl
    | fixed => rfl
  simp only [e, Kit3.localPass123]
  rw [localPass_eq, serial_filter3, run_jobs3 hK _ _ (localJobs3_good hg _) (localJobs3_nodup _ hid) (by simp [TriCorr.clear]),
    localJobs3_stored, localJobs3_val]
  refine ⟨by simp [TriCorr.clear, Function.comp_def], ?_⟩
  simp only [TriCorr.clear, List.nil_append, List.map_map, Function.comp_def]
  exact zero_add _

/-- The jobs of `process(cat1, cat2, patch_method='local')`. -/
def localCross12Jobs (K : Kit3 V (List (Obj (EuclideanSpace ℝ (Fin d))))) (o : Bool) : List (Job3 V) :=
  localJobs3 (fun c => K.localRes12 (K.allSumw cats2) c (expandPatch threeD maxsep c (cats2.map Prod.snd))) cats1 ++
    if o then [] else localJobs3 (fun c => K.localRes123 .first (K.allSumw cats1) (K.allSumw cats2) c
      (expandPatch threeD maxsep c (cats1.map Prod.snd)) (expandPatch threeD maxsep c (cats2.map Prod.snd))) cats2

/-- The jobs of one pass of `process(cat1, cat2, cat3, patch_method='local')`. -/
def localCrossJobs1 (K : Kit3 V (List (Obj (EuclideanSpace ℝ (Fin d))))) (O : Ord3) : List (Job3 V) :=
  localJobs3 (fun c => K.localRes123 O (K.allSumw cats2) (K.allSumw cats3) c (expandPatch threeD maxsep c (cats2.map Prod.snd))
    (expandPatch threeD maxsep c (cats3.map Prod.snd))) cats1

/-- The jobs of `process(cat1, cat2, cat3, patch_method='local')`. -/
def localCrossJobs (K : Kit3 V (List (Obj (EuclideanSpace ℝ (Fin d))))) : Ord3 → List (Job3 V)
  | .any => localCrossJobs1 threeD maxsep cats1 cats2 cats3 K .first ++ localCrossJobs1 threeD maxsep cats2 cats1 cats3 K .first ++
      localCrossJobs1 threeD maxsep cats3 cats1 cats2 K .first
  | O => localCrossJobs1 threeD maxsep cats1 cats2 cats3 K O

theorem allLocalCross12_jobs (mine : ℕ → ℕ → ℕ → Prop) (o : Bool) (S : TriCorr V) :
    K.allLocalCross12 mine threeD maxsep o cats1 cats2 S
      = ((localCross12Jobs threeD maxsep cats1 cats2 K o).filter (jobMine3 mine)).foldl (Job3.run K) S := by
  cases o <;> simp only [Kit3.allLocalCross12, Kit3.localPass12, Kit3.localPass123, localCross12Jobs, if_true, Bool.false_eq_true, if_false,
    List.append_nil, localPass_eq, List.filter_append, List.foldl_append]

theorem allLocalCross_jobs (mine : ℕ → ℕ → ℕ → Prop) (O : Ord3) (S : TriCorr V) :
    K.allLocalCross mine threeD maxsep O cats1 cats2 cats3 S
      = ((localCrossJobs threeD maxsep cats1 cats2 cats3 K O).filter (jobMine3 mine)).foldl (Job3.run K) S := by
  cases O <;> simp only [Kit3.allLocalCross, Kit3.localPass123, localCrossJobs, localCrossJobs1, localPass_eq, List.filter_append,
    List.foldl_append]

theorem localJobs3_mem {res : List (Obj (EuclideanSpace ℝ (Fin d))) → Res3 V} {cats : List (ℕ × List (Obj (EuclideanSpace ℝ (Fin d))))}
    {J : Job3 V} (h : J ∈ localJobs3 res cats) : ∃ c ∈ cats, J = ⟨(c.1, c.1, c.1), (c.1, c.1, c.1), true, res c.2, 0⟩ := by
  obtain ⟨c, hc, rfl⟩ := List.mem_map.1 h
  exact ⟨c, hc, rfl⟩

theorem localCross12Jobs_mem (hK : K.Good G) {o : Bool} {J : Job3 V} (h : J ∈ localCross12Jobs threeD maxsep cats1 cats2 K o) :
    J.Good G ∧ Plain J ∧ ((∃ c ∈ cats1, J.gate = (c.1, c.1, c.1)) ∨ ∃ c ∈ cats2, J.gate = (c.1, c.1, c.1)) := by
  rcases List.mem_append.1 h with h1 | h1
  · obtain ⟨c, hc, rfl⟩ := localJobs3_mem h1
    exact ⟨localRes12_good hK _ _ _, ⟨rfl, rfl⟩, Or.inl ⟨c, hc, rfl⟩⟩
  · cases o
    · rw [if_neg (by simp)] at h1
      obtain ⟨c, hc, rfl⟩ := localJobs3_mem h1
      exact ⟨localRes123_good hK _ _ _ _ _ _, ⟨rfl, rfl⟩, Or.inr ⟨c, hc, rfl⟩⟩
    · simp at h1

theorem localCrossJobs1_mem (hK : K.Good G) {O : Ord3} {J : Job3 V} (h : J ∈ localCrossJobs1 threeD maxsep cats1 cats2 cats3 K O) :
    J.Good G ∧ Plain J ∧ ∃ c ∈ cats1, J.gate = (c.1, c.1, c.1) := by
  obtain ⟨c, hc, rfl⟩ := localJobs3_mem h
  exact ⟨localRes123_good hK _ _ _ _ _ _, ⟨rfl, rfl⟩, c, hc, rfl⟩

theorem localCrossJobs_mem (hK : K.Good G) {O : Ord3} {J : Job3 V} (h : J ∈ localCrossJobs threeD maxsep cats1 cats2 cats3 K O) :
    J.Good G ∧ Plain J ∧ ∃ c, (c ∈ cats1 ∨ c ∈ cats2 ∨ c ∈ cats3) ∧ J.gate = (c.1, c.1, c.1) := by
  have one : ∀ O, J ∈ localCrossJobs1 threeD maxsep cats1 cats2 cats3 K O →
      J.Good G ∧ Plain J ∧ ∃ c, (c ∈ cats1 ∨ c ∈ cats2 ∨ c ∈ cats3) ∧ J.gate = (c.1, c.1, c.1) := by
    intro O h
    obtain ⟨a, b, c, hc, e⟩ := localCrossJobs1_mem threeD maxsep cats1 cats2 cats3 hK h
    exact ⟨a, b, c, Or.inl hc, e⟩
  cases O with
  | any =>
    rcases List.mem_append.1 h with h1 | h1
    · rcases List.mem_append.1 h1 with h2 | h2
      · exact one _ h2
      · obtain ⟨a, b, c, hc, e⟩ := localCrossJobs1_mem _ _ _ _ _ hK h2
        exact ⟨a, b, c, Or.inr (Or.inl hc), e⟩
    · obtain ⟨a, b, c, hc, e⟩ := localCrossJobs1_mem _ _ _ _ _ hK h1
      exact ⟨a, b, c, Or.inr (Or.inr hc), e⟩
  | first => exact one _ h
  | fixed => exact one _ h

theorem localRes12_tot (hnn : K.nn = false) (w : ℝ) (c : List (Obj (EuclideanSpace ℝ (Fin d)))) (e) : (K.localRes12 w c e).tot = 0 := by
  cases e with
  | none => rfl
  | some e =>
    simp only [Kit3.localRes12, hnn]
    split <;> rfl

theorem localRes123_tot (hnn : K.nn = false) (O : Ord3) (w w' : ℝ) (c : List (Obj (EuclideanSpace ℝ (Fin d)))) (e e') :
    (K.localRes123 O w w' c e e').tot = 0 := by
  rcases e with _ | e <;> rcases e' with _ | e' <;> try rfl
  simp only [Kit3.localRes123, hnn]
  split <;> rfl

/-- **C68, patch results**, two catalogues, partly: for every class but `NNNCorrelation` the results of the patches add up to the object.
For `NNNCorrelation` this is false (`local3_results_tot_wrong`). -/
theorem local3_cross12_results_partial (hK : K.Good G) (hnn : K.nn = false) (o : Bool) (S : TriCorr V) :
    let R := K.localCross12 threeD maxsep true o cats1 cats2 S
    R.self = (R.results.map Prod.snd).sum := by
  simp only [Kit3.localCross12, if_true]
  rw [allLocalCross12_jobs, serial_filter3]
  refine (HistInv3.jobs hK hnn _ (fun J hJ => (localCross12Jobs_mem _ _ _ _ hK hJ).1) (fun J hJ => ?_) HistInv3.clear).sum
  rcases List.mem_append.1 hJ with h1 | h1
  · obtain ⟨c, hc, rfl⟩ := localJobs3_mem h1
    exact localRes12_tot hnn _ _ _
  · cases o
    · rw [if_neg (by simp)] at h1
      obtain ⟨c, hc, rfl⟩ := localJobs3_mem h1
      exact localRes123_tot hnn _ _ _ _ _ _
    · simp at h1

/-- **C68, patch results**, three catalogues, `ordered=False`, partly. -/
theorem local3_cross_unordered_results_partial (hK : K.Good G) (hnn : K.nn = false) (S : TriCorr V) :
    let R := K.localCross threeD maxsep true .any cats1 cats2 cats3 S
    R.self = (R.results.map Prod.snd).sum := by
  simp only [Kit3.localCross, if_true]
  rw [allLocalCross_jobs, serial_filter3]
  refine (HistInv3.jobs hK hnn _ (fun J hJ => (localCrossJobs_mem _ _ _ _ _ hK hJ).1) (fun J hJ => ?_) HistInv3.clear).sum
  simp only [localCrossJobs, List.mem_append] at hJ
  rcases hJ with (h1 | h1) | h1 <;>
    (obtain ⟨c, hc, rfl⟩ := localJobs3_mem h1
     exact localRes123_tot hnn _ _ _ _ _ _)

/-- **C68, MPI, one catalogue.** `process(cat, patch_method='local', comm=comm)` leaves in the root process the same arrays, the same
`tot` and the same results of patches as without MPI, for any number of processes. -/
theorem local3_mpi_auto_same (hK : K.Good G) {size : ℕ} (hs : 0 < size) (hlt : ∀ c ∈ cats, c.1 < cats.length) (S : TriCorr V) :
    ∃ R, K.mpiLocalAuto threeD maxsep true size cats S = some R ∧ R.self = (K.localAuto threeD maxsep true cats S).self ∧
      ∀ key, R.results.get key = (K.localAuto threeD maxsep true cats S).results.get key := by
  have := gather_plain hK (localJobs3 (fun c => K.localRes12 (K.allSumw cats) c (expandPatch threeD maxsep c (cats.map Prod.snd))) cats)
    (localJobs3_good (fun _ => localRes12_good hK _ _ _) _) (fun J hJ => by
      obtain ⟨c, _, rfl⟩ := localJobs3_mem hJ
      exact ⟨rfl, rfl⟩) (fun r => myAutoJob3 cats.length size r) size hs (fun J hJ => by
      obtain ⟨c, hc, rfl⟩ := localJobs3_mem hJ
      exact autoJob3_unique hs (hlt c hc) (hlt c hc) (hlt c hc))
  simp only [Kit3.mpiLocalAuto, Kit3.localAuto, Kit3.allLocalAuto, Kit3.localPass12, if_true, localPass_eq, serial_filter3]
  exact this

theorem cross12_own {n1 n2 size i : ℕ} (hs : 0 < size) (hi : i < max n1 n2) :
    ∃! r, r < size ∧ myCross12Job n1 n2 size r i i i := by
  have h := owner_unique hs hi
  convert h using 4 with r
  unfold myCross12Job
  simp only [and_self]
  split
  · rfl
  · by_cases h : myIndex (max n1 n2) size r i <;> simp [h]

theorem cross123_own {n1 n2 n3 size i : ℕ} (hs : 0 < size) (hi : i < max n1 (max n2 n3)) :
    ∃! r, r < size ∧ myCross123Job n1 n2 n3 size r i i i := by
  simpa only [myCross123Job, ite_self] using owner_unique hs hi

/-- **C68, MPI, two catalogues.** -/
theorem local3_mpi_cross12_same (hK : K.Good G) {size : ℕ} (hs : 0 < size) (o : Bool) (hlt1 : ∀ c ∈ cats1, c.1 < cats1.length)
    (hlt2 : ∀ c ∈ cats2, c.1 < cats2.length) (S : TriCorr V) :
    ∃ R, K.mpiLocalCross12 threeD maxsep true size o cats1 cats2 S = some R ∧
      R.self = (K.localCross12 threeD maxsep true o cats1 cats2 S).self ∧
      ∀ key, R.results.get key = (K.localCross12 threeD maxsep true o cats1 cats2 S).results.get key := by
  have := gather_plain hK (localCross12Jobs threeD maxsep cats1 cats2 K o) (fun J hJ => (localCross12Jobs_mem _ _ _ _ hK hJ).1)
    (fun J hJ => (localCross12Jobs_mem _ _ _ _ hK hJ).2.1) (fun r => myCross12Job cats1.length cats2.length size r) size hs (fun J hJ => by
      rcases (localCross12Jobs_mem _ _ _ _ hK hJ).2.2 with ⟨c, hc, e⟩ | ⟨c, hc, e⟩ <;> rw [e]
      · exact cross12_own hs (lt_of_lt_of_le (hlt1 c hc) (le_max_left _ _))
      · exact cross12_own hs (lt_of_lt_of_le (hlt2 c hc) (le_max_right _ _)))
  simp only [Kit3.mpiLocalCross12, Kit3.localCross12, if_true, allLocalCross12_jobs, serial_filter3]
  exact this

/-- **C68, MPI, three catalogues.** -/
theorem local3_mpi_cross_same (hK : K.Good G) {size : ℕ} (hs : 0 < size) (O : Ord3) (hlt1 : ∀ c ∈ cats1, c.1 < cats1.length)
    (hlt2 : ∀ c ∈ cats2, c.1 < cats2.length) (hlt3 : ∀ c ∈ cats3, c.1 < cats3.length) (S : TriCorr V) :
    ∃ R, K.mpiLocalCross threeD maxsep true size O cats1 cats2 cats3 S = some R ∧
      R.self = (K.localCross threeD maxsep true O cats1 cats2 cats3 S).self ∧
      ∀ key, R.results.get key = (K.localCross threeD maxsep true O cats1 cats2 cats3 S).results.get key := by
  have := gather_plain hK (localCrossJobs threeD maxsep cats1 cats2 cats3 K O) (fun J hJ => (localCrossJobs_mem _ _ _ _ _ hK hJ).1)
    (fun J hJ => (localCrossJobs_mem _ _ _ _ _ hK hJ).2.1) (fun r => myCross123Job cats1.length cats2.length cats3.length size r) size hs
    (fun J hJ => by
      obtain ⟨c, hc, e⟩ := (localCrossJobs_mem _ _ _ _ _ hK hJ).2.2
      rw [e]
      refine cross123_own hs ?_
      rcases hc with hc | hc | hc
      · exact lt_of_lt_of_le (hlt1 c hc) (le_max_left _ _)
      · exact lt_of_lt_of_le (hlt2 c hc) ((le_max_left _ _).trans (le_max_right _ _))
      · exact lt_of_lt_of_le (hlt3 c hc) ((le_max_right _ _).trans (le_max_right _ _)))
  simp only [Kit3.mpiLocalCross, Kit3.localCross, if_true, allLocalCross_jobs, serial_filter3]
  exact this

end mpi
end
end TreeCorr
