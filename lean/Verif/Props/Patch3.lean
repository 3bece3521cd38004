import Verif.Proofs.PatchTri
import Verif.Proofs.PatchHist3
import Verif.Props.Patch
import Verif.Props.Sas3
import Verif.Props.Slop3

/-!
C58–C60: three-point correlations of catalogues divided into patches, in one process or under MPI.

`cats` is a list of (patch number, catalogue).  `triKit` is the tree code of C53 and C55 with `_trivially_zero` as it is in
the code; `K.Good G` says of any other way of counting that what it returns satisfies `G`, a property kept by sums, and
is 0 if it holds no triangle.
-/

namespace TreeCorr
open Classical
noncomputable section

/-! ### C58: the patches do not matter -/

theorem each_valid {P : Type} {cats : List (ℕ × List (Obj P))} (hw : ∀ o ∈ cats.flatMap Prod.snd, o.Valid) :
    ∀ c ∈ cats, ∀ o ∈ c.2, o.Valid := fun c hc o ho => hw o (List.mem_flatMap.2 ⟨c, hc, ho⟩)

/-- Two runs have the same arrays in bin `k`. -/
structure Acc3.SameAt (R1 R2 : Acc3) (k : ℤ) : Prop where
  ntri : R1.ntri k = R2.ntri k
  weight : R1.weight k = R2.weight k
  zeta : R1.zeta k = R2.zeta k
  meand1 : R1.meand1 k = R2.meand1 k
  meand2 : R1.meand2 k = R2.meand2 k
  meand3 : R1.meand3 k = R2.meand3 k
  meanlogd1 : R1.meanlogd1 k = R2.meanlogd1 k
  meanlogd2 : R1.meanlogd2 k = R2.meanlogd2 k
  meanlogd3 : R1.meanlogd3 k = R2.meanlogd3 k
  meanu : R1.meanu k = R2.meanu k
  meanv : R1.meanv k = R2.meanv k

theorem Acc3.Holds.same {P : Type} [PseudoMetricSpace P] {R1 R2 : Acc3} {k : ℤ} {m : Multiset (Obj P × Obj P × Obj P)} {fu fv}
    (h1 : R1.Holds k m fu fv) (h2 : R2.Holds k m fu fv) (hw : ∀ t ∈ m, 0 < t.1.w ∧ 0 < t.2.1.w ∧ 0 < t.2.2.w) : R1.SameAt R2 k where
  ntri := (h1.ntri hw).trans (h2.ntri hw).symm
  weight := h1.weight.trans h2.weight.symm
  zeta := h1.zeta.trans h2.zeta.symm
  meand1 := h1.meand1.trans h2.meand1.symm
  meand2 := h1.meand2.trans h2.meand2.symm
  meand3 := h1.meand3.trans h2.meand3.symm
  meanlogd1 := h1.meanlogd1.trans h2.meanlogd1.symm
  meanlogd2 := h1.meanlogd2.trans h2.meanlogd2.symm
  meanlogd3 := h1.meanlogd3.trans h2.meanlogd3.symm
  meanu := h1.meanu.trans h2.meanu.symm
  meanv := h1.meanv.trans h2.meanv.symm

section
variable {d : ℕ} (A : StdAlg (EuclideanSpace ℝ (Fin d))) (g : Geom (EuclideanSpace ℝ (Fin d))) (hg : g.Dominates) (fp : FieldParams)
  (hf : fp.minsize = 0) (same : List (Obj (EuclideanSpace ℝ (Fin d))) → List (Obj (EuclideanSpace ℝ (Fin d))) → Prop) (nn : Bool)
  {cats cats1 cats2 cats3 : List (ℕ × List (Obj (EuclideanSpace ℝ (Fin d))))} (hid : (cats.map Prod.fst).Nodup)
  (hid1 : (cats1.map Prod.fst).Nodup) (hid2 : (cats2.map Prod.fst).Nodup) (hid3 : (cats3.map Prod.fst).Nodup)
  (hw : ∀ o ∈ cats.flatMap Prod.snd, o.Valid) (hw1 : ∀ o ∈ cats1.flatMap Prod.snd, o.Valid)
  (hw2 : ∀ o ∈ cats2.flatMap Prod.snd, o.Valid) (hw3 : ∀ o ∈ cats3.flatMap Prod.snd, o.Valid) (S : TriCorr Acc3) (k : ℤ)
include hg hf

section ruv
variable {p : Prm3} (hp : RuvParams p) (hv0 : p.minv = 0) (hb : p.b = 0) (hbu : p.bu = 0)
  {M : Metric3 (EuclideanSpace ℝ (Fin d))} (hM : M.Of)
include hp hv0 hb hbu hM

include hid hw in
/-- **C58, LogRUV, one catalogue, partly.** Without slop, counting the patches one by one, each pair of patches twice and all triples of
patches, and skipping those that are trivially zero, gives in every bin exactly the triangles of the whole catalogue.  Missing: bin
slop, `min_v > 0`, metrics other than the plain distance (`patched_periodic_wrong`). -/
theorem patched_auto_ruv_partial
    (htie : ∀ t ∈ orderedTriples (cats.flatMap Prod.snd), side1 t = side2 t → ∀ k, ¬ inRuv p M.ccw k t) :
    ((triKit A g fp (binRUV p M) M p same nn).processAuto true cats S).self.acc.Holds k
      ((orderedTriples (cats.flatMap Prod.snd)).filter (inRuv p M.ccw k)) triU (triVs M.ccw) :=
  patched_auto_holds (ruv_exact3 hp hv0 (Or.inr (euclid_ptolemaic d)) hb hbu hM) (ruv_rows3 p hM) rfl hp.minsep (fun _ _ h => inRuv_sides hp h) hg hf hid (each_valid hw)
    (by intro q hq _ ⟨k, hk⟩ e; exact htie q hq e k hk) S k

include hid1 hid2 hw1 hw2 in
/-- **C58, LogRUV, two catalogues, `ordered=True`, partly.** -/
theorem patched_cross12_ruv_partial :
    ((triKit A g fp (binRUV p M) M p same nn).processCross12 true true cats1 cats2 S).self.acc.Holds k
      ((cross12Triples (cats1.flatMap Prod.snd) (cats2.flatMap Prod.snd)).filter (inRuv p M.ccw k)) triU (triVs M.ccw) := by
  rw [← from12_first_eq]
  exact patched_cross12_holds (ruv_exact3 hp hv0 (Or.inr (euclid_ptolemaic d)) hb hbu hM) (ruv_rows3 p hM) rfl hp.minsep (fun _ _ h => inRuv_sides hp h) hg hf true
    hid1 hid2 (each_valid hw1) (each_valid hw2) (fun _ _ h => by cases h) S k

include hid1 hid2 hw1 hw2 in
/-- **C58, LogRUV, two catalogues, `ordered=False`, partly.** -/
theorem patched_cross12_unordered_ruv_partial
    (htie : ∀ t ∈ mixedTriples (cats1.flatMap Prod.snd) (cats2.flatMap Prod.snd), side1 t = side2 t → ∀ k, ¬ inRuv p M.ccw k t) :
    ((triKit A g fp (binRUV p M) M p same nn).processCross12 true false cats1 cats2 S).self.acc.Holds k
      ((mixedTriples (cats1.flatMap Prod.snd) (cats2.flatMap Prod.snd)).filter (inRuv p M.ccw k)) triU (triVs M.ccw) := by
  rw [← from12_any_eq] at htie ⊢
  exact patched_cross12_holds (ruv_exact3 hp hv0 (Or.inr (euclid_ptolemaic d)) hb hbu hM) (ruv_rows3 p hM) rfl hp.minsep (fun _ _ h => inRuv_sides hp h) hg hf false
    hid1 hid2 (each_valid hw1) (each_valid hw2) (by intro q hq _ ⟨k, hk⟩ e; exact htie q hq e k hk) S k

include hid1 hid2 hid3 hw1 hw2 hw3 in
/-- **C58, LogRUV, three catalogues, `ordered=True`, partly.** -/
theorem patched_cross_ruv_partial :
    ((triKit A g fp (binRUV p M) M p same nn).processCross true true cats1 cats2 cats3 S).self.acc.Holds k
      ((crossTriples (cats1.flatMap Prod.snd) (cats2.flatMap Prod.snd) (cats3.flatMap Prod.snd)).filter (inRuv p M.ccw k))
      triU (triVs M.ccw) := by
  rw [crossTriples_eq]
  exact patched_cross_holds (ruv_exact3 hp hv0 (Or.inr (euclid_ptolemaic d)) hb hbu hM) (ruv_rows3 p hM) rfl hp.minsep (fun _ _ h => inRuv_sides hp h) hg hf true
    hid1 hid2 hid3 (each_valid hw1) (each_valid hw2) (each_valid hw3) (fun _ _ h => by cases h) S k

include hid1 hid2 hid3 hw1 hw2 hw3 in
/-- **C58, LogRUV, three catalogues, `ordered=False`, partly.** -/
theorem patched_cross_unordered_ruv_partial
    (htie : ∀ t ∈ mixed3Triples (cats1.flatMap Prod.snd) (cats2.flatMap Prod.snd) (cats3.flatMap Prod.snd), side1 t = side2 t →
      ∀ k, ¬ inRuv p M.ccw k t) :
    ((triKit A g fp (binRUV p M) M p same nn).processCross true false cats1 cats2 cats3 S).self.acc.Holds k
      ((mixed3Triples (cats1.flatMap Prod.snd) (cats2.flatMap Prod.snd) (cats3.flatMap Prod.snd)).filter (inRuv p M.ccw k))
      triU (triVs M.ccw) := by
  rw [← from111_any_eq] at htie ⊢
  exact patched_cross_holds (ruv_exact3 hp hv0 (Or.inr (euclid_ptolemaic d)) hb hbu hM) (ruv_rows3 p hM) rfl hp.minsep (fun _ _ h => inRuv_sides hp h) hg hf false
    hid1 hid2 hid3 (each_valid hw1) (each_valid hw2) (each_valid hw3) (by intro q hq _ ⟨k, hk⟩ e; exact htie q hq e k hk) S k

include hid1 hid2 in
/-- **C58, the division is not seen, partly.** Two divisions of the same rows into patches (one of which may be a single patch) leave the
same numbers in every array. -/
theorem patched_auto_ruv_same_partial (hsame : (cats1.flatMap Prod.snd).Perm (cats2.flatMap Prod.snd))
    (hpos : ∀ o ∈ cats1.flatMap Prod.snd, 0 < o.w)
    (htie : ∀ t ∈ orderedTriples (cats1.flatMap Prod.snd), side1 t = side2 t → ∀ k, ¬ inRuv p M.ccw k t) :
    ((triKit A g fp (binRUV p M) M p same nn).processAuto true cats1 S).self.acc.SameAt
      ((triKit A g fp (binRUV p M) M p same nn).processAuto true cats2 S).self.acc k := by
  have hw1 : ∀ o ∈ cats1.flatMap Prod.snd, o.Valid := fun o ho => ⟨(hpos o ho).le, fun h => absurd h (hpos o ho).ne'⟩
  have hw2 : ∀ o ∈ cats2.flatMap Prod.snd, o.Valid := fun o ho => hw1 o (hsame.mem_iff.2 ho)
  have h1 := patched_auto_ruv_partial A g hg fp hf same nn hid1 hw1 S k hp hv0 hb hbu hM htie
  have h2 := patched_auto_ruv_partial A g hg fp hf same nn hid2 hw2 S k hp hv0 hb hbu hM
    (by rwa [orderedTriples_perm hsame] at htie)
  rw [← orderedTriples_perm hsame] at h2
  refine h1.same h2 fun t ht => ?_
  obtain ⟨a, b, c⟩ := mem_orderedTriples (Multiset.mem_filter.1 ht).1
  exact ⟨hpos _ a, hpos _ b, hpos _ c⟩

end ruv

section sas
variable {p : Prm3} (hp : SasParams p) (hu0 : p.minu = 0) (hu1 : p.maxu = Real.pi) (hb : p.b = 0)
  {M : Metric3 (EuclideanSpace ℝ (Fin d))} (hM : M.Of) (hO : M.Oriented)
include hp hu0 hu1 hb hM hO

include hid hw in
/-- **C58, LogSAS (`algo='triangle'`), one catalogue, partly.** -/
theorem patched_auto_sas_partial
    (hline : ∀ t ∈ orderedTriples (cats.flatMap Prod.snd), (∃ k2 k3 kphi, InSas p k2 k3 kphi t) → ¬ OnLine M.ccw t) :
    ((triKit A g fp (binSAS p M) M p same nn).processAuto true cats S).self.acc.Holds k
      ((orderedTriples (cats.flatMap Prod.snd)).filter (inSas p M.ccw k)) triPhi triCos :=
  patched_auto_holds (sas_exact3 hp hu0 hu1 hb hM hO) (sas_rows3 p M) rfl hp.minsep (fun _ _ h => inSas_sides hp h) hg hf hid
    (each_valid hw) (fun _ hq => sasOK_of hline hq (by simp)) S k

include hid1 hid2 hw1 hw2 in
/-- **C58, LogSAS, two catalogues, `ordered=True`, partly.** -/
theorem patched_cross12_sas_partial
    (hline : ∀ t ∈ cross12Triples (cats1.flatMap Prod.snd) (cats2.flatMap Prod.snd),
      (∃ k2 k3 kphi, InSas p k2 k3 kphi t) → ¬ OnLine M.ccw t) :
    ((triKit A g fp (binSAS p M) M p same nn).processCross12 true true cats1 cats2 S).self.acc.Holds k
      ((cross12Triples (cats1.flatMap Prod.snd) (cats2.flatMap Prod.snd)).filter (inSas p M.ccw k)) triPhi triCos := by
  rw [← from12_first_eq] at hline ⊢
  exact patched_cross12_holds (sas_exact3 hp hu0 hu1 hb hM hO) (sas_rows3 p M) rfl hp.minsep (fun _ _ h => inSas_sides hp h) hg hf true
    hid1 hid2 (each_valid hw1) (each_valid hw2) (fun _ hq => sasOK_of hline hq (by simp [ord12])) S k

include hid1 hid2 hw1 hw2 in
/-- **C58, LogSAS, two catalogues, `ordered=False`, partly.** -/
theorem patched_cross12_unordered_sas_partial
    (hline : ∀ t ∈ mixedTriples (cats1.flatMap Prod.snd) (cats2.flatMap Prod.snd),
      (∃ k2 k3 kphi, InSas p k2 k3 kphi t) → ¬ OnLine M.ccw t) :
    ((triKit A g fp (binSAS p M) M p same nn).processCross12 true false cats1 cats2 S).self.acc.Holds k
      ((mixedTriples (cats1.flatMap Prod.snd) (cats2.flatMap Prod.snd)).filter (inSas p M.ccw k)) triPhi triCos := by
  rw [← from12_any_eq] at hline ⊢
  exact patched_cross12_holds (sas_exact3 hp hu0 hu1 hb hM hO) (sas_rows3 p M) rfl hp.minsep (fun _ _ h => inSas_sides hp h) hg hf false
    hid1 hid2 (each_valid hw1) (each_valid hw2) (fun _ hq => sasOK_of hline hq (by simp [ord12])) S k

include hid1 hid2 hid3 hw1 hw2 hw3 in
/-- **C58, LogSAS, three catalogues, `ordered=False`, partly.** -/
theorem patched_cross_unordered_sas_partial
    (hline : ∀ t ∈ mixed3Triples (cats1.flatMap Prod.snd) (cats2.flatMap Prod.snd) (cats3.flatMap Prod.snd),
      (∃ k2 k3 kphi, InSas p k2 k3 kphi t) → ¬ OnLine M.ccw t) :
    ((triKit A g fp (binSAS p M) M p same nn).processCross true false cats1 cats2 cats3 S).self.acc.Holds k
      ((mixed3Triples (cats1.flatMap Prod.snd) (cats2.flatMap Prod.snd) (cats3.flatMap Prod.snd)).filter (inSas p M.ccw k))
      triPhi triCos := by
  rw [← from111_any_eq] at hline ⊢
  exact patched_cross_holds (sas_exact3 hp hu0 hu1 hb hM hO) (sas_rows3 p M) rfl hp.minsep (fun _ _ h => inSas_sides hp h) hg hf false
    hid1 hid2 hid3 (each_valid hw1) (each_valid hw2) (each_valid hw3) (fun _ hq => sasOK_of hline hq (by simp [ord123])) S k

end sas
end

/-- **C58, LogSAS, three catalogues, `ordered=True`, in the plane, partly.** -/
theorem patched_cross_sas_partial (A : StdAlg (EuclideanSpace ℝ (Fin 2))) (g : Geom (EuclideanSpace ℝ (Fin 2))) (hg : g.Dominates)
    (fp : FieldParams) (hf : fp.minsize = 0) (same : List (Obj (EuclideanSpace ℝ (Fin 2))) → List (Obj (EuclideanSpace ℝ (Fin 2))) → Prop)
    (nn : Bool) {cats1 cats2 cats3 : List (ℕ × List (Obj (EuclideanSpace ℝ (Fin 2))))}
    (hid1 : (cats1.map Prod.fst).Nodup) (hid2 : (cats2.map Prod.fst).Nodup) (hid3 : (cats3.map Prod.fst).Nodup)
    (hw1 : ∀ o ∈ cats1.flatMap Prod.snd, o.Valid) (hw2 : ∀ o ∈ cats2.flatMap Prod.snd, o.Valid)
    (hw3 : ∀ o ∈ cats3.flatMap Prod.snd, o.Valid) (S : TriCorr Acc3) (k : ℤ)
    {p : Prm3} (hp : SasParams p) (hu0 : p.minu = 0) (hu1 : p.maxu = Real.pi) (hb : p.b = 0) :
    ((triKit A g fp (binSAS p flatMetric3) flatMetric3 p same nn).processCross true true cats1 cats2 cats3 S).self.acc.Holds k
      ((crossTriples (cats1.flatMap Prod.snd) (cats2.flatMap Prod.snd) (cats3.flatMap Prod.snd)).filter (inSas p flatMetric3.ccw k))
      triPhi triCos := by
  rw [crossTriples_eq]
  exact patched_cross_holds (sas_exact3 hp hu0 hu1 hb flatMetric3_of flatMetric3_oriented) (sas_rows3 p _) rfl hp.minsep
    (fun _ _ h => inSas_sides hp h) hg hf true hid1 hid2 hid3 (each_valid hw1) (each_valid hw2) (each_valid hw3)
    (fun _ _ => ⟨fun h => absurd rfl h, fun _ => flatMetric3_turn⟩) S k

/-! ### C59: MPI -/

section mpi
variable {V C : Type}

/-- **C59, each job once.** With any number of processes, every triple of patches of an auto-correlation is counted by exactly one
process. -/
theorem mpi3_auto_job_once {n size i j k : ℕ} (hs : 0 < size) (hi : i < n) (hj : j < n) (hk : k < n) :
    ∃! rank, rank < size ∧ myAutoJob3 n size rank i j k := autoJob3_unique hs hi hj hk

/-- **C59, each job once**, two catalogues. -/
theorem mpi3_cross12_job_once {n1 n2 size i j k : ℕ} (hs : 0 < size) (hi : i < n1) (hj : j < n2) (hk : k < n2) :
    ∃! rank, rank < size ∧ myCross12Job n1 n2 size rank i j k := cross12Job_unique hs hi hj hk

/-- **C59, each job once**, three catalogues. -/
theorem mpi3_cross_job_once {n1 n2 n3 size i j k : ℕ} (hs : 0 < size) (hi : i < n1) (hj : j < n2) (hk : k < n3) :
    ∃! rank, rank < size ∧ myCross123Job n1 n2 n3 size rank i j k := cross123Job_unique hs hi hj hk

variable [AddCommMonoid V] {K : Kit3 V C} {G : V → Prop}

theorem lt_of_key {n : ℕ} {cats : List (ℕ × C)} (hlt : ∀ c ∈ cats, c.1 < n) {i : ℕ} (h : i ∈ cats.map Prod.fst) : i < n := by
  obtain ⟨c, hc, rfl⟩ := List.mem_map.1 h
  exact hlt c hc

/-- **C59, auto.** `process(cat, comm=comm)` leaves in the root process the same arrays, the same `tot` and the same results of triples of
patches as `process(cat)`, for any number of processes.  Missing: `initialize=False`, for which it is false
(`mpi3_prior_counted_again`). -/
theorem mpi3_auto_same_partial (hK : K.Good G) {size : ℕ} (hs : 0 < size) (cats : List (ℕ × C)) (hid : (cats.map Prod.fst).Nodup)
    (hlt : ∀ c ∈ cats, c.1 < cats.length) (S : TriCorr V) :
    ∃ R, K.mpiAuto size true cats S = some R ∧ R.self = (K.processAuto true cats S).self ∧
      ∀ key, R.results.get key = (K.processAuto true cats S).results.get key := by
  obtain ⟨R, h1, h2, h3⟩ := gather_jobs3 hK (autoJobs3 K cats) (autoJobs3_good hK cats) (autoJobs3_nodup K hid)
    (fun r => myAutoJob3 cats.length size r) size hs (fun J hJ => by
      obtain ⟨a, b, c⟩ := autoJobs3_gate hJ
      exact autoJob3_unique hs (lt_of_key hlt a) (lt_of_key hlt b) (lt_of_key hlt c))
  refine ⟨R, ?_, ?_, ?_⟩
  · simp only [Kit3.mpiAuto, allAuto3_eq, if_true]
    exact h1
  · rw [processAuto3_jobs hK hid]; exact h2
  · intro key
    rw [processAuto3_jobs hK hid]
    exact Dict3.get_perm ((h3.map _).nodup_iff.2 (stored_keys_nodup3 K _ (autoJobs3_nodup K hid))) h3 _

/-- **C59, two catalogues.** -/
theorem mpi3_cross12_same_partial (hK : K.Good G) {size : ℕ} (hs : 0 < size) (o : Bool) (cats1 cats2 : List (ℕ × C))
    (hid1 : (cats1.map Prod.fst).Nodup) (hid2 : (cats2.map Prod.fst).Nodup)
    (hlt1 : ∀ c ∈ cats1, c.1 < cats1.length) (hlt2 : ∀ c ∈ cats2, c.1 < cats2.length) (S : TriCorr V) :
    ∃ R, K.mpiCross12 size true o cats1 cats2 S = some R ∧ R.self = (K.processCross12 true o cats1 cats2 S).self ∧
      ∀ key, R.results.get key = (K.processCross12 true o cats1 cats2 S).results.get key := by
  obtain ⟨R, h1, h2, h3⟩ := gather_jobs3 hK (cross12Jobs K o cats1.length cats2.length cats1 cats2) (cross12Jobs_good hK _ _ _ _ _)
    (cross12Jobs_nodup K _ _ _ hid1 hid2) (fun r => myCross12Job cats1.length cats2.length size r) size hs (fun J hJ => by
      obtain ⟨a, b, c⟩ := cross12Jobs_gate hJ
      exact cross12Job_unique hs (lt_of_key hlt1 a) (lt_of_key hlt2 b) (lt_of_key hlt2 c))
  refine ⟨R, ?_, ?_, ?_⟩
  · simp only [Kit3.mpiCross12, allCross12_eq, if_true]
    exact h1
  · rw [processCross12_jobs hK o hid1 hid2]; exact h2
  · intro key
    rw [processCross12_jobs hK o hid1 hid2]
    exact Dict3.get_perm ((h3.map _).nodup_iff.2 (stored_keys_nodup3 K _ (cross12Jobs_nodup K _ _ _ hid1 hid2))) h3 _

/-- **C59, three catalogues.** -/
theorem mpi3_cross_same_partial (hK : K.Good G) {size : ℕ} (hs : 0 < size) (o : Bool) (cats1 cats2 cats3 : List (ℕ × C))
    (hid1 : (cats1.map Prod.fst).Nodup) (hid2 : (cats2.map Prod.fst).Nodup) (hid3 : (cats3.map Prod.fst).Nodup)
    (hlt1 : ∀ c ∈ cats1, c.1 < cats1.length) (hlt2 : ∀ c ∈ cats2, c.1 < cats2.length) (hlt3 : ∀ c ∈ cats3, c.1 < cats3.length)
    (S : TriCorr V) :
    ∃ R, K.mpiCross size true o cats1 cats2 cats3 S = some R ∧ R.self = (K.processCross true o cats1 cats2 cats3 S).self ∧
      ∀ key, R.results.get key = (K.processCross true o cats1 cats2 cats3 S).results.get key := by
  obtain ⟨R, h1, h2, h3⟩ := gather_jobs3 hK (cross123Jobs K o cats1.length cats2.length cats3.length cats1 cats2 cats3)
    (cross123Jobs_good hK _ _ _ _ _ _ _) (cross123Jobs_nodup K _ _ _ _ hid1 hid2 hid3)
    (fun r => myCross123Job cats1.length cats2.length cats3.length size r) size hs (fun J hJ => by
      obtain ⟨a, b, c⟩ := cross123Jobs_gate hJ
      exact cross123Job_unique hs (lt_of_key hlt1 a) (lt_of_key hlt2 b) (lt_of_key hlt3 c))
  refine ⟨R, ?_, ?_, ?_⟩
  · simp only [Kit3.mpiCross, allCross123_eq, if_true]
    exact h1
  · rw [processCross123_jobs hK o hid1 hid2 hid3]; exact h2
  · intro key
    rw [processCross123_jobs hK o hid1 hid2 hid3]
    exact Dict3.get_perm ((h3.map _).nodup_iff.2 (stored_keys_nodup3 K _ (cross123Jobs_nodup K _ _ _ _ hid1 hid2 hid3))) h3 _

/-- **C59, `initialize=False`.** If every process holds `S` and `process(cat, comm=comm, initialize=False)` is called, what `S` held is
counted once per process instead of once. -/
theorem mpi3_prior_counted_again (hK : K.Good G) {size : ℕ} (hs : 0 < size) (cats : List (ℕ × C))
    (hlt : ∀ c ∈ cats, c.1 < cats.length) (S : TriCorr V) (hS : G S.self.acc) :
    ∃ R, K.mpiAuto size false cats S = some R ∧ R.self = (size - 1) • S.self + (K.processAuto false cats S).self := by
  obtain ⟨R, h1, h2⟩ := gather_jobs_self3 hK (autoJobs3 K cats) (autoJobs3_good hK cats) (fun r => myAutoJob3 cats.length size r) size hs
    (fun J hJ => by
      obtain ⟨a, b, c⟩ := autoJobs3_gate hJ
      exact autoJob3_unique hs (lt_of_key hlt a) (lt_of_key hlt b) (lt_of_key hlt c)) S hS
  refine ⟨R, ?_, ?_⟩
  · simp only [Kit3.mpiAuto, allAuto3_eq]
    exact h1
  · have : (K.processAuto false cats S).self = S.self + ((autoJobs3 K cats).map (Job3.val K)).sum := by
      simp only [Kit3.processAuto]
      rw [allAuto3_eq, serial_filter3, run_jobs_self3 hK _ (autoJobs3_good hK cats)]
      rfl
    rw [h2, this]
    obtain ⟨m, rfl⟩ : ∃ m, size = m + 1 := ⟨size - 1, by omega⟩
    rw [Nat.add_sub_cancel, succ_nsmul, add_assoc]

/-! ### C60: `tot` and the results of triples of patches -/

/-- **C60, auto.** The `tot` of an `NNNCorrelation` over patches is `sumw³/6` for the sum of all weights, whichever triples of patches are
skipped or have no triangles. -/
theorem patched3_auto_tot (hK : K.Good G) (hnn : K.nn = true) (cats : List (ℕ × C)) (hid : (cats.map Prod.fst).Nodup)
    (hsame : ∀ c1 ∈ cats, ∀ c2 ∈ cats, c1.1 ≠ c2.1 → ¬ K.same c1.2 c2.2) (S : TriCorr V) :
    (K.processAuto true cats S).self.tot = 1 / 6 * (cats.map fun c => K.sumw c.2).sum ^ 3 := by
  rw [processAuto3_jobs hK hid, ← rows3_sixth _ _ hid]
  show ((autoJobs3 K cats).map (Job3.val K)).sum.tot = _
  rw [Res3.sum_tot, List.map_map, autoJobs3_sum]
  refine rows3_congr (fun c _ => job111_tot hnn c) (fun c1 _ c2 _ _ => ?_) (fun c1 _ c2 h2 c3 h3 _ h => ?_)
  · show (Job3.val K _).tot + (Job3.val K _).tot = _
    rw [job12_tot hnn _ _ _ _ _ _ (by simp) hK.nz_zero, job12_tot hnn _ _ _ _ _ _ (by simp) hK.nz_zero]
  · exact job123_tot hnn _ _ _ _ _ (by simp) (hsame _ h2 _ h3 h.ne) hK.nz_zero

/-- **C60, two catalogues, partly.** `sumw1*sumw2²/2`, provided no pair of patches with the same number (and no pair at all if one side is
not divided) is trivially zero.  Without this it is false (`patched3_cross12_tot_dropped`). -/
theorem patched3_cross12_tot_partial (hK : K.Good G) (hnn : K.nn = true) (o : Bool) (cats1 cats2 : List (ℕ × C))
    (hid1 : (cats1.map Prod.fst).Nodup) (hid2 : (cats2.map Prod.fst).Nodup)
    (hsame : ∀ c2 ∈ cats2, ∀ c3 ∈ cats2, c2.1 ≠ c3.1 → ¬ K.same c2.2 c3.2)
    (hz : ∀ c1 ∈ cats1, ∀ c2 ∈ cats2, c1.1 = c2.1 ∨ cats1.length = 1 ∨ cats2.length = 1 → ¬ K.triv c1.2 c2.2 c2.2) (S : TriCorr V) :
    (K.processCross12 true o cats1 cats2 S).self.tot
      = 0.5 * (cats1.map fun c => K.sumw c.2).sum * (cats2.map fun c => K.sumw c.2).sum ^ 2 := by
  rw [processCross12_jobs hK o hid1 hid2]
  show ((cross12Jobs K o _ _ cats1 cats2).map (Job3.val K)).sum.tot = _
  rw [Res3.sum_tot, List.map_map, cross12Jobs_sum, mul_right_comm, ← rows_half_sq _ _ hid2, mul_comm, ← List.sum_map_mul_right]
  congr 1
  apply List.map_congr_left
  intro c1 h1
  rw [← List.sum_map_mul_left]
  congr 1
  apply List.map_congr_left
  intro c2 h2
  rw [mul_add, ← List.sum_map_mul_left]
  refine congrArg₂ _ ?_ (congrArg _ (List.map_congr_left fun c3 h3 => ?_))
  · refine (job12_tot hnn _ _ _ _ _ _ (fun h => hz c1 h1 c2 h2 ?_) hK.nz_zero).trans (by ring)
    simpa only [Bool.or_eq_true, decide_eq_true_eq, or_assoc] using h
  · obtain ⟨h3, h⟩ := List.mem_filter.1 h3
    refine (job123_tot hnn _ _ _ _ _ (by simp) (hsame _ h2 _ h3 ?_) hK.nz_zero).trans (by ring)
    exact (of_decide_eq_true h).ne

/-- **C60, three catalogues, partly.** `sumw1*sumw2*sumw3`, provided no triple of patches with one number (and no triple at all if one
of the catalogues is not divided) is trivially zero, and the second catalogue is not given again as the third.  Without these it is
false (`patched3_cross_tot_dropped`, `patched3_cross_tot_repeated_wrong`). -/
theorem patched3_cross_tot_partial (hK : K.Good G) (hnn : K.nn = true) (o : Bool) (cats1 cats2 cats3 : List (ℕ × C))
    (hid1 : (cats1.map Prod.fst).Nodup) (hid2 : (cats2.map Prod.fst).Nodup) (hid3 : (cats3.map Prod.fst).Nodup)
    (hsame : ∀ c2 ∈ cats2, ∀ c3 ∈ cats3, ¬ K.same c2.2 c3.2)
    (hz : ∀ c1 ∈ cats1, ∀ c2 ∈ cats2, ∀ c3 ∈ cats3,
      (c1.1 = c2.1 ∧ c2.1 = c3.1) ∨ cats1.length = 1 ∨ cats2.length = 1 ∨ cats3.length = 1 → ¬ K.triv c1.2 c2.2 c3.2) (S : TriCorr V) :
    (K.processCross true o cats1 cats2 cats3 S).self.tot
      = (cats1.map fun c => K.sumw c.2).sum * (cats2.map fun c => K.sumw c.2).sum * (cats3.map fun c => K.sumw c.2).sum := by
  rw [processCross123_jobs hK o hid1 hid2 hid3]
  show ((cross123Jobs K o _ _ _ cats1 cats2 cats3).map (Job3.val K)).sum.tot = _
  rw [Res3.sum_tot, List.map_map, cross123Jobs_sum, mul_assoc, ← List.sum_map_mul_right]
  congr 1
  apply List.map_congr_left
  intro c1 h1
  rw [← List.sum_map_mul_right, ← List.sum_map_mul_left]
  congr 1
  apply List.map_congr_left
  intro c2 h2
  rw [← mul_assoc, ← List.sum_map_mul_left]
  congr 1
  apply List.map_congr_left
  intro c3 h3
  refine job123_tot hnn _ _ _ _ _ (fun h => hz c1 h1 c2 h2 c3 h3 ?_) (hsame _ h2 _ h3) hK.nz_zero
  simpa only [Bool.or_eq_true, Bool.and_eq_true, decide_eq_true_eq, or_assoc] using h

/-- **C60, one call.** After `process` with `initialize=True` the results of triples of patches add up to the object, arrays and `tot`:
auto. -/
theorem results3_sum_auto (hK : K.Good G) (cats : List (ℕ × C)) (hid : (cats.map Prod.fst).Nodup) (S : TriCorr V) :
    (K.processAuto true cats S).self = ((K.processAuto true cats S).results.map Prod.snd).sum := by
  rw [processAuto3_jobs hK hid]
  exact (stored_total3 hK _ (autoJobs3_good hK cats)).symm

/-- **C60, one call**, two catalogues. -/
theorem results3_sum_cross12 (hK : K.Good G) (o : Bool) (cats1 cats2 : List (ℕ × C)) (hid1 : (cats1.map Prod.fst).Nodup)
    (hid2 : (cats2.map Prod.fst).Nodup) (S : TriCorr V) :
    (K.processCross12 true o cats1 cats2 S).self = ((K.processCross12 true o cats1 cats2 S).results.map Prod.snd).sum := by
  rw [processCross12_jobs hK o hid1 hid2]
  exact (stored_total3 hK _ (cross12Jobs_good hK _ _ _ _ _)).symm

/-- **C60, one call**, three catalogues. -/
theorem results3_sum_cross (hK : K.Good G) (o : Bool) (cats1 cats2 cats3 : List (ℕ × C)) (hid1 : (cats1.map Prod.fst).Nodup)
    (hid2 : (cats2.map Prod.fst).Nodup) (hid3 : (cats3.map Prod.fst).Nodup) (S : TriCorr V) :
    (K.processCross true o cats1 cats2 cats3 S).self = ((K.processCross true o cats1 cats2 cats3 S).results.map Prod.snd).sum := by
  rw [processCross123_jobs hK o hid1 hid2 hid3]
  exact (stored_total3 hK _ (cross123Jobs_good hK _ _ _ _ _ _ _)).symm

/-- **C60, any history, partly.** For every class but `NNNCorrelation`, after any sequence of calls, with or without `initialize`, on any
patches, the results of triples of patches add up to the object.  For `NNNCorrelation` this is false
(`results3_sum_nnn_history_wrong`). -/
theorem results3_sum_history_partial (hK : K.Good G) (hnn : K.nn = false) (calls : List (TriCall C)) :
    (calls.foldl (TriCall.run K) TriCorr.clear).self = ((calls.foldl (TriCall.run K) TriCorr.clear).results.map Prod.snd).sum := by
  have : ∀ (S : TriCorr V), HistInv3 G S → HistInv3 G (calls.foldl (TriCall.run K) S) := by
    induction calls with
    | nil => exact fun S h => h
    | cons c t ih => exact fun S h => ih _ (h.call hK hnn c)
  exact (this _ HistInv3.clear).sum

end mpi
end
end TreeCorr
