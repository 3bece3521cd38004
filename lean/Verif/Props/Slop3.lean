import Verif.Proofs.Slop3
import Verif.Props.Sas3
import Verif.Proofs.Witness3
import Mathlib.Analysis.Real.Pi.Bounds
import Mathlib.Analysis.SpecialFunctions.Trigonometric.Bounds

/-!
C56: with any slop, a three-point correlation comes to an end, counts no triangle twice, and puts every triangle it counts in a bin near
its own.
-/

namespace TreeCorr
open Classical
variable {P : Type}

section
variable [PseudoMetricSpace P]

theorem near_of_most {O : Ord3} {N : ℤ → Obj P × Obj P × Obj P → Prop} {all : Multiset (Obj P × Obj P × Obj P)} {es : List (Emit3 P)}
    (h : Most3 O (fun e => ∀ o1 ∈ e.c1.objs, ∀ o2 ∈ e.c2.objs, ∀ o3 ∈ e.c3.objs, N e.index (o1, o2, o3)) all es) :
    (triplesOf es).bind O.orders ≤ all ∧ ∀ k, ∀ t ∈ triplesAt es k, N k t := by
  refine ⟨h.1, ?_⟩
  intro k t ht
  unfold triplesAt triplesOf at ht
  have key : ∀ fs : List (Emit3 P), (∀ e ∈ fs, e ∈ es ∧ e.index = k) → t ∈ (fs.map Emit3.triples).sum → N k t := by
    intro fs
    induction fs with
    | nil => intro _ h; simp at h
    | cons e fs ih =>
      intro hm hs
      rw [List.map_cons, List.sum_cons, Multiset.mem_add] at hs
      rcases hs with hs | hs
      · obtain ⟨he, rfl⟩ := hm e (by simp)
        simp only [Emit3.triples, crossTriples, Multiset.mem_product, Multiset.mem_coe] at hs
        exact h.2 e he t.1 hs.1 t.2.1 hs.2.1 t.2.2 hs.2.2
      · exact ih (fun e he => hm e (by simp [he])) hs
  refine key _ (fun e he => ?_) ht
  simpa using he

theorem bind_self (m : Multiset (Obj P × Obj P × Obj P)) : m.bind Ord3.fixed.orders = m :=
  (Multiset.bind_singleton m id).trans (Multiset.map_id m)

/-! ### LogRUV -/

/-- **C56, one catalogue, `LogRUV`, partly.** For every `bin_slop` (tolerances `b`, `bu`, `bv`) and every limit of `u` and `v` the run
ends, no three rows are counted twice in whatever order, and each counted triangle is near its bin.  Missing: that no triangle well
inside a bin is lost. -/
theorem auto_ruv_slop_partial (A : StdAlg P) (g : Geom P) (hg : g.Dominates) (fp : FieldParams) (hf : 0 ≤ fp.minsize)
    {p : Prm3} (hp : RuvParams p) (hb : 0 ≤ p.b) (hbu : 0 ≤ p.bu) (hbv : 0 ≤ p.bv)
    {M : Metric3 P} (hM : M.Of) (l : List (Obj P)) (hw : ∀ o ∈ l, o.Valid) :
    ∃ es, processAuto3 (binRUV p M) M p.minsep (buildField A g fp l).cells = some es ∧
      (triplesOf es).bind orders6 ≤ orderedTriples l ∧ ∀ k, ∀ t ∈ triplesAt es k, NearRuv p fp.minsize k t := by
  obtain ⟨es, h, he⟩ := processAuto3_most (ruv_safe3 hp hb hbu hbv hM hf) rfl (hered_valid _) (Oe := .any) (by simp [Emits, binRUV])
    hp.minsep _ (buildField_valid A g hg fp hf l hw)
  rw [orderedTriples_perm (buildField_objs A g fp l)] at he
  exact ⟨es, h, near_of_most he⟩

/-- **C56, two catalogues, `LogRUV`, `ordered=True`, partly.** -/
theorem cross12_ruv_slop_partial (A1 A2 : StdAlg P) (g : Geom P) (hg : g.Dominates) (fp1 fp2 : FieldParams) (hf : 0 ≤ fp1.minsize)
    (hff : fp2.minsize = fp1.minsize) {p : Prm3} (hp : RuvParams p) (hb : 0 ≤ p.b) (hbu : 0 ≤ p.bu) (hbv : 0 ≤ p.bv)
    {M : Metric3 P} (hM : M.Of) (l1 l2 : List (Obj P)) (hw1 : ∀ o ∈ l1, o.Valid) (hw2 : ∀ o ∈ l2, o.Valid) :
    ∃ es, processCross12 (binRUV p M) M .first (buildField A1 g fp1 l1).cells (buildField A2 g fp2 l2).cells = some es ∧
      (triplesOf es).bind orders2 ≤ cross12Triples l1 l2 ∧ ∀ k, ∀ t ∈ triplesAt es k, NearRuv p fp1.minsize k t := by
  have h2 := buildField_valid A2 g hg fp2 (by rw [hff]; exact hf) l2 hw2
  rw [hff] at h2
  obtain ⟨es, h, he⟩ := processCross12_most (ruv_safe3 hp hb hbu hbv hM hf) rfl (hered_valid _) (Oe := .first) .first
    (by simp [Emits, binRUV]) _ _ (buildField_valid A1 g hg fp1 hf l1 hw1) h2
  rw [from12_perm (by simp) (buildField_objs A1 g fp1 l1) (buildField_objs A2 g fp2 l2), from12_first_eq] at he
  exact ⟨es, h, near_of_most he⟩

/-- **C56, two catalogues, `LogRUV`, `ordered=False`, partly.** -/
theorem cross12_unordered_ruv_slop_partial (A1 A2 : StdAlg P) (g : Geom P) (hg : g.Dominates) (fp1 fp2 : FieldParams)
    (hf : 0 ≤ fp1.minsize) (hff : fp2.minsize = fp1.minsize) {p : Prm3} (hp : RuvParams p) (hb : 0 ≤ p.b) (hbu : 0 ≤ p.bu)
    (hbv : 0 ≤ p.bv) {M : Metric3 P} (hM : M.Of) (l1 l2 : List (Obj P)) (hw1 : ∀ o ∈ l1, o.Valid) (hw2 : ∀ o ∈ l2, o.Valid) :
    ∃ es, processCross12 (binRUV p M) M .any (buildField A1 g fp1 l1).cells (buildField A2 g fp2 l2).cells = some es ∧
      (triplesOf es).bind orders6 ≤ mixedTriples l1 l2 ∧ ∀ k, ∀ t ∈ triplesAt es k, NearRuv p fp1.minsize k t := by
  have h2 := buildField_valid A2 g hg fp2 (by rw [hff]; exact hf) l2 hw2
  rw [hff] at h2
  obtain ⟨es, h, he⟩ := processCross12_most (ruv_safe3 hp hb hbu hbv hM hf) rfl (hered_valid _) (Oe := .any) .any
    (by simp [Emits, binRUV]) _ _ (buildField_valid A1 g hg fp1 hf l1 hw1) h2
  rw [from12_perm (by simp) (buildField_objs A1 g fp1 l1) (buildField_objs A2 g fp2 l2), from12_any_eq l1 l2] at he
  exact ⟨es, h, near_of_most he⟩

/-- **C56, three catalogues, `LogRUV`, `ordered=True`, partly.** -/
theorem cross123_ruv_slop_partial (A1 A2 A3 : StdAlg P) (g : Geom P) (hg : g.Dominates) (fp1 fp2 fp3 : FieldParams)
    (hf : 0 ≤ fp1.minsize) (hf2 : fp2.minsize = fp1.minsize) (hf3 : fp3.minsize = fp1.minsize) {p : Prm3} (hp : RuvParams p)
    (hb : 0 ≤ p.b) (hbu : 0 ≤ p.bu) (hbv : 0 ≤ p.bv) {M : Metric3 P} (hM : M.Of) (l1 l2 l3 : List (Obj P))
    (hw1 : ∀ o ∈ l1, o.Valid) (hw2 : ∀ o ∈ l2, o.Valid) (hw3 : ∀ o ∈ l3, o.Valid) :
    ∃ es, processCross123 (binRUV p M) M .fixed (buildField A1 g fp1 l1).cells (buildField A2 g fp2 l2).cells
        (buildField A3 g fp3 l3).cells = some es ∧
      triplesOf es ≤ crossTriples l1 l2 l3 ∧ ∀ k, ∀ t ∈ triplesAt es k, NearRuv p fp1.minsize k t := by
  have h2 := buildField_valid A2 g hg fp2 (by rw [hf2]; exact hf) l2 hw2
  have h3 := buildField_valid A3 g hg fp3 (by rw [hf3]; exact hf) l3 hw3
  rw [hf2] at h2
  rw [hf3] at h3
  obtain ⟨es, h, he⟩ := processCross123_most (ruv_safe3 hp hb hbu hbv hM hf) rfl (hered_valid _) (Oe := .fixed) .fixed
    (by simp [Emits, binRUV]) _ _ _ (buildField_valid A1 g hg fp1 hf l1 hw1) h2 h3
  rw [from111_perm_list (buildField_objs A1 g fp1 l1) (buildField_objs A2 g fp2 l2) (buildField_objs A3 g fp3 l3),
    ← crossTriples_eq] at he
  obtain ⟨a, b⟩ := near_of_most he
  exact ⟨es, h, (bind_self _).symm.le.trans a, b⟩

/-- **C56, three catalogues, `LogRUV`, `ordered=False`, partly.** -/
theorem cross123_unordered_ruv_slop_partial (A1 A2 A3 : StdAlg P) (g : Geom P) (hg : g.Dominates) (fp1 fp2 fp3 : FieldParams)
    (hf : 0 ≤ fp1.minsize) (hf2 : fp2.minsize = fp1.minsize) (hf3 : fp3.minsize = fp1.minsize) {p : Prm3} (hp : RuvParams p)
    (hb : 0 ≤ p.b) (hbu : 0 ≤ p.bu) (hbv : 0 ≤ p.bv) {M : Metric3 P} (hM : M.Of) (l1 l2 l3 : List (Obj P))
    (hw1 : ∀ o ∈ l1, o.Valid) (hw2 : ∀ o ∈ l2, o.Valid) (hw3 : ∀ o ∈ l3, o.Valid) :
    ∃ es, processCross123 (binRUV p M) M .any (buildField A1 g fp1 l1).cells (buildField A2 g fp2 l2).cells
        (buildField A3 g fp3 l3).cells = some es ∧
      (triplesOf es).bind orders6 ≤ mixed3Triples l1 l2 l3 ∧ ∀ k, ∀ t ∈ triplesAt es k, NearRuv p fp1.minsize k t := by
  have h2 := buildField_valid A2 g hg fp2 (by rw [hf2]; exact hf) l2 hw2
  have h3 := buildField_valid A3 g hg fp3 (by rw [hf3]; exact hf) l3 hw3
  rw [hf2] at h2
  rw [hf3] at h3
  obtain ⟨es, h, he⟩ := processCross123_most (ruv_safe3 hp hb hbu hbv hM hf) rfl (hered_valid _) (Oe := .any) .any
    (by simp [Emits, binRUV]) _ _ _ (buildField_valid A1 g hg fp1 hf l1 hw1) h2 h3
  rw [from111_perm_list (buildField_objs A1 g fp1 l1) (buildField_objs A2 g fp2 l2) (buildField_objs A3 g fp3 l3),
    from111_any_eq l1 l2 l3] at he
  exact ⟨es, h, near_of_most he⟩

/-! ### LogSAS -/

/-- **C56, one catalogue, `LogSAS`, partly.** Each triangle is counted at most once at each of its corners, in bins near its own as far as
the two sides go.  Missing: the angle (see `sas_angle_slop_wrong`), and that no triangle well inside a bin is lost. -/
theorem auto_sas_slop_partial (A : StdAlg P) (g : Geom P) (hg : g.Dominates) (fp : FieldParams) (hf : 0 ≤ fp.minsize)
    {p : Prm3} (hp : SasParams p) (hb : 0 ≤ p.b)
    {M : Metric3 P} (hM : M.Of) (l : List (Obj P)) (hw : ∀ o ∈ l, o.Valid) :
    ∃ es, processAuto3 (binSAS p M) M p.minsep (buildField A g fp l).cells = some es ∧
      (triplesOf es).bind orders2 ≤ orderedTriples l ∧ ∀ k, ∀ t ∈ triplesAt es k, NearSas p fp.minsize k t := by
  obtain ⟨es, h, he⟩ := processAuto3_most (sas_safe3 hp hb hM hf) rfl (hered_valid _) (Oe := .first) (by simp [Emits, binSAS])
    hp.minsep _ (buildField_valid A g hg fp hf l hw)
  rw [orderedTriples_perm (buildField_objs A g fp l)] at he
  exact ⟨es, h, near_of_most he⟩

/-- **C56, two catalogues, `LogSAS`, `ordered=True`, partly.** -/
theorem cross12_sas_slop_partial (A1 A2 : StdAlg P) (g : Geom P) (hg : g.Dominates) (fp1 fp2 : FieldParams) (hf : 0 ≤ fp1.minsize)
    (hff : fp2.minsize = fp1.minsize) {p : Prm3} (hp : SasParams p) (hb : 0 ≤ p.b)
    {M : Metric3 P} (hM : M.Of) (l1 l2 : List (Obj P)) (hw1 : ∀ o ∈ l1, o.Valid) (hw2 : ∀ o ∈ l2, o.Valid) :
    ∃ es, processCross12 (binSAS p M) M .first (buildField A1 g fp1 l1).cells (buildField A2 g fp2 l2).cells = some es ∧
      (triplesOf es).bind orders2 ≤ cross12Triples l1 l2 ∧ ∀ k, ∀ t ∈ triplesAt es k, NearSas p fp1.minsize k t := by
  have h2 := buildField_valid A2 g hg fp2 (by rw [hff]; exact hf) l2 hw2
  rw [hff] at h2
  obtain ⟨es, h, he⟩ := processCross12_most (sas_safe3 hp hb hM hf) rfl (hered_valid _) (Oe := .first) .first
    (by simp [Emits, binSAS]) _ _ (buildField_valid A1 g hg fp1 hf l1 hw1) h2
  rw [from12_perm (by simp) (buildField_objs A1 g fp1 l1) (buildField_objs A2 g fp2 l2), from12_first_eq] at he
  exact ⟨es, h, near_of_most he⟩

/-- **C56, two catalogues, `LogSAS`, `ordered=False`, partly.** -/
theorem cross12_unordered_sas_slop_partial (A1 A2 : StdAlg P) (g : Geom P) (hg : g.Dominates) (fp1 fp2 : FieldParams)
    (hf : 0 ≤ fp1.minsize) (hff : fp2.minsize = fp1.minsize) {p : Prm3} (hp : SasParams p) (hb : 0 ≤ p.b)
    {M : Metric3 P} (hM : M.Of) (l1 l2 : List (Obj P)) (hw1 : ∀ o ∈ l1, o.Valid) (hw2 : ∀ o ∈ l2, o.Valid) :
    ∃ es, processCross12 (binSAS p M) M .any (buildField A1 g fp1 l1).cells (buildField A2 g fp2 l2).cells = some es ∧
      (triplesOf es).bind orders2 ≤ mixedTriples l1 l2 ∧ ∀ k, ∀ t ∈ triplesAt es k, NearSas p fp1.minsize k t := by
  have h2 := buildField_valid A2 g hg fp2 (by rw [hff]; exact hf) l2 hw2
  rw [hff] at h2
  obtain ⟨es, h, he⟩ := processCross12_most (sas_safe3 hp hb hM hf) rfl (hered_valid _) (Oe := .first) .any
    (by simp [Emits, binSAS]) _ _ (buildField_valid A1 g hg fp1 hf l1 hw1) h2
  rw [from12_perm (by simp) (buildField_objs A1 g fp1 l1) (buildField_objs A2 g fp2 l2), from12_any_eq l1 l2] at he
  exact ⟨es, h, near_of_most he⟩

/-- **C56, three catalogues, `LogSAS`, `ordered=True`, partly.** -/
theorem cross123_sas_slop_partial (A1 A2 A3 : StdAlg P) (g : Geom P) (hg : g.Dominates) (fp1 fp2 fp3 : FieldParams)
    (hf : 0 ≤ fp1.minsize) (hf2 : fp2.minsize = fp1.minsize) (hf3 : fp3.minsize = fp1.minsize) {p : Prm3} (hp : SasParams p)
    (hb : 0 ≤ p.b) {M : Metric3 P} (hM : M.Of) (l1 l2 l3 : List (Obj P))
    (hw1 : ∀ o ∈ l1, o.Valid) (hw2 : ∀ o ∈ l2, o.Valid) (hw3 : ∀ o ∈ l3, o.Valid) :
    ∃ es, processCross123 (binSAS p M) M .fixed (buildField A1 g fp1 l1).cells (buildField A2 g fp2 l2).cells
        (buildField A3 g fp3 l3).cells = some es ∧
      triplesOf es ≤ crossTriples l1 l2 l3 ∧ ∀ k, ∀ t ∈ triplesAt es k, NearSas p fp1.minsize k t := by
  have h2 := buildField_valid A2 g hg fp2 (by rw [hf2]; exact hf) l2 hw2
  have h3 := buildField_valid A3 g hg fp3 (by rw [hf3]; exact hf) l3 hw3
  rw [hf2] at h2
  rw [hf3] at h3
  obtain ⟨es, h, he⟩ := processCross123_most (sas_safe3 hp hb hM hf) rfl (hered_valid _) (Oe := .fixed) .fixed
    (by simp [Emits, binSAS]) _ _ _ (buildField_valid A1 g hg fp1 hf l1 hw1) h2 h3
  rw [from111_perm_list (buildField_objs A1 g fp1 l1) (buildField_objs A2 g fp2 l2) (buildField_objs A3 g fp3 l3),
    ← crossTriples_eq] at he
  obtain ⟨a, b⟩ := near_of_most he
  exact ⟨es, h, (bind_self _).symm.le.trans a, b⟩

/-- **C56, three catalogues, `LogSAS`, `ordered=False`, partly.** -/
theorem cross123_unordered_sas_slop_partial (A1 A2 A3 : StdAlg P) (g : Geom P) (hg : g.Dominates) (fp1 fp2 fp3 : FieldParams)
    (hf : 0 ≤ fp1.minsize) (hf2 : fp2.minsize = fp1.minsize) (hf3 : fp3.minsize = fp1.minsize) {p : Prm3} (hp : SasParams p)
    (hb : 0 ≤ p.b) {M : Metric3 P} (hM : M.Of) (l1 l2 l3 : List (Obj P))
    (hw1 : ∀ o ∈ l1, o.Valid) (hw2 : ∀ o ∈ l2, o.Valid) (hw3 : ∀ o ∈ l3, o.Valid) :
    ∃ es, processCross123 (binSAS p M) M .any (buildField A1 g fp1 l1).cells (buildField A2 g fp2 l2).cells
        (buildField A3 g fp3 l3).cells = some es ∧
      (triplesOf es).bind orders2 ≤ mixed3Triples l1 l2 l3 ∧ ∀ k, ∀ t ∈ triplesAt es k, NearSas p fp1.minsize k t := by
  have h2 := buildField_valid A2 g hg fp2 (by rw [hf2]; exact hf) l2 hw2
  have h3 := buildField_valid A3 g hg fp3 (by rw [hf3]; exact hf) l3 hw3
  rw [hf2] at h2
  rw [hf3] at h3
  obtain ⟨es, h, he⟩ := processCross123_most (sas_safe3 hp hb hM hf) rfl (hered_valid _) (Oe := .first) .any
    (by simp [Emits, binSAS]) _ _ _ (buildField_valid A1 g hg fp1 hf l1 hw1) h2 h3
  rw [from111_perm_list (buildField_objs A1 g fp1 l1) (buildField_objs A2 g fp2 l2) (buildField_objs A3 g fp3 l3),
    from111_any_eq l1 l2 l3] at he
  exact ⟨es, h, near_of_most he⟩

/-- What being near the bin means for rows that are not merged (`δ = 0`) and `b ≤ 1/2`: `r = d2` is right to a factor `1 + b` (that is, `b` in
`log r`) and `u` to `2·(1+u)·bu`. -/
theorem nearRuv_zero {p : Prm3} (hp : RuvParams p) {k : ℤ} {t : Obj P × Obj P × Obj P} (hb : p.b ≤ 1 / 2) (hbu : 0 ≤ p.bu)
    (h : NearRuv p 0 k t) : ∃ (kr ku kv : ℤ) (ccw : Prop) (r u : ℝ), k = ruvPlace p kr ku kv ccw ∧
      InLogBin p.minsep p.binsize p.nbins kr r ∧ InLinBin p.minu p.ubinsize p.nubins ku u ∧
      |side2 t - r| ≤ p.b * r ∧ |triU t - u| ≤ 2 * (1 + u) * p.bu := by
  obtain ⟨kr, ku, kv, c, d1, d2, d3, u, v, hk, ⟨h1, h2, h3⟩, ⟨e1, e2⟩, a1, a2, a3⟩ := h
  have hm := hp.minsep
  have hd : 0 < d2 := by
    refine lt_of_lt_of_le ?_ h1.2.2.1
    unfold logEdge
    positivity
  have hu : 0 ≤ u := le_trans hp.minu (h2.ge hp.ubinsize)
  refine ⟨kr, ku, kv, c, d2, u, hk, h1, h2, by linarith, ?_⟩
  rw [mul_zero, add_zero] at a1 a2
  have ha := (abs_le.1 a1).1
  have hs : d2 / 2 ≤ side2 t := by nlinarith
  have hs0 : 0 < side2 t := by linarith
  have e : triU t - u = (side3 t - u * side2 t) / side2 t := by
    unfold triU
    field_simp
  rw [e, abs_div, abs_of_pos hs0, div_le_iff₀ hs0]
  have : 0 ≤ (1 + u) * p.bu := by positivity
  nlinarith

end

noncomputable section

/-- As `exRuv`, with slop. -/
def exRuvSlop : Prm3 := { exRuv with b := 1 / 10, bu := 1 / 20, bv := 1 / 10 }

theorem exRuvSlop_ok : RuvParams exRuvSlop := by
  constructor <;> norm_num [exRuvSlop, exRuv]

/-- The theorems apply to rows merged below a separation of 1/10. -/
example : ∃ es, processAuto3 (binRUV exRuvSlop flatMetric3) flatMetric3 exRuvSlop.minsep
    (buildField (sortAlg _ 0) (euclidGeom 2) { exFp with minsize := 1 / 10 } [ob 0 0 0, ob 0 3 1, ob 4 0 2]).cells = some es ∧
    (triplesOf es).bind orders6 ≤ orderedTriples [ob 0 0 0, ob 0 3 1, ob 4 0 2] ∧
    ∀ k, ∀ t ∈ triplesAt es k, NearRuv exRuvSlop (1 / 10) k t :=
  auto_ruv_slop_partial (sortAlg _ 0) (euclidGeom 2) (euclidGeom_dominates 2) { exFp with minsize := 1 / 10 } (by norm_num)
    exRuvSlop_ok (by norm_num [exRuvSlop]) (by norm_num [exRuvSlop]) (by norm_num [exRuvSlop]) flatMetric3_of _ (by simp [ob_valid])

/-- A triangle exactly in a bin is near it. -/
theorem nearRuv_of_in [PseudoMetricSpace P] {p : Prm3} {δ : ℝ} (hδ : 0 ≤ δ) (hb : 0 ≤ p.b) (hbu : 0 ≤ p.bu) (hbv : 0 ≤ p.bv)
    (hu : 0 ≤ p.minu ∧ 0 < p.ubinsize) (hv : 0 ≤ p.minv ∧ 0 < p.vbinsize) {c : P → P → P → Prop} {k : ℤ} {t : Obj P × Obj P × Obj P}
    (h : inRuv p c k t) : NearRuv p δ k t := by
  obtain ⟨kr, ku, kv, ⟨h1, h2, h3, a1, a2, a3⟩, hk⟩ := h
  have hd2 : 0 < side2 t := by linarith
  refine ⟨kr, ku, kv, _, side1 t, side2 t, side3 t, triU t, triV t, hk, ⟨a1, a2, a3⟩, ⟨?_, ?_⟩, ?_, ?_, ?_⟩
  · unfold triU; field_simp
  · unfold triV; field_simp
  · rw [sub_self, abs_zero]; positivity
  · have : side3 t - triU t * side2 t = 0 := by unfold triU; field_simp; ring
    have hu' : 0 ≤ triU t := le_trans hu.1 (a2.ge hu.2)
    rw [this, abs_zero]; positivity
  · have : side1 t - side2 t - triV t * side3 t = 0 := by unfold triV; field_simp; ring
    have hv' : 0 ≤ triV t := le_trans hv.1 (a3.ge hv.2)
    rw [this, abs_zero]; positivity

example : NearRuv exRuvSlop (1 / 10) 29 (ob 0 0 0, ob 0 3 1, ob 4 0 2) :=
  nearRuv_of_in (c := flatMetric3.ccw) (by norm_num) (by norm_num [exRuvSlop]) (by norm_num [exRuvSlop]) (by norm_num [exRuvSlop])
    (by norm_num [exRuvSlop, exRuv]) (by norm_num [exRuvSlop, exRuv]) ex345_in

/-- `min_sep = 10`, one bin of size 0.1 in each side, 60 bins of the angle, `bin_slop = 1`: the tolerances are the bin sizes. -/
def sasSlop : Prm3 :=
  { minsep := 10, maxsep := 10 * Real.exp (1 / 10), nbins := 1, binsize := 1 / 10, b := 1 / 10, a := 1 / 10, minu := 0, maxu := Real.pi,
    nubins := 60, ubinsize := Real.pi / 60, bu := Real.pi / 60, minv := -1, maxv := 1, nvbins := 0, vbinsize := 0, bv := 0 }

theorem sasSlop_ok : SasParams sasSlop := by
  have := Real.pi_pos
  constructor <;> norm_num [sasSlop] <;> linarith

/-- **C56, negation for the angle.** With `bin_slop = 1` a triangle may, by the documentation, be put one bin away from its own.  The cell of
the rows (0,1), (0,-1) is not split although it is seen from (-9.975,1) and (9.975,1), nearly opposite, and the triangle of (0,-1) with
these two is put in bin 56 of the angle, more than three bins from its own. -/
theorem sas_angle_slop_wrong : ∃ (p : Prm3) (l1 l2 l3 : List (Obj (EuclideanSpace ℝ (Fin 2)))) (t : Obj _ × Obj _ × Obj _)
    (es : List (Emit3 _)), SasParams p ∧ p.minu = 0 ∧ p.maxu = Real.pi ∧ p.b = p.binsize ∧ p.bu = p.ubinsize ∧
    (∀ o ∈ l1 ++ l2 ++ l3, o.Valid ∧ o.w = 1) ∧
    processCross123 (binSAS p flatMetric3) flatMetric3 .fixed (buildField (sortAlg _ 0) (euclidGeom 2) exFp l1).cells
      (buildField (sortAlg _ 0) (euclidGeom 2) exFp l2).cells (buildField (sortAlg _ 0) (euclidGeom 2) exFp l3).cells = some es ∧
    t ∈ triplesAt es (sasPlace p 0 0 56) ∧ triPhi t < p.minu + (56 - 3) * p.ubinsize := by
  have hpi := Real.pi_pos
  have hp3 := Real.pi_gt_d2
  have hp4 := Real.pi_lt_d2
  have hs : Real.sqrt (((0 - 0) / 2) ^ 2 + ((-1 - 1) / 2) ^ 2) = 1 := by
    rw [show ((0 - 0) / 2 : ℝ) ^ 2 + ((-1 - 1) / 2) ^ 2 = 1 ^ 2 by norm_num, Real.sqrt_sq (by norm_num)]
  obtain ⟨l, r, hperm, -, -, -, -, h1⟩ := field_two (sortAlg _ 0) exFp 0 0 1 (-1) 0 1 (by norm_num [exFp])
    (by norm_num [exFp]) (by norm_num [exFp])
  have z : pt ((0 + 0) / 2) ((1 + -1) / 2) = pt 0 0 := by norm_num
  rw [z, hs] at h1
  have d1 : ‖pt (-399 / 40) 1 - pt (399 / 40) 1‖ ^ 2 = (399 / 20) ^ 2 := by
    rw [← dist_eq_norm, dist_pt, Real.sq_sqrt (by positivity)]; norm_num
  have d2 : ‖pt 0 0 - pt (399 / 40) 1‖ ^ 2 = (401 / 40) ^ 2 := by
    rw [← dist_eq_norm, dist_pt, Real.sq_sqrt (by positivity)]; norm_num
  have d3 : ‖pt 0 0 - pt (-399 / 40) 1‖ ^ 2 = (401 / 40) ^ 2 := by
    rw [← dist_eq_norm, dist_pt, Real.sq_sqrt (by positivity)]; norm_num
  have e1 : Real.sqrt ((399 / 20) ^ 2) = 399 / 20 := Real.sqrt_sq (by norm_num)
  have e2 : Real.sqrt ((401 / 40) ^ 2) = 401 / 40 := Real.sqrt_sq (by norm_num)
  have hexp : (1.1 : ℝ) < Real.exp (1 / 10) := by
    have := Real.add_one_lt_exp (show (1 / 10 : ℝ) ≠ 0 by norm_num)
    linarith
  have hcos : cosPhi ((399 / 20) ^ 2) ((401 / 40) ^ 2) ((401 / 40) ^ 2) (401 / 40) (401 / 40) = -157601 / 160801 := by norm_num [cosPhi]
  have hsn : Real.sqrt (1 - (-157601 / 160801) ^ 2) = 31920 / 160801 := by
    rw [show (1 - (-157601 / 160801) ^ 2 : ℝ) = (31920 / 160801) ^ 2 by norm_num, Real.sqrt_sq (by norm_num)]
  have hout : sasStop sasSlop .fixed True ((399 / 20) ^ 2) ((401 / 40) ^ 2) ((401 / 40) ^ 2) 1 0 0 =
      ⟨false, 401 / 40, 401 / 40, -157601 / 160801⟩ := by
    have m1 : sasSlop.minsep = 10 := rfl
    have m2 : sasSlop.maxsep = 10 * Real.exp (1 / 10) := rfl
    unfold sasStop
    rw [if_neg, e2]
    · simp only
      rw [if_neg (by norm_num), if_neg (by norm_num), if_neg (by simp), hcos]
      unfold sasMinPhi sasMaxPhi
      rw [if_neg (by simp [sasSlop])]
      simp only
      rw [if_neg (by norm_num), if_neg (by simp [sasSlop])]
    · rw [m1, m2]
      have : (401 / 40 : ℝ) ^ 2 < 10 * Real.exp (1 / 10) * (10 * Real.exp (1 / 10)) := by nlinarith
      rintro (h | h | h | h | h | h | h)
      · norm_num at h
      · norm_num at h
      · exact absurd h.1 (not_le.2 this)
      · exact absurd h.1 (not_le.2 this)
      · norm_num at h
      · norm_num at h
      · norm_num at h
  have hsplit : sasSplit sasSlop ((399 / 20) ^ 2) (401 / 40) (401 / 40) (-157601 / 160801) 1 0 0 = none := by
    have hm : min sasSlop.bu sasSlop.a = Real.pi / 60 := min_eq_left (by show Real.pi / 60 ≤ 1 / 10; linarith)
    unfold sasSplit sasPhiTest
    simp only [hm, hsn]
    rw [if_neg, if_neg (by norm_num)]
    rw [if_neg (by norm_num)]
    norm_num [sasSlop]
    linarith
  have hphi : sasPhi (-157601 / 160801) = Real.arccos (-157601 / 160801) := by
    unfold sasPhi
    rw [if_pos (by norm_num)]
  have hlog : InLogBin sasSlop.minsep sasSlop.binsize sasSlop.nbins 0 (401 / 40) := by
    refine ⟨le_rfl, by norm_num [sasSlop], ?_, ?_⟩
    · norm_num [logEdge, sasSlop]
    · norm_num [logEdge, sasSlop]
      norm_num at hexp
      linarith
  have hb := fun x : ℝ => Real.one_sub_sq_div_two_le_cos (x := x)
  have hlin : InLinBin sasSlop.minu sasSlop.ubinsize sasSlop.nubins 56 (sasPhi (-157601 / 160801)) := by
    rw [hphi]
    refine ⟨by norm_num, by norm_num [sasSlop], ?_, ?_⟩
    · refine le_arccos_of ?_ ?_ ?_
      · norm_num [linEdge, sasSlop]; linarith
      · norm_num [linEdge, sasSlop]; linarith
      · have : linEdge sasSlop.minu sasSlop.ubinsize 56 = Real.pi - Real.pi / 15 := by
          norm_num [linEdge, sasSlop]; ring
        rw [this, Real.cos_pi_sub]
        have hc := (abs_le.1 (Real.cos_bound (x := Real.pi / 15) (by rw [abs_of_pos (by positivity)]; linarith))).2
        rw [abs_of_pos (by positivity)] at hc
        have h4 : (Real.pi / 15) ^ 4 ≤ (0.21 : ℝ) ^ 4 := by gcongr; linarith
        have h2 : (0.209 : ℝ) ^ 2 ≤ (Real.pi / 15) ^ 2 := by gcongr; linarith
        norm_num at h4 h2
        linarith
    · refine arccos_lt_of ?_ ?_ (by norm_num) ?_
      · norm_num [linEdge, sasSlop]; linarith
      · norm_num [linEdge, sasSlop]; linarith
      · have : linEdge sasSlop.minu sasSlop.ubinsize (56 + 1) = Real.pi - Real.pi / 20 := by
          norm_num [linEdge, sasSlop]; ring
        rw [this, Real.cos_pi_sub]
        have := hb (Real.pi / 20)
        have h2 : (Real.pi / 20) ^ 2 ≤ (0.16 : ℝ) ^ 2 := by gcongr; linarith
        norm_num at h2
        linarith
  have hidx := sasIndex_some sasSlop_ok (O := .fixed) (c := True) (by norm_num) (by norm_num) (fun _ => trivial) hlog hlog hlin
  refine ⟨sasSlop, [ob 0 1 0, ob 0 (-1) 1], [ob (-399 / 40) 1 2], [ob (399 / 40) 1 3],
    (ob 0 (-1) 1, ob (-399 / 40) 1 2, ob (399 / 40) 1 3),
    [⟨.node ⟨pt 0 0, 2, 2, 0⟩ 1 l r, .leaf ⟨pt (-399 / 40) 1, 1, 1, 0⟩ [ob (-399 / 40) 1 2],
      .leaf ⟨pt (399 / 40) 1, 1, 1, 0⟩ [ob (399 / 40) 1 3], 399 / 20, 401 / 40, 401 / 40, sasPhi (-157601 / 160801), -157601 / 160801,
      Real.log (399 / 20), Real.log (401 / 40), Real.log (401 / 40), sasPlace sasSlop 0 0 56⟩],
    sasSlop_ok, rfl, rfl, rfl, rfl, by simp [ob_valid], ?_, ?_, ?_⟩
  · rw [cells_one, cells_one, h1]
    refine cross123_direct _ _ _ _ _ ?_ (by norm_num [Cell.w, Cell.data, ob])
    have hccw : flatMetric3.ccw (pt 0 0) (pt (399 / 40) 1) (pt (-399 / 40) 1) = True := by
      norm_num [flatMetric3, pt]
    simp only [binSAS, sasAct, Cell.pos, Cell.data, Cell.size, ob_pos, hccw]
    simp only [flatMetric3, d1, d2, d3, hout, hsplit, hidx, e1]
    simp [ob]
  · have hm : ob 0 (-1) 1 ∈ l.objs ++ r.objs := hperm.mem_iff.2 (by simp)
    simp only [triplesAt, List.filter_cons, List.filter_nil, decide_true, if_true, triplesOf, List.map_cons, List.map_nil, List.sum_cons,
      List.sum_nil, add_zero, Emit3.triples, crossTriples, Multiset.mem_product, Multiset.mem_coe, Cell.objs]
    exact ⟨hm, by simp, by simp⟩
  · have f1 : dist (pt (-399 / 40) 1) (pt (399 / 40) 1) ^ 2 = (399 / 20) ^ 2 := by
      rw [dist_pt, Real.sq_sqrt (by positivity)]; norm_num
    have f2 : dist (pt 0 (-1)) (pt (399 / 40) 1) ^ 2 = 165601 / 1600 := by
      rw [dist_pt, Real.sq_sqrt (by positivity)]; norm_num
    have f3 : dist (pt 0 (-1)) (pt (-399 / 40) 1) = dist (pt 0 (-1)) (pt (399 / 40) 1) := by
      rw [dist_pt, dist_pt]; norm_num
    have hc : triCos (ob 0 (-1) 1, ob (-399 / 40) 1 2, ob (399 / 40) 1 3) = -152801 / 165601 := by
      simp only [triCos, side1, side2, side3, ob_pos]
      rw [f3, f1, mul_assoc, ← sq, f2]
      norm_num
    have hv : sasSlop.minu + (56 - 3) * sasSlop.ubinsize = Real.pi - 7 * Real.pi / 60 := by
      simp only [sasSlop]; ring
    unfold triPhi
    rw [hc, hv]
    refine arccos_lt_of (by linarith) (by linarith) (by norm_num) ?_
    rw [Real.cos_pi_sub]
    have := hb (7 * Real.pi / 60)
    have h2 : (7 * Real.pi / 60) ^ 2 ≤ (0.37 : ℝ) ^ 2 := by gcongr; linarith
    norm_num at h2
    linarith

end

end TreeCorr
