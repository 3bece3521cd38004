import Verif.Proofs.Finalize3
import Verif.Props.ArcPhi
import Verif.Props.Corr3
import Verif.Props.Finalize
import Verif.Props.Patch3Cases
import Verif.Props.Sas3

/-!
C69: what `finalize` of the three-point classes makes of the accumulated sums.
-/

namespace TreeCorr
open Classical
variable {P : Type}

/-- The weighted mean of a quantity over triples. -/
noncomputable def mean3 (f : Obj P × Obj P × Obj P → ℝ) (m : Multiset (Obj P × Obj P × Obj P)) : ℝ := brute3 f m / brute3 (fun _ => 1) m

section
variable [PseudoMetricSpace P]

/-! ### Bins with weight: weighted means -/

/-- The parts common to both kinds of bins, for distances that are no chords: the sums `m` became means, in the user's units. -/
structure Means3 (F : FinParams3) (R : Acc3) (k : ℤ) (m : Multiset (Obj P × Obj P × Obj P)) : Prop where
  weight : R.weight k = brute3 (fun _ => 1) m
  ntri : (∀ t ∈ m, 0 < t.1.w ∧ 0 < t.2.1.w ∧ 0 < t.2.2.w) → R.ntri k = brute3N m
  zeta : R.zeta k = brute3K m / brute3 (fun _ => 1) m
  meand1 : R.meand1 k = mean3 side1 m / F.sepUnits
  meand2 : R.meand2 k = mean3 side2 m / F.sepUnits
  meand3 : R.meand3 k = mean3 side3 m / F.sepUnits
  meanlogd1 : R.meanlogd1 k = mean3 (fun t => Real.log (side1 t)) m - Real.log F.sepUnits
  meanlogd2 : R.meanlogd2 k = mean3 (fun t => Real.log (side2 t)) m - Real.log F.sepUnits
  meanlogd3 : R.meanlogd3 k = mean3 (fun t => Real.log (side3 t)) m - Real.log F.sepUnits

/-- **C69, `LogRUV`.** In a bin with weight `finalize` turns the sums into the weighted means over the triangles of the bin. -/
theorem finalize_ruv_means {F : FinParams3} (hc : F.chord = false) (N : NomRuv) {A : Acc3} {k : ℤ}
    {m : Multiset (Obj P × Obj P × Obj P)} {fu fv : Obj P × Obj P × Obj P → ℝ} (h : A.Holds k m fu fv)
    (hW : brute3 (fun _ => 1) m ≠ 0) :
    Means3 F (finalizeRuv F N A) k m ∧ (finalizeRuv F N A).meanu k = mean3 fu m ∧ (finalizeRuv F N A).meanv k = mean3 fv m := by
  refine ⟨⟨h.weight, h.ntri, ?_, ?_, ?_, ?_, ?_, ?_, ?_⟩, ?_, ?_⟩ <;>
    simp only [finalizeRuv, ne_eq, hW, not_false_eq_true, if_true, FinParams3.unitD, FinParams3.unitLogD, hc, Bool.false_eq_true,
      if_false, mean3, h.weight, h.zeta, h.meand1, h.meand2, h.meand3, h.meanlogd1, h.meanlogd2, h.meanlogd3, h.meanu, h.meanv]

/-- **C69, `LogSAS`.** The same; the angle is reported in its own unit. -/
theorem finalize_sas_means {F : FinParams3} (hc : F.chord = false) (N : NomSas) {A : Acc3} {k : ℤ}
    {m : Multiset (Obj P × Obj P × Obj P)} {fu fv : Obj P × Obj P × Obj P → ℝ} (h : A.Holds k m fu fv)
    (hW : brute3 (fun _ => 1) m ≠ 0) :
    Means3 F (finalizeSas F N A) k m ∧ (finalizeSas F N A).meanu k = mean3 fu m / F.phiUnits := by
  refine ⟨⟨h.weight, h.ntri, ?_, ?_, ?_, ?_, ?_, ?_, ?_⟩, ?_⟩ <;>
    simp only [finalizeSas, ne_eq, hW, not_false_eq_true, if_true, FinParams3.unitD, FinParams3.unitLogD, FinParams3.unitPhi, hc,
      Bool.false_eq_true, if_false, mean3, h.weight, h.zeta, h.meand1, h.meand2, h.meand3, h.meanlogd1, h.meanlogd2, h.meanlogd3,
      h.meanu]

/-- **C69, `LogRUV`, one catalogue, partly.** From the rows to the report, without slop: in every bin whose triangles have weight,
`meand1`, … are the weighted means over the triangles of the catalogue in the bin.  Missing: what C53 misses. -/
theorem auto_ruv_report_partial (A : StdAlg P) (g : Geom P) (hg : g.Dominates) (fp : FieldParams) (hf : fp.minsize = 0)
    {p : Prm3} (hp : RuvParams p) (hv0 : p.minv = 0) (hv1 : p.maxv = 1 ∨ Ptolemaic P) (hb : p.b = 0) (hbu : p.bu = 0)
    {M : Metric3 P} (hM : M.Of) {F : FinParams3} (hc : F.chord = false) (N : NomRuv) (l : List (Obj P)) (hw : ∀ o ∈ l, o.Valid)
    (htie : ∀ t ∈ orderedTriples l, side1 t = side2 t → ∀ k, ¬ inRuv p M.ccw k t) :
    ∃ es, processAuto3 (binRUV p M) M p.minsep (buildField A g fp l).cells = some es ∧
      ∀ k, brute3 (fun _ => 1) ((orderedTriples l).filter (inRuv p M.ccw k)) ≠ 0 →
        Means3 F (finalizeRuv F N (accumulate3 Acc3.zero es)) k ((orderedTriples l).filter (inRuv p M.ccw k)) ∧
        (finalizeRuv F N (accumulate3 Acc3.zero es)).meanu k = mean3 triU ((orderedTriples l).filter (inRuv p M.ccw k)) ∧
        (finalizeRuv F N (accumulate3 Acc3.zero es)).meanv k = mean3 (triVs M.ccw) ((orderedTriples l).filter (inRuv p M.ccw k)) := by
  obtain ⟨es, h, he⟩ := auto_ruv_exact_partial A g hg fp hf hp hv0 hv1 hb hbu hM l hw htie
  exact ⟨es, h, fun k hk => finalize_ruv_means hc N (he k) hk⟩

/-- **C69, `LogSAS`, one catalogue, partly.** Missing: what C55 misses. -/
theorem auto_sas_report_partial (A : StdAlg P) (g : Geom P) (hg : g.Dominates) (fp : FieldParams) (hf : fp.minsize = 0)
    {p : Prm3} (hp : SasParams p) (hu0 : p.minu = 0) (hu1 : p.maxu = Real.pi) (hb : p.b = 0)
    {M : Metric3 P} (hM : M.Of) (hO : M.Oriented) {F : FinParams3} (hc : F.chord = false) (N : NomSas) (l : List (Obj P))
    (hw : ∀ o ∈ l, o.Valid) (hline : ∀ t ∈ orderedTriples l, (∃ k2 k3 kphi, InSas p k2 k3 kphi t) → ¬ OnLine M.ccw t) :
    ∃ es, processAuto3 (binSAS p M) M p.minsep (buildField A g fp l).cells = some es ∧
      ∀ k, brute3 (fun _ => 1) ((orderedTriples l).filter (inSas p M.ccw k)) ≠ 0 →
        Means3 F (finalizeSas F N (accumulate3 Acc3.zero es)) k ((orderedTriples l).filter (inSas p M.ccw k)) ∧
        (finalizeSas F N (accumulate3 Acc3.zero es)).meanu k =
          mean3 triPhi ((orderedTriples l).filter (inSas p M.ccw k)) / F.phiUnits := by
  obtain ⟨es, h, he⟩ := auto_sas_exact_partial A g hg fp hf hp hu0 hu1 hb hM hO l hw hline
  exact ⟨es, h, fun k hk => finalize_sas_means hc N (he k) hk⟩

/-! ### Bins with weight: the means lie in the bin, for any slop -/

/-- Every reported bin with weight contains its own reported means. -/
def RuvInBin (p : Prm3) (F : FinParams3) (R : Acc3) : Prop :=
  ∀ k, R.weight k ≠ 0 → ∃ kr ku kv c, k = ruvPlace p kr ku kv c ∧
    InLogBin p.minsep p.binsize p.nbins kr (F.sepUnits * R.meand2 k) ∧
    InLogBin p.minsep p.binsize p.nbins kr (F.sepUnits * Real.exp (R.meanlogd2 k)) ∧
    InLinBin p.minu p.ubinsize p.nubins ku (R.meanu k) ∧
    InLinBin p.minv p.vbinsize p.nvbins kv (if c then R.meanv k else -R.meanv k)

def SasInBin (p : Prm3) (F : FinParams3) (R : Acc3) : Prop :=
  ∀ k, R.weight k ≠ 0 → ∃ k2 k3 kp, k = sasPlace p k2 k3 kp ∧
    InLogBin p.minsep p.binsize p.nbins k2 (F.sepUnits * R.meand2 k) ∧
    InLogBin p.minsep p.binsize p.nbins k2 (F.sepUnits * Real.exp (R.meanlogd2 k)) ∧
    InLogBin p.minsep p.binsize p.nbins k3 (F.sepUnits * R.meand3 k) ∧
    InLogBin p.minsep p.binsize p.nbins k3 (F.sepUnits * Real.exp (R.meanlogd3 k)) ∧
    InLinBin p.minu p.ubinsize p.nubins kp (F.phiUnits * R.meanu k)

omit [PseudoMetricSpace P] in
theorem unitD_back {F : FinParams3} (hc : F.chord = false) (hu : 0 < F.sepUnits) (x : ℝ) : F.sepUnits * F.unitD x = x := by
  simp only [FinParams3.unitD, hc, Bool.false_eq_true, if_false]
  field_simp

omit [PseudoMetricSpace P] in
theorem unitLogD_back {F : FinParams3} (hc : F.chord = false) (hu : 0 < F.sepUnits) (x : ℝ) :
    F.sepUnits * Real.exp (F.unitLogD x) = Real.exp x := by
  simp only [FinParams3.unitLogD, hc, Bool.false_eq_true, if_false]
  rw [Real.exp_sub, Real.exp_log hu]
  field_simp

omit [PseudoMetricSpace P] in
theorem inLog_of_log {m bs : ℝ} (hm : 0 < m) {n k : ℤ} {x : ℝ} (h0 : 0 ≤ k) (h1 : k < n) (h2 : Real.log (logEdge m bs k) ≤ x)
    (h3 : x < Real.log (logEdge m bs (k + 1))) : InLogBin m bs n k (Real.exp x) := by
  have pos : ∀ j, 0 < logEdge m bs j := fun j => by unfold logEdge; positivity
  exact ⟨h0, h1, (Real.log_le_iff_le_exp (pos _)).1 h2, (Real.lt_log_iff_exp_lt (pos _)).1 h3⟩

/-- From the calls to the report: `LogRUV`. -/
theorem ruv_in_bin {p : Prm3} (hp : RuvParams p) {es : List (Emit3 P)} (hes : ∀ e ∈ es, OwnRuv p e) {F : FinParams3}
    (hc : F.chord = false) (hu : 0 < F.sepUnits) (N : NomRuv) : RuvInBin p F (finalizeRuv F N (accumulate3 Acc3.zero es)) := by
  intro k hne
  have hne' : (accumulate3 Acc3.zero es).weight k ≠ 0 := hne
  have hw : ∀ e ∈ es, 0 ≤ e.www := fun e he => (hes e he).1
  have g2 : ∀ (A : Acc3) (e : Emit3 P), (finish3 A e).meand2 = addAt A.meand2 e.index (e.www * e.d2) := fun _ _ => rfl
  have gl2 : ∀ (A : Acc3) (e : Emit3 P), (finish3 A e).meanlogd2 = addAt A.meanlogd2 e.index (e.www * e.logd2) := fun _ _ => rfl
  have gu : ∀ (A : Acc3) (e : Emit3 P), (finish3 A e).meanu = addAt A.meanu e.index (e.www * e.u) := fun _ _ => rfl
  have gv : ∀ (A : Acc3) (e : Emit3 P), (finish3 A e).meanv = addAt A.meanv e.index (e.www * e.v) := fun _ _ => rfl
  obtain ⟨e0, he0, hk0⟩ := calls_some hw g2 (by rfl) hne'
  obtain ⟨-, kr, ku, kv, c, hk, ⟨r0, r1, -, -⟩, ⟨u0, u1, -, -⟩, ⟨v0, v1, -, -⟩, -⟩ := hes e0 he0
  rw [hk0] at hk
  have own : ∀ e ∈ es, e.index = k → InLogBin p.minsep p.binsize p.nbins kr e.d2 ∧ InLinBin p.minu p.ubinsize p.nubins ku e.u ∧
      InLinBin p.minv p.vbinsize p.nvbins kv (if c then e.v else -e.v) ∧ e.logd2 = Real.log e.d2 := by
    intro e he hi
    obtain ⟨-, kr', ku', kv', c', hk', a1, a2, a3, a4⟩ := hes e he
    rw [hi, hk] at hk'
    obtain ⟨rfl, rfl, rfl, hcc⟩ := ruvPlace_inj ⟨u0, u1⟩ ⟨a2.1, a2.2.1⟩ ⟨v0, v1⟩ ⟨a3.1, a3.2.1⟩ hk'
    have : c = c' := propext hcc
    subst this
    exact ⟨a1, a2, a3, a4⟩
  have ls := hp.minsep
  have pos : ∀ j, 0 < logEdge p.minsep p.binsize j := fun j => by unfold logEdge; positivity
  refine ⟨kr, ku, kv, c, hk, ?_, ?_, ?_, ?_⟩
  · simp only [finalizeRuv, ne_eq, hne', not_false_eq_true, if_true, unitD_back hc hu]
    exact ⟨r0, r1, calls_mean_ge hw g2 (by rfl) hne' fun e he hi => (own e he hi).1.2.2.1,
      calls_mean_lt hw g2 (by rfl) hne' fun e he hi => (own e he hi).1.2.2.2⟩
  · simp only [finalizeRuv, ne_eq, hne', not_false_eq_true, if_true, unitLogD_back hc hu]
    refine inLog_of_log ls r0 r1 (calls_mean_ge hw gl2 (by rfl) hne' fun e he hi => ?_)
      (calls_mean_lt hw gl2 (by rfl) hne' fun e he hi => ?_)
    · obtain ⟨o1, -, -, o4⟩ := own e he hi
      rw [o4]
      exact Real.log_le_log (pos _) o1.2.2.1
    · obtain ⟨o1, -, -, o4⟩ := own e he hi
      rw [o4]
      exact Real.log_lt_log ((pos _).trans_le o1.2.2.1) o1.2.2.2
  · simp only [finalizeRuv, ne_eq, hne', not_false_eq_true, if_true]
    exact ⟨u0, u1, calls_mean_ge hw gu (by rfl) hne' fun e he hi => (own e he hi).2.1.2.2.1,
      calls_mean_lt hw gu (by rfl) hne' fun e he hi => (own e he hi).2.1.2.2.2⟩
  · simp only [finalizeRuv, ne_eq, hne', not_false_eq_true, if_true]
    refine ⟨v0, v1, ?_⟩
    by_cases hcc : c
    · simp only [hcc, if_true] at own ⊢
      exact ⟨calls_mean_ge hw gv (by rfl) hne' fun e he hi => (own e he hi).2.2.1.2.2.1,
        calls_mean_lt hw gv (by rfl) hne' fun e he hi => (own e he hi).2.2.1.2.2.2⟩
    · simp only [hcc, if_false] at own ⊢
      constructor
      · have := calls_mean_le hw gv (by rfl) hne' (hi := -linEdge p.minv p.vbinsize kv) fun e he hi => by
          have := (own e he hi).2.2.1.2.2.1
          linarith
        linarith
      · have := calls_mean_gt hw gv (by rfl) hne' (lo := -linEdge p.minv p.vbinsize (kv + 1)) fun e he hi => by
          have := (own e he hi).2.2.1.2.2.2
          linarith
        linarith

/-- From the calls to the report: `LogSAS`. -/
theorem sas_in_bin {p : Prm3} (hp : SasParams p) {es : List (Emit3 P)} (hes : ∀ e ∈ es, OwnSas p e) {F : FinParams3}
    (hc : F.chord = false) (hu : 0 < F.sepUnits) (hu' : 0 < F.phiUnits) (N : NomSas) :
    SasInBin p F (finalizeSas F N (accumulate3 Acc3.zero es)) := by
  intro k hne
  have hne' : (accumulate3 Acc3.zero es).weight k ≠ 0 := hne
  have hw : ∀ e ∈ es, 0 ≤ e.www := fun e he => (hes e he).1
  have g2 : ∀ (A : Acc3) (e : Emit3 P), (finish3 A e).meand2 = addAt A.meand2 e.index (e.www * e.d2) := fun _ _ => rfl
  have gl2 : ∀ (A : Acc3) (e : Emit3 P), (finish3 A e).meanlogd2 = addAt A.meanlogd2 e.index (e.www * e.logd2) := fun _ _ => rfl
  have g3 : ∀ (A : Acc3) (e : Emit3 P), (finish3 A e).meand3 = addAt A.meand3 e.index (e.www * e.d3) := fun _ _ => rfl
  have gl3 : ∀ (A : Acc3) (e : Emit3 P), (finish3 A e).meanlogd3 = addAt A.meanlogd3 e.index (e.www * e.logd3) := fun _ _ => rfl
  have gu : ∀ (A : Acc3) (e : Emit3 P), (finish3 A e).meanu = addAt A.meanu e.index (e.www * e.u) := fun _ _ => rfl
  obtain ⟨e0, he0, hk0⟩ := calls_some hw g2 (by rfl) hne'
  obtain ⟨-, k2, k3, kp, hk, ⟨r0, r1, -, -⟩, ⟨s0, s1, -, -⟩, ⟨u0, u1, -, -⟩, -, -⟩ := hes e0 he0
  rw [hk0] at hk
  have own : ∀ e ∈ es, e.index = k → InLogBin p.minsep p.binsize p.nbins k2 e.d2 ∧ InLogBin p.minsep p.binsize p.nbins k3 e.d3 ∧
      InLinBin p.minu p.ubinsize p.nubins kp e.u ∧ e.logd2 = Real.log e.d2 ∧ e.logd3 = Real.log e.d3 := by
    intro e he hi
    obtain ⟨-, k2', k3', kp', hk', a1, a2, a3, a4⟩ := hes e he
    rw [hi, hk] at hk'
    obtain ⟨rfl, rfl, rfl⟩ := sasPlace_inj ⟨s0, s1⟩ ⟨a2.1, a2.2.1⟩ ⟨u0, u1⟩ ⟨a3.1, a3.2.1⟩ hk'
    exact ⟨a1, a2, a3, a4⟩
  have ls := hp.minsep
  have pos : ∀ j, 0 < logEdge p.minsep p.binsize j := fun j => by unfold logEdge; positivity
  refine ⟨k2, k3, kp, hk, ?_, ?_, ?_, ?_, ?_⟩
  · simp only [finalizeSas, ne_eq, hne', not_false_eq_true, if_true, unitD_back hc hu]
    exact ⟨r0, r1, calls_mean_ge hw g2 (by rfl) hne' fun e he hi => (own e he hi).1.2.2.1,
      calls_mean_lt hw g2 (by rfl) hne' fun e he hi => (own e he hi).1.2.2.2⟩
  · simp only [finalizeSas, ne_eq, hne', not_false_eq_true, if_true, unitLogD_back hc hu]
    refine inLog_of_log ls r0 r1 (calls_mean_ge hw gl2 (by rfl) hne' fun e he hi => ?_)
      (calls_mean_lt hw gl2 (by rfl) hne' fun e he hi => ?_)
    · obtain ⟨o1, -, -, o4, -⟩ := own e he hi
      rw [o4]
      exact Real.log_le_log (pos _) o1.2.2.1
    · obtain ⟨o1, -, -, o4, -⟩ := own e he hi
      rw [o4]
      exact Real.log_lt_log ((pos _).trans_le o1.2.2.1) o1.2.2.2
  · simp only [finalizeSas, ne_eq, hne', not_false_eq_true, if_true, unitD_back hc hu]
    exact ⟨s0, s1, calls_mean_ge hw g3 (by rfl) hne' fun e he hi => (own e he hi).2.1.2.2.1,
      calls_mean_lt hw g3 (by rfl) hne' fun e he hi => (own e he hi).2.1.2.2.2⟩
  · simp only [finalizeSas, ne_eq, hne', not_false_eq_true, if_true, unitLogD_back hc hu]
    refine inLog_of_log ls s0 s1 (calls_mean_ge hw gl3 (by rfl) hne' fun e he hi => ?_)
      (calls_mean_lt hw gl3 (by rfl) hne' fun e he hi => ?_)
    · obtain ⟨-, o1, -, -, o4⟩ := own e he hi
      rw [o4]
      exact Real.log_le_log (pos _) o1.2.2.1
    · obtain ⟨-, o1, -, -, o4⟩ := own e he hi
      rw [o4]
      exact Real.log_lt_log ((pos _).trans_le o1.2.2.1) o1.2.2.2
  · have e1 : ∀ x y z, F.phiUnits * F.unitPhi x y z = x := by
      intro x y z
      simp only [FinParams3.unitPhi, hc, Bool.false_eq_true, if_false]
      field_simp
    simp only [finalizeSas, ne_eq, hne', not_false_eq_true, if_true, e1]
    exact ⟨u0, u1, calls_mean_ge hw gu (by rfl) hne' fun e he hi => (own e he hi).2.2.1.2.2.1,
      calls_mean_lt hw gu (by rfl) hne' fun e he hi => (own e he hi).2.2.1.2.2.2⟩

section
variable (A1 A2 A3 : StdAlg P) (g : Geom P) (hg : g.Dominates) (fp1 fp2 fp3 : FieldParams) (hf : 0 ≤ fp1.minsize)
  (hf2 : fp2.minsize = fp1.minsize) (hf3 : fp3.minsize = fp1.minsize) {p : Prm3} {M : Metric3 P} {F : FinParams3}
  (hc : F.chord = false) (hu : 0 < F.sepUnits) (l1 l2 l3 : List (Obj P))
  (hw1 : ∀ o ∈ l1, o.Valid) (hw2 : ∀ o ∈ l2, o.Valid) (hw3 : ∀ o ∈ l3, o.Valid)

/-- **C69, `LogRUV`, one catalogue.** For any `bin_slop`, any limits of `u` and `v` and any trees: in every bin with weight the reported
`meand2`, `exp(meanlogd2)` (converted back from the user's units), `meanu` and `meanv` lie in that bin.  (The chords of spherical
coordinates are excluded: there the report is converted to angles and the bins are not.) -/
theorem auto_ruv_in_bin (hp : RuvParams p) (hM : M.Of) (N : NomRuv) (hg : g.Dominates) (hf : 0 ≤ fp1.minsize) (hc : F.chord = false)
    (hu : 0 < F.sepUnits) (hw1 : ∀ o ∈ l1, o.Valid) :
    ∃ es, processAuto3 (binRUV p M) M p.minsep (buildField A1 g fp1 l1).cells = some es ∧
      RuvInBin p F (finalizeRuv F N (accumulate3 Acc3.zero es)) := by
  obtain ⟨es, h, he⟩ := processAuto3_most (ruv_own3 hp hM) rfl (hered_valid _) (Oe := .any) (by simp [Emits, binRUV])
    hp.minsep _ (buildField_valid A1 g hg fp1 hf l1 hw1)
  exact ⟨es, h, ruv_in_bin hp he.2 hc hu N⟩

/-- **C69, `LogSAS`, one catalogue.** The same for `meand2`, `meand3` and `meanphi`. -/
theorem auto_sas_in_bin (hp : SasParams p) (N : NomSas) (hg : g.Dominates) (hf : 0 ≤ fp1.minsize) (hc : F.chord = false)
    (hu : 0 < F.sepUnits) (hu' : 0 < F.phiUnits) (hw1 : ∀ o ∈ l1, o.Valid) :
    ∃ es, processAuto3 (binSAS p M) M p.minsep (buildField A1 g fp1 l1).cells = some es ∧
      SasInBin p F (finalizeSas F N (accumulate3 Acc3.zero es)) := by
  obtain ⟨es, h, he⟩ := processAuto3_most (sas_own3 hp) rfl (hered_valid _) (Oe := .first) (by simp [Emits, binSAS])
    hp.minsep _ (buildField_valid A1 g hg fp1 hf l1 hw1)
  exact ⟨es, h, sas_in_bin hp he.2 hc hu hu' N⟩

include hg hf hf2 hc hu hw1 hw2

/-- **C69, `LogRUV`, two catalogues**, `ordered=True` and `ordered=False`. -/
theorem cross12_ruv_in_bin (hp : RuvParams p) (hM : M.Of) (N : NomRuv) {O : Ord3} (hO : O = .first ∨ O = .any) :
    ∃ es, processCross12 (binRUV p M) M O (buildField A1 g fp1 l1).cells (buildField A2 g fp2 l2).cells = some es ∧
      RuvInBin p F (finalizeRuv F N (accumulate3 Acc3.zero es)) := by
  have h2 := buildField_valid A2 g hg fp2 (by rw [hf2]; exact hf) l2 hw2
  rw [hf2] at h2
  obtain ⟨es, h, he⟩ := processCross12_most (ruv_own3 hp hM) rfl (hered_valid _) (Oe := O) O (by simp [Emits, binRUV]) _ _
    (buildField_valid A1 g hg fp1 hf l1 hw1) h2
  exact ⟨es, h, ruv_in_bin hp he.2 hc hu N⟩

/-- **C69, `LogSAS`, two catalogues.** -/
theorem cross12_sas_in_bin (hp : SasParams p) (hu' : 0 < F.phiUnits) (N : NomSas) {O : Ord3} (hO : O = .first ∨ O = .any) :
    ∃ es, processCross12 (binSAS p M) M O (buildField A1 g fp1 l1).cells (buildField A2 g fp2 l2).cells = some es ∧
      SasInBin p F (finalizeSas F N (accumulate3 Acc3.zero es)) := by
  have h2 := buildField_valid A2 g hg fp2 (by rw [hf2]; exact hf) l2 hw2
  rw [hf2] at h2
  obtain ⟨es, h, he⟩ := processCross12_most (sas_own3 hp) rfl (hered_valid _) (Oe := .first) O
    (by rcases hO with rfl | rfl <;> simp [Emits, binSAS]) _ _ (buildField_valid A1 g hg fp1 hf l1 hw1) h2
  exact ⟨es, h, sas_in_bin hp he.2 hc hu hu' N⟩

include hf3 hw3

/-- **C69, `LogRUV`, three catalogues**, for every request of orders. -/
theorem cross123_ruv_in_bin (hp : RuvParams p) (hM : M.Of) (N : NomRuv) (O : Ord3) :
    ∃ es, processCross123 (binRUV p M) M O (buildField A1 g fp1 l1).cells (buildField A2 g fp2 l2).cells
        (buildField A3 g fp3 l3).cells = some es ∧ RuvInBin p F (finalizeRuv F N (accumulate3 Acc3.zero es)) := by
  have h2 := buildField_valid A2 g hg fp2 (by rw [hf2]; exact hf) l2 hw2
  have h3 := buildField_valid A3 g hg fp3 (by rw [hf3]; exact hf) l3 hw3
  rw [hf2] at h2
  rw [hf3] at h3
  obtain ⟨es, h, he⟩ := processCross123_most (ruv_own3 hp hM) rfl (hered_valid _) (Oe := O) O (by simp [Emits, binRUV]) _ _ _
    (buildField_valid A1 g hg fp1 hf l1 hw1) h2 h3
  exact ⟨es, h, ruv_in_bin hp he.2 hc hu N⟩

/-- **C69, `LogSAS`, three catalogues.** -/
theorem cross123_sas_in_bin (hp : SasParams p) (hu' : 0 < F.phiUnits) (N : NomSas) (O : Ord3) :
    ∃ es, processCross123 (binSAS p M) M O (buildField A1 g fp1 l1).cells (buildField A2 g fp2 l2).cells
        (buildField A3 g fp3 l3).cells = some es ∧ SasInBin p F (finalizeSas F N (accumulate3 Acc3.zero es)) := by
  have h2 := buildField_valid A2 g hg fp2 (by rw [hf2]; exact hf) l2 hw2
  have h3 := buildField_valid A3 g hg fp3 (by rw [hf3]; exact hf) l3 hw3
  rw [hf2] at h2
  rw [hf3] at h3
  obtain ⟨Oe, hOe⟩ : ∃ Oe, Emits (binSAS p M).sort O Oe := by
    by_cases h : O = .any
    · exact ⟨.first, by simp [Emits, binSAS, h]⟩
    · exact ⟨O, by simp [Emits, binSAS, h]⟩
  obtain ⟨es, h, he⟩ := processCross123_most (sas_own3 hp) rfl (hered_valid _) (Oe := Oe) O hOe _ _ _
    (buildField_valid A1 g hg fp1 hf l1 hw1) h2 h3
  exact ⟨es, h, sas_in_bin hp he.2 hc hu hu' N⟩

end
end

end TreeCorr
