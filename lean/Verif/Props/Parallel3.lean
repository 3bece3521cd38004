import Verif.Proofs.Parallel3
import Verif.Props.Corr3
import Verif.Props.Multipole

/-!
C77: the three-point correlations do not depend on the number of threads nor on which thread does what.
-/

namespace TreeCorr
open Classical
variable {P : Type}

/-! ## The triangle algorithm -/

/-- **C77, one catalogue.** Whatever number of threads, whatever rows each of them gets in whatever order, and whatever the order of the
final additions: the arrays are those of the run in one thread, added to what was there; and a failure is a failure. -/
theorem auto3_schedule_independent (B : Bin3 P) (M : Metric3 P) (minsep : ℝ) (cells : List (Cell P)) (s : Schedule)
    (hs : s.Of cells.length) (A : Acc3) :
    processAuto3Par B M minsep cells s A = (processAuto3 B M minsep cells).map (accumulate3 A) := by
  rw [processAuto3_mapM, Option.map_map]
  exact parLoop_eq finish3_val _ s _ hs A

/-- **C77, two catalogues.** -/
theorem cross12_schedule_independent (B : Bin3 P) (M : Metric3 P) (O : Ord3) (cs1 cs2 : List (Cell P)) (s : Schedule)
    (hs : s.Of cs1.length) (A : Acc3) :
    processCross12Par B M O cs1 cs2 s A = (processCross12 B M O cs1 cs2).map (accumulate3 A) := by
  rw [processCross12, concatM_mapM, Option.map_map, ← range_mapM _ _ (cross12Row3 B M O cs1 cs2) (by
    intro i
    unfold cross12Row3
    cases cs1[i]? <;> rfl)]
  exact parLoop_eq finish3_val _ s _ hs A

/-- **C77, three catalogues.** -/
theorem cross123_schedule_independent (B : Bin3 P) (M : Metric3 P) (O : Ord3) (cs1 cs2 cs3 : List (Cell P)) (s : Schedule)
    (hs : s.Of cs1.length) (A : Acc3) :
    processCross123Par B M O cs1 cs2 cs3 s A = (processCross123 B M O cs1 cs2 cs3).map (accumulate3 A) := by
  rw [processCross123, concatM_mapM, Option.map_map, ← range_mapM _ _ (cross123Row3 B M O cs1 cs2 cs3) (by
    intro i
    unfold cross123Row3
    cases cs1[i]? <;> rfl)]
  exact parLoop_eq finish3_val _ s _ hs A

/-- **C53 with threads, one catalogue, partly.** With any schedule every bin of a cleared object holds the sums over the triangles of the
bin.  Missing: as `auto_ruv_exact_partial`. -/
theorem auto_ruv_exact_threads_partial [PseudoMetricSpace P] (A : StdAlg P) (g : Geom P) (hg : g.Dominates) (fp : FieldParams)
    (hf : fp.minsize = 0) {p : Prm3} (hp : RuvParams p) (hv0 : p.minv = 0) (hv1 : p.maxv = 1 ∨ Ptolemaic P) (hb : p.b = 0)
    (hbu : p.bu = 0) {M : Metric3 P} (hM : M.Of) (l : List (Obj P)) (hw : ∀ o ∈ l, o.Valid)
    (htie : ∀ t ∈ orderedTriples l, side1 t = side2 t → ∀ k, ¬ inRuv p M.ccw k t) (s : Schedule)
    (hs : s.Of (buildField A g fp l).cells.length) :
    ∃ R, processAuto3Par (binRUV p M) M p.minsep (buildField A g fp l).cells s Acc3.zero = some R ∧
      ∀ k, R.Holds k ((orderedTriples l).filter (inRuv p M.ccw k)) triU (triVs M.ccw) := by
  obtain ⟨es, h, hk⟩ := auto_ruv_exact_partial A g hg fp hf hp hv0 hv1 hb hbu hM l hw htie
  exact ⟨_, by rw [auto3_schedule_independent _ _ _ _ _ hs, h]; rfl, hk⟩

/-! ## The multipole algorithm -/

/-- The arrays `R` are the arrays `A` and the additions `out` of a run. -/
def MpAdded (A R : MpArr MpVals) (out : List (ℤ × ℤ × MpVals)) : Prop := ∀ k2 k3,
  (R k2 k3).ntri = (A k2 k3).ntri + mpTotal MpVals.ntri out k2 k3 ∧
  (R k2 k3).meand2 = (A k2 k3).meand2 + mpTotal MpVals.meand2 out k2 k3 ∧
  (R k2 k3).meanlogd2 = (A k2 k3).meanlogd2 + mpTotal MpVals.meanlogd2 out k2 k3 ∧
  (R k2 k3).meand3 = (A k2 k3).meand3 + mpTotal MpVals.meand3 out k2 k3 ∧
  (R k2 k3).meanlogd3 = (A k2 k3).meanlogd3 + mpTotal MpVals.meanlogd3 out k2 k3 ∧
  (∀ n, (R k2 k3).weight n = (A k2 k3).weight n + mpTotal (fun v => v.weight n) out k2 k3) ∧
  ∀ n, (R k2 k3).zeta n = (A k2 k3).zeta n + mpTotal (fun v => v.zeta n) out k2 k3

theorem mpAdded_foldl (A : MpArr MpVals) (out : List (ℤ × ℤ × MpVals)) : MpAdded A (out.foldl (mpPut (· + ·)) A) out := fun k2 k3 =>
  ⟨foldl_mpPut ⟨⟨MpVals.ntri, rfl⟩, fun _ _ => rfl⟩ out A k2 k3,
    foldl_mpPut ⟨⟨MpVals.meand2, rfl⟩, fun _ _ => rfl⟩ out A k2 k3,
    foldl_mpPut ⟨⟨MpVals.meanlogd2, rfl⟩, fun _ _ => rfl⟩ out A k2 k3,
    foldl_mpPut ⟨⟨MpVals.meand3, rfl⟩, fun _ _ => rfl⟩ out A k2 k3,
    foldl_mpPut ⟨⟨MpVals.meanlogd3, rfl⟩, fun _ _ => rfl⟩ out A k2 k3,
    fun n => foldl_mpPut ⟨⟨fun v => v.weight n, rfl⟩, fun _ _ => rfl⟩ out A k2 k3,
    fun n => foldl_mpPut ⟨⟨fun v => v.zeta n, rfl⟩, fun _ _ => rfl⟩ out A k2 k3⟩

/-- The same with the four arrays of the shears. -/
def GAdded (A R : MpArr GVals) (out : List (ℤ × ℤ × GVals)) : Prop :=
  MpAdded (fun k2 k3 => (A k2 k3).base) (fun k2 k3 => (R k2 k3).base) (out.map fun x => (x.1, x.2.1, x.2.2.base)) ∧ ∀ k2 k3 n,
  (R k2 k3).gam0 n = (A k2 k3).gam0 n + mpTotal (fun v => v.gam0 n) out k2 k3 ∧
  (R k2 k3).gam1 n = (A k2 k3).gam1 n + mpTotal (fun v => v.gam1 n) out k2 k3 ∧
  (R k2 k3).gam2 n = (A k2 k3).gam2 n + mpTotal (fun v => v.gam2 n) out k2 k3 ∧
  (R k2 k3).gam3 n = (A k2 k3).gam3 n + mpTotal (fun v => v.gam3 n) out k2 k3

theorem foldl_base (A : MpArr GVals) (out : List (ℤ × ℤ × GVals)) :
    (fun k2 k3 => (out.foldl (mpPut (· + ·)) A k2 k3).base) =
      (out.map fun x => (x.1, x.2.1, x.2.2.base)).foldl (mpPut (· + ·)) fun k2 k3 => (A k2 k3).base := by
  induction out generalizing A with
  | nil => rfl
  | cons x out ih =>
    rw [List.foldl_cons, ih, List.map_cons, List.foldl_cons]
    congr 1
    funext k2 k3
    simp only [mpPut]
    split <;> rfl

theorem gAdded_foldl (A : MpArr GVals) (out : List (ℤ × ℤ × GVals)) : GAdded A (out.foldl (mpPut (· + ·)) A) out := by
  refine ⟨?_, fun k2 k3 n => ⟨foldl_mpPut ⟨⟨fun v => v.gam0 n, rfl⟩, fun _ _ => rfl⟩ out A k2 k3,
    foldl_mpPut ⟨⟨fun v => v.gam1 n, rfl⟩, fun _ _ => rfl⟩ out A k2 k3,
    foldl_mpPut ⟨⟨fun v => v.gam2 n, rfl⟩, fun _ _ => rfl⟩ out A k2 k3,
    foldl_mpPut ⟨⟨fun v => v.gam3 n, rfl⟩, fun _ _ => rfl⟩ out A k2 k3⟩⟩
  rw [foldl_base]
  exact mpAdded_foldl _ _

section
variable [PseudoMetricSpace P]

/-- **C77, multipoles of scalars.** One catalogue (twice the same list of cells) or two: with any schedule the arrays are what was there
and the additions of the run in one thread. -/
theorem multipole_schedule_independent (p : Params) (maxn : ℕ) (ph : P → P → ℂ) (cs1 cs2 : List (Cell P)) (s : Schedule)
    (hs : s.Of cs1.length) (A : MpArr MpVals) (out : List (ℤ × ℤ × MpVals))
    (h : multipoleRun p (calculateGn ph maxn true) (calculateZeta maxn p.nbins) Scratch.clear cs1 cs2 = some out) :
    ∃ R, multipolePar p maxn ph cs1 cs2 s A = some R ∧ MpAdded A R out := by
  refine ⟨out.foldl (mpPut (· + ·)) A, ?_, mpAdded_foldl A out⟩
  rw [multipoleRun, concatM_mapM, ← range_mapM _ _ (mpRow p (calculateGn ph maxn true) (calculateZeta maxn p.nbins) Scratch.clear cs1 cs2) (by
    intro i
    unfold mpRow
    cases cs1[i]? <;> rfl)] at h
  obtain ⟨ess, h1, rfl⟩ := Option.map_eq_some_iff.1 h
  refine (parLoop_eq mpPut_val _ s _ hs A).trans ?_
  rw [h1]
  rfl

/-- **C77, multipoles of scalars, three catalogues.** -/
theorem multipole3_schedule_independent (p : Params) (maxn : ℕ) (ph : P → P → ℂ) (swap23 : Bool) (cs1 cs2 cs3 : List (Cell P))
    (s : Schedule) (hs : s.Of cs1.length) (A : MpArr MpVals) (out : List (ℤ × ℤ × MpVals))
    (h : multipole3 p maxn ph swap23 cs1 cs2 cs3 = some out) :
    ∃ R, multipole3Par p maxn ph swap23 cs1 cs2 cs3 s A = some R ∧ MpAdded A R out := by
  refine ⟨out.foldl (mpPut (· + ·)) A, ?_, mpAdded_foldl A out⟩
  rw [multipole3, multipoleRun2, concatM_mapM, ← range_mapM _ _ (mpRow3 p (calculateGn ph maxn false) (calculateZeta2 maxn p.nbins swap23) Scratch.clear cs1 cs2 cs3) (by
    intro i
    unfold mpRow3
    cases cs1[i]? <;> rfl)] at h
  obtain ⟨ess, h1, rfl⟩ := Option.map_eq_some_iff.1 h
  refine (parLoop_eq mpPut_val _ s _ hs A).trans ?_
  rw [h1]
  rfl

/-- **C77, multipoles of shears.** -/
theorem multipoleG_schedule_independent (p : Params) (maxn : ℕ) (ph factor : P → P → ℂ) (wg : Cell P → ℂ) (cs1 cs2 : List (Cell P))
    (s : Schedule) (hs : s.Of cs1.length) (A : MpArr GVals) (out : List (ℤ × ℤ × GVals))
    (h : multipoleG p maxn ph factor wg cs1 cs2 = some out) :
    ∃ R, multipoleGPar p maxn ph factor wg cs1 cs2 s A = some R ∧ GAdded A R out := by
  refine ⟨out.foldl (mpPut (· + ·)) A, ?_, gAdded_foldl A out⟩
  rw [multipoleG, multipoleRun, concatM_mapM, ← range_mapM _ _ (mpRow p (calculateGnG ph factor wg maxn true) (calculateZetaG maxn p.nbins wg) GScratch.clear cs1 cs2) (by
    intro i
    unfold mpRow
    cases cs1[i]? <;> rfl)] at h
  obtain ⟨ess, h1, rfl⟩ := Option.map_eq_some_iff.1 h
  refine (parLoop_eq mpPut_val _ s _ hs A).trans ?_
  rw [h1]
  rfl

/-- **C77, multipoles of shears, three catalogues.** -/
theorem multipoleG3_schedule_independent (p : Params) (maxn : ℕ) (ph factor : P → P → ℂ) (wg : Cell P → ℂ) (swap23 : Bool)
    (cs1 cs2 cs3 : List (Cell P)) (s : Schedule) (hs : s.Of cs1.length) (A : MpArr GVals) (out : List (ℤ × ℤ × GVals))
    (h : multipoleG3 p maxn ph factor wg swap23 cs1 cs2 cs3 = some out) :
    ∃ R, multipoleG3Par p maxn ph factor wg swap23 cs1 cs2 cs3 s A = some R ∧ GAdded A R out := by
  refine ⟨out.foldl (mpPut (· + ·)) A, ?_, gAdded_foldl A out⟩
  rw [multipoleG3, multipoleRun2, concatM_mapM, ← range_mapM _ _ (mpRow3 p (calculateGnG ph factor wg maxn false) (calculateZetaG2 maxn p.nbins wg swap23) GScratch.clear cs1 cs2 cs3) (by
    intro i
    unfold mpRow3
    cases cs1[i]? <;> rfl)] at h
  obtain ⟨ess, h1, rfl⟩ := Option.map_eq_some_iff.1 h
  refine (parLoop_eq mpPut_val _ s _ hs A).trans ?_
  rw [h1]
  rfl

end

/-! ## Concrete cases -/

/-- C77: the three rows (0,0), (0,3), (4,0) and two threads, of which the one that gets the last top-level cell is done first: one
triangle in bin 29. -/
example : ∀ n, (buildField (sortAlg _ 0) (euclidGeom 2) exFp [ob 0 0 0, ob 0 3 1, ob 4 0 2]).cells.length = n + 1 →
    ∃ R, processAuto3Par (binRUV exRuv flatMetric3) flatMetric3 exRuv.minsep
      (buildField (sortAlg _ 0) (euclidGeom 2) exFp [ob 0 0 0, ob 0 3 1, ob 4 0 2]).cells [[n], List.range n] Acc3.zero = some R ∧
      ∀ k, R.Holds k ((orderedTriples [ob 0 0 0, ob 0 3 1, ob 4 0 2]).filter (inRuv exRuv flatMetric3.ccw k)) triU
        (triVs flatMetric3.ccw) := by
  intro n hn
  refine auto_ruv_exact_threads_partial (sortAlg _ 0) (euclidGeom 2) (euclidGeom_dominates 2) exFp rfl exRuv_ok rfl (Or.inl rfl) rfl
    rfl flatMetric3_of [ob 0 0 0, ob 0 3 1, ob 4 0 2] (by simp [ob_valid]) (by
      rintro t ht e k ⟨_, _, _, hin, _⟩
      have := ex345_out ht hin.1 hin.2.1
      subst this
      simp [side1, side2, d_345, d_origin_4] at e) _ ?_
  rw [hn]
  simp only [Schedule.Of, List.flatten_cons, List.flatten_nil, List.append_nil, List.range_succ]
  exact List.perm_append_comm

/-- C77: two threads for two top-level cells in the other order, on an object that already holds something. -/
example [PseudoMetricSpace P] (p : Params) (maxn : ℕ) (ph : P → P → ℂ) (c1 c2 : Cell P) (A : MpArr MpVals) (out : List (ℤ × ℤ × MpVals))
    (h : multipoleAuto p maxn ph [c1, c2] = some out) :
    ∃ R, multipolePar p maxn ph [c1, c2] [c1, c2] [[1], [0]] A = some R ∧
      (R 0 0).ntri = (A 0 0).ntri + mpTotal MpVals.ntri out 0 0 := by
  obtain ⟨R, h1, h2⟩ := multipole_schedule_independent p maxn ph [c1, c2] [c1, c2] [[1], [0]]
    (show ([1, 0] : List ℕ).Perm [0, 1] from List.Perm.swap 0 1 []) A out h
  exact ⟨R, h1, (h2 0 0).1⟩

end TreeCorr
