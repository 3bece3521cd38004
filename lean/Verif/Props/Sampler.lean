import Verif.Proofs.Sampler
import Verif.Props.Near
import Verif.Props.LogCounts
import Verif.Proofs.SlopWitness
import Verif.Props.KMeans

/-!
C36, C38: `sample_pairs`.
-/

namespace TreeCorr
open Classical List
noncomputable section
variable {P : Type}

/-! ### Facts about the pairs handed to the sampler -/

/-- The row numbers of a pair. -/
def SampledPair.rows (v : SampledPair) : ℕ × ℕ := (v.1, v.2.1)

theorem allPairs_rows (es : List (Emit P)) :
    (((Sampler.allPairs es).map SampledPair.rows : List (ℕ × ℕ)) : Multiset (ℕ × ℕ))
      = (pairsOf es).map fun q => (q.1.idx, q.2.idx) := by
  induction es with
  | nil => simp [Sampler.allPairs, pairsOf]
  | cons e es ih =>
    have h1 : Sampler.allPairs (e :: es) = Sampler.pairList e ++ Sampler.allPairs es := by
      simp [Sampler.allPairs]
    have h2 : pairsOf (e :: es) = e.pairs + pairsOf es := by simp [pairsOf]
    rw [h1, h2, List.map_append, ← Multiset.coe_add, ih, Multiset.map_add]
    congr 1
    unfold Sampler.pairList Sampler.rowsOf Emit.pairs
    induction e.c1.objs with
    | nil => simp
    | cons o os ih2 =>
      rw [List.map_cons, List.flatten_cons, List.map_append, ← Multiset.coe_add, ih2, ← Multiset.cons_coe, Multiset.cons_product,
        Multiset.map_add]
      congr 1
      simp [SampledPair.rows, Function.comp_def]

theorem crossPairs_rows {rows1 rows2 : List (Obj P)} (h1 : Numbered rows1) (h2 : Numbered rows2) :
    ((crossPairs rows1 rows2).map fun q => (q.1.idx, q.2.idx)).Nodup := by
  have nd : ∀ {rows : List (Obj P)}, Numbered rows → rows.Nodup := by
    intro rows hr
    rw [List.nodup_iff_getElem?_ne_getElem?]
    intro i j hij hj he
    have hi : i < rows.length := by omega
    have a := hr i _ (List.getElem?_eq_getElem hi)
    have ej : rows[j]? = some rows[i] := by rw [← List.getElem?_eq_getElem hi]; exact he.symm
    have b := hr j _ ej
    omega
  have inj : ∀ {rows : List (Obj P)}, Numbered rows → ∀ x ∈ rows, ∀ y ∈ rows, x.idx = y.idx → x = y := by
    intro rows hr x hx y hy hxy
    obtain ⟨i, hi⟩ := List.mem_iff_getElem?.1 hx
    obtain ⟨j, hj⟩ := List.mem_iff_getElem?.1 hy
    have a := hr i _ hi
    have b := hr j _ hj
    have : i = j := by omega
    subst this
    rw [hi] at hj
    exact Option.some.inj hj
  refine Multiset.Nodup.map_on ?_ ?_
  · intro x hx y hy hxy
    rw [mem_crossPairs] at hx hy
    simp only [Prod.mk.injEq] at hxy
    exact Prod.ext (inj h1 _ hx.1 _ hy.1 hxy.1) (inj h2 _ hx.2 _ hy.2 hxy.2)
  · exact Multiset.Nodup.product (Multiset.coe_nodup.2 (nd h1)) (Multiset.coe_nodup.2 (nd h2))

theorem cross_counted {B : BinHelper P} {M : MetricHelper P} {prm : Params} (A1 A2 : StdAlg P) (g : Geom P) (fp1 fp2 : FieldParams)
    (rows1 rows2 : List (Obj P)) {es : List (Emit P)}
    (h : processCross B M prm (buildField A1 g fp1 rows1) (buildField A2 g fp2 rows2) = some es) :
    pairsOf es ≤ crossPairs rows1 rows2 ∧ ∀ e ∈ es, e.c1.SumsOK ∧ e.c2.SumsOK := by
  unfold processCross at h
  split at h
  · cases h
    exact ⟨by simp [pairsOf], by simp⟩
  · exact crossLoop_counted (buildField_holds A1 g fp1 rows1) (buildField_holds A2 g fp2 rows2) h

theorem mem_allPairs {es : List (Emit P)} {v : SampledPair} (h : v ∈ Sampler.allPairs es) :
    ∃ e ∈ es, ∃ o1 ∈ e.c1.objs, ∃ o2 ∈ e.c2.objs, v = (o1.idx, o2.idx, Sampler.sepOf e) := by
  unfold Sampler.allPairs at h
  obtain ⟨e, he, hv⟩ := List.mem_flatMap.1 h
  unfold Sampler.pairList Sampler.rowsOf at hv
  obtain ⟨r, hr, hv⟩ := List.mem_flatten.1 hv
  obtain ⟨o1, h1, rfl⟩ := List.mem_map.1 hr
  obtain ⟨o2, h2, rfl⟩ := List.mem_map.1 hv
  exact ⟨e, he, o1, h1, o2, h2, rfl⟩

theorem mem_pairsOf_of {es : List (Emit P)} {e : Emit P} (he : e ∈ es) {o1 o2 : Obj P} (h1 : o1 ∈ e.c1.objs) (h2 : o2 ∈ e.c2.objs) :
    (o1, o2) ∈ pairsOf es := by
  induction es with
  | nil => simp at he
  | cons e' es ih =>
    have : pairsOf (e' :: es) = e'.pairs + pairsOf es := by simp [pairsOf]
    rw [this, Multiset.mem_add]
    rcases List.mem_cons.1 he with rfl | he
    · left; exact Multiset.mem_product.2 ⟨h1, h2⟩
    · right; exact ih he

theorem numbered_mem {rows : List (Obj P)} (hr : Numbered rows) {o : Obj P} (ho : o ∈ rows) : rows[o.idx]? = some o := by
  obtain ⟨i, hi⟩ := List.mem_iff_getElem?.1 ho
  rw [hr i o hi]
  exact hi

/-- A returned entry that is a pair handed to the sampler. -/
def Genuine (rows1 rows2 : List (Obj P)) (es : List (Emit P)) (v : SampledPair) : Prop :=
  ∃ e ∈ es, ∃ o1 ∈ e.c1.objs, ∃ o2 ∈ e.c2.objs, rows1[v.1]? = some o1 ∧ rows2[v.2.1]? = some o2 ∧ v.2.2 = Sampler.sepOf e

theorem genuine_of {rows1 rows2 : List (Obj P)} (h1 : Numbered rows1) (h2 : Numbered rows2) {es : List (Emit P)}
    (hle : pairsOf es ≤ crossPairs rows1 rows2) {v : SampledPair} (h : v ∈ Sampler.allPairs es) : Genuine rows1 rows2 es v := by
  obtain ⟨e, he, o1, ho1, o2, ho2, rfl⟩ := mem_allPairs h
  have := (mem_crossPairs _ _ _).1 (Multiset.mem_of_le hle (mem_pairsOf_of he ho1 ho2))
  exact ⟨e, he, o1, ho1, o2, ho2, numbered_mem h1 this.1, numbered_mem h2 this.2, rfl⟩

theorem length_allPairs (es : List (Emit P)) : (Sampler.allPairs es).length = Multiset.card (pairsOf es) := by
  have := congrArg Multiset.card (allPairs_rows es)
  simpa using this

/-! ### C36 -/

/-- **C36, partial.** For all catalogues, trees, metrics, bins and random numbers: `sample_pairs` returns `min(n, total)` entries, where `total` is
the number of pairs that pass the cuts, all with different pairs of rows, each a pair that passes.
Missing: calls in which a pair of cells with more than `n` pairs of rows comes up while the arrays are filled only in part
(`NeverPartly`); there an entry can stay unwritten (`sample_pairs_unwritten_wrong`). -/
theorem sample_pairs_distinct_partial (B : BinHelper P) (M : MetricHelper P) (p : Params) (u : ℕ → ℝ) (hu : ∀ k, 0 ≤ u k ∧ u k ≤ 1)
    (fuel n : ℕ) (A1 A2 : StdAlg P) (g : Geom P) (fp1 fp2 : FieldParams) (rows1 rows2 : List (Obj P)) (h1 : Numbered rows1)
    (h2 : Numbered rows2) (minsep maxsep : ℝ) (es : List (Emit P))
    (hes : processCross B M (Sampler.params p minsep maxsep) (buildField A1 g fp1 rows1) (buildField A2 g fp2 rows2) = some es)
    (hN : Sampler.NeverPartly n es) (out : List SampledPair)
    (h : samplePairsPy B M p u fuel n (buildField A1 g fp1 rows1) (buildField A2 g fp2 rows2) minsep maxsep = some out) :
    out.length = min n (Multiset.card (pairsOf es)) ∧ (out.map SampledPair.rows).Nodup ∧
      ∀ v ∈ out, Genuine rows1 rows2 es v := by
  obtain ⟨hle, hok⟩ := cross_counted A1 A2 g fp1 fp2 rows1 rows2 hes
  unfold samplePairsPy at h
  rw [hes, Option.bind_some] at h
  obtain ⟨st, hst, rfl⟩ := Option.map_eq_some_iff.1 h
  obtain ⟨hS, hH⟩ := (Sampler.run_spec u hu fuel n es hok).2 st hst
  obtain ⟨f, hf⟩ := hH hN
  have hnd : ((Sampler.allPairs es).map SampledPair.rows).Nodup := by
    rw [← Multiset.coe_nodup, allPairs_rows]
    exact Multiset.nodup_of_le (Multiset.map_le_map hle) (crossPairs_rows h1 h2)
  have hget : ∀ i < min n st.k, ∃ v, st.arr i = some v ∧ (Sampler.allPairs es)[f i]? = some v := by
    intro i hi
    obtain ⟨a, b⟩ := hf.entry i hi
    rw [hf.k] at b
    exact ⟨_, by rw [a]; exact List.getElem?_eq_getElem b, List.getElem?_eq_getElem b⟩
  refine ⟨by rw [List.length_map, List.length_range, hf.k, length_allPairs], ?_, ?_⟩
  · rw [List.map_map]
    refine List.Nodup.map_on ?_ List.nodup_range
    intro i hi j hj hij
    rw [List.mem_range] at hi hj
    obtain ⟨v, a1, a2⟩ := hget i hi
    obtain ⟨w, b1, b2⟩ := hget j hj
    simp only [Function.comp_apply, a1, b1, Option.getD_some] at hij
    refine hf.inj i hi j hj ?_
    obtain ⟨la, ea⟩ := List.getElem?_eq_some_iff.1 a2
    obtain ⟨lb, eb⟩ := List.getElem?_eq_some_iff.1 b2
    refine (List.Nodup.getElem_inj_iff hnd (hi := by simpa using la) (hj := by simpa using lb)).1 ?_
    rw [List.getElem_map, List.getElem_map, ea, eb, hij]
  · intro v hv
    obtain ⟨i, hi, rfl⟩ := List.mem_map.1 hv
    obtain ⟨w, a1, a2⟩ := hget i (List.mem_range.1 hi)
    rw [a1, Option.getD_some]
    exact genuine_of h1 h2 hle (List.mem_of_getElem? a2)

/-- **C36.** If there are at most `n` pairs, all of them are returned, each once, whatever the random numbers. -/
theorem sample_pairs_all (B : BinHelper P) (M : MetricHelper P) (p : Params) (u : ℕ → ℝ) (hu : ∀ k, 0 ≤ u k ∧ u k ≤ 1)
    (fuel n : ℕ) (A1 A2 : StdAlg P) (g : Geom P) (fp1 fp2 : FieldParams) (rows1 rows2 : List (Obj P)) (minsep maxsep : ℝ)
    (es : List (Emit P))
    (hes : processCross B M (Sampler.params p minsep maxsep) (buildField A1 g fp1 rows1) (buildField A2 g fp2 rows2) = some es)
    (hn : Multiset.card (pairsOf es) ≤ n) :
    ∃ out, samplePairsPy B M p u fuel n (buildField A1 g fp1 rows1) (buildField A2 g fp2 rows2) minsep maxsep = some out ∧
      ((out.map SampledPair.rows : List (ℕ × ℕ)) : Multiset (ℕ × ℕ)) = (pairsOf es).map fun q => (q.1.idx, q.2.idx) := by
  obtain ⟨hle, hok⟩ := cross_counted A1 A2 g fp1 fp2 rows1 rows2 hes
  have hlen := length_allPairs es
  obtain ⟨hex, hsp⟩ := Sampler.run_spec u hu fuel n es hok
  obtain ⟨st, hst⟩ := hex (by omega)
  have hN : Sampler.NeverPartly n es := by
    intro pre e post he
    right; right
    have hm : e ∈ es := by rw [he]; simp
    have e1 : (Sampler.allPairs es).length = (Sampler.allPairs pre).length + ((Sampler.pairList e).length + (Sampler.allPairs post).length) := by
      rw [he]; simp [Sampler.allPairs]
    rw [Sampler.length_pairList e (hok e hm).1.n_eq (hok e hm).2.n_eq] at e1
    omega
  obtain ⟨f, hf⟩ := (hsp st hst).2 hN
  refine ⟨Sampler.allPairs es, ?_, allPairs_rows es⟩
  unfold samplePairsPy
  rw [hes, Option.bind_some, hst, Option.map_some]
  congr 1
  have hk := hf.k
  rw [min_eq_right (by omega)]
  apply List.ext_getElem?
  intro i
  rw [List.getElem?_map]
  by_cases hi : i < st.k
  · rw [List.getElem?_range hi, Option.map_some, (hf.entry i (by omega)).1, hf.all (by omega) i hi,
      List.getElem?_eq_getElem (by omega), Option.getD_some]
  · rw [List.getElem?_eq_none (by simp; omega), List.getElem?_eq_none (by omega)]
    rfl

/-- **C36, partial.** Without any further condition: `min(n, total)` entries are returned, and each is a pair that passes the cuts or
an entry that was never written, `(0, 0)` with separation 0. -/
theorem sample_pairs_sound_partial (B : BinHelper P) (M : MetricHelper P) (p : Params) (u : ℕ → ℝ) (hu : ∀ k, 0 ≤ u k ∧ u k ≤ 1)
    (fuel n : ℕ) (A1 A2 : StdAlg P) (g : Geom P) (fp1 fp2 : FieldParams) (rows1 rows2 : List (Obj P)) (h1 : Numbered rows1)
    (h2 : Numbered rows2) (minsep maxsep : ℝ) (es : List (Emit P))
    (hes : processCross B M (Sampler.params p minsep maxsep) (buildField A1 g fp1 rows1) (buildField A2 g fp2 rows2) = some es)
    (out : List SampledPair)
    (h : samplePairsPy B M p u fuel n (buildField A1 g fp1 rows1) (buildField A2 g fp2 rows2) minsep maxsep = some out) :
    out.length = min n (Multiset.card (pairsOf es)) ∧ ∀ v ∈ out, Genuine rows1 rows2 es v ∨ v = (0, 0, 0) := by
  obtain ⟨hle, hok⟩ := cross_counted A1 A2 g fp1 fp2 rows1 rows2 hes
  unfold samplePairsPy at h
  rw [hes, Option.bind_some] at h
  obtain ⟨st, hst, rfl⟩ := Option.map_eq_some_iff.1 h
  obtain ⟨hS, -⟩ := (Sampler.run_spec u hu fuel n es hok).2 st hst
  refine ⟨by rw [List.length_map, List.length_range, hS.k, length_allPairs], ?_⟩
  intro v hv
  obtain ⟨i, hi, rfl⟩ := List.mem_map.1 hv
  cases ha : st.arr i with
  | none => right; rfl
  | some w => left; exact genuine_of h1 h2 hle (hS.mem i w ha)

/-- One pair (`n = 1`) is always sampled correctly. -/
theorem neverPartly_one (es : List (Emit P)) : Sampler.NeverPartly 1 es := by
  intro pre e post _
  omega

/-- Sampling is correct when no two cells that are taken together have more than `n` pairs of rows, e.g. when only single rows
are. -/
theorem neverPartly_small (n : ℕ) (es : List (Emit P)) (h : ∀ e ∈ es, e.c1.n * e.c2.n ≤ n) : Sampler.NeverPartly n es := by
  intro pre e post he
  exact Or.inr (Or.inr (h e (by rw [he]; simp)))

/-! ### The range of the separations -/

theorem decide11_log_nbins [PseudoMetricSpace P] (p : Params) (N : ℤ) (a b : Cell P) :
    (decide11 (logBin P) (plainMetric P) p false a b = .drop →
      decide11 (logBin P) (plainMetric P) { p with nbins := N } false a b = .drop) ∧
    ∀ e, decide11 (logBin P) (plainMetric P) p false a b = .direct e →
      ∃ e', decide11 (logBin P) (plainMetric P) { p with nbins := N } false a b = .direct e' := by
  rw [decide11_plain, decide11_plain]
  have e1 : ∀ r s, (logBin P).tooSmall r s { p with nbins := N } = (logBin P).tooSmall r s p := fun _ _ => rfl
  have e2 : ∀ r s, (logBin P).tooLarge r s { p with nbins := N } = (logBin P).tooLarge r s p := fun _ _ => rfl
  have e3 : ∀ r s x y, (logBin P).singleBin r s x y { p with nbins := N } = (logBin P).singleBin r s x y p := fun _ _ _ _ => rfl
  have e4 : ∀ r x y, (logBin P).inRange r x y { p with nbins := N } = (logBin P).inRange r x y p := fun _ _ _ => rfl
  simp only [e1, e2, e3, e4]
  split
  · simp
  split
  · simp
  split
  · simp
  split
  · split
    · simp
    · simp
  · simp

theorem pairsIn_self [PseudoMetricSpace P] {s : Multiset (Obj P × Obj P)} {Q : ℝ → Prop} (h : ∀ q ∈ s, Q (dist q.1.pos q.2.pos)) :
    pairsIn s Q = s := Multiset.filter_eq_self.2 h

theorem pairsIn_none [PseudoMetricSpace P] {s : Multiset (Obj P × Obj P)} {Q : ℝ → Prop} (h : ∀ q ∈ s, ¬ Q (dist q.1.pos q.2.pos)) :
    pairsIn s Q = 0 := Multiset.filter_eq_nil.2 h

theorem pairsIn_add [PseudoMetricSpace P] (s t : Multiset (Obj P × Obj P)) (Q : ℝ → Prop) :
    pairsIn (s + t) Q = pairsIn s Q + pairsIn t Q := Multiset.filter_add _ _ _

theorem mem_pairsIn [PseudoMetricSpace P] {s : Multiset (Obj P × Obj P)} {Q : ℝ → Prop} {q : Obj P × Obj P} (h : q ∈ pairsIn s Q) :
    Q (dist q.1.pos q.2.pos) := (Multiset.mem_filter.1 h).2

/-- The pairs handed to the sampler at zero slop when the upper limit lies on the grid of bins that starts at the lower limit. -/
theorem log_sample_exact [PseudoMetricSpace P] (A1 A2 : StdAlg P) (g : Geom P) (hg : g.Dominates)
    (fp1 fp2 : FieldParams) (hf1 : fp1.minsize = 0) (hf2 : fp2.minsize = 0) {p : Params} {N : ℤ}
    (hp : LogParams { p with nbins := N }) (hb : p.b = 0) (l1 l2 : List (Obj P)) (hw1 : ∀ o ∈ l1, 0 < o.w) (hw2 : ∀ o ∈ l2, 0 < o.w) :
    ∃ es, processCross (logBin P) (plainMetric P) p (buildField A1 g fp1 l1) (buildField A2 g fp2 l2) = some es ∧
      pairsOf es = pairsIn (crossPairs l1 l2) (fun d => p.minsep ≤ d ∧ d < p.maxsep) := by
  have v1 : ∀ o ∈ l1, o.Valid := fun o ho => ⟨(hw1 o ho).le, fun h => absurd h (hw1 o ho).ne'⟩
  have v2 : ∀ o ∈ l2, o.Valid := fun o ho => ⟨(hw2 o ho).le, fun h => absurd h (hw2 o ho).ne'⟩
  have g1 := buildField_cellOf A1 g hg fp1 hf1 l1 v1
  have g2 := buildField_cellOf A2 g hg fp2 hf2 l2 v2
  by_cases hfar : fieldsTooFar (logBin P) (plainMetric P) p (buildField A1 g fp1 l1) (buildField A2 g fp2 l2)
  · refine ⟨[], by rw [processCross, if_pos hfar], ?_⟩
    have : pairsIn (crossPairs l1 l2) (fun d => p.minsep ≤ d ∧ d < p.maxsep) = 0 := by
      refine pairsIn_none ?_
      rintro q hq ⟨h3, h4⟩
      rw [mem_crossPairs] at hq
      rcases sep_far hfar (buildField_center A1 g hg fp1 l1 _ hq.1) (buildField_center A2 g hg fp2 l2 _ hq.2) with h | h <;> linarith
    rw [this]
    simp [pairsOf]
  · obtain ⟨es, hes⟩ := crossLoop_total (decide11 (logBin P) (plainMetric P) p false) (CellOf l1) (CellOf l2) (hered_cellOf l1)
      (hered_cellOf l2) ((log_safeSplit p 0 0 false).mono (fun _ h => h.1.1.1) (fun _ h => h.1.1.1)) _ _ g1 g2
    refine ⟨es, by rw [processCross, if_neg hfar]; exact hes, ?_⟩
    obtain ⟨D, hD, he, hd⟩ := crossLoop_covers _ (decide11_honest _ _ _ _) (CellOf l1) (CellOf l2) (hered_cellOf l1)
      (hered_cellOf l2) _ _ g1 g2 es hes
    rw [crossPairs_perm (buildField_objs A1 g fp1 l1) (buildField_objs A2 g fp2 l2)] at hD
    have hin : ∀ q ∈ pairsOf es, p.minsep ≤ dist q.1.pos q.2.pos ∧ dist q.1.pos q.2.pos < p.maxsep := by
      intro q hq
      obtain ⟨e, hmem, m1, m2⟩ := mem_pairsOf hq
      obtain ⟨a, b, qa, qb, hab⟩ := he e hmem
      obtain ⟨c1, c2⟩ := decide11_honest _ _ _ _ a b e hab
      rw [c1] at m1
      rw [c2] at m2
      obtain ⟨e', he'⟩ := (decide11_log_nbins p N a b).2 e hab
      have := (log_direct_iff hp hb qa.1.1.1 qb.1.1.1 he' m1 m2 e'.k).2 rfl
      exact InLogBin.range hp this
    have hout : ∀ q ∈ D, ¬ (p.minsep ≤ dist q.1.pos q.2.pos ∧ dist q.1.pos q.2.pos < p.maxsep) := by
      rintro q hq ⟨h3, h4⟩
      obtain ⟨a, b, qa, qb, hab, m1, m2⟩ := hd q hq
      have hq' := (mem_crossPairs l1 l2 q).1 (by rw [← hD]; exact Multiset.mem_add.2 (Or.inr hq))
      have hwa : a.w ≠ 0 := fun h0 => (hw1 _ hq'.1).ne' (qa.1.zero h0 m1).1
      have hwb : b.w ≠ 0 := fun h0 => (hw2 _ hq'.2).ne' (qb.1.zero h0 m2).1
      have hdr := (decide11_log_nbins p N a b).1 hab
      obtain ⟨d', hd', hcase⟩ := log_drop hp le_rfl qa.1.1.1 qb.1.1.1 hwa hwb hdr m1 m2
      have : d' = dist q.1.pos q.2.pos := by
        have : dist q.1.pos q.2.pos - d' = 0 := by simpa using hd'
        linarith
      subst this
      rw [hb] at hcase
      simp at hcase
      rcases hcase with h | h <;> linarith
    rw [← hD, pairsIn_add, pairsIn_self hin, pairsIn_none hout, add_zero]

/-- **C36, partial.** Log binning with `bin_slop = 0`, `min_size = 0` and positive weights, limits a whole number of bins apart (such as the edges of a
bin): the returned pairs have separations in the range, and there are `min(n, number of pairs in the range)` of them, all
different.  Missing: other limits (`sample_pairs_off_grid_wrong`), and `NeverPartly` as in `sample_pairs_distinct_partial`. -/
theorem sample_pairs_range_partial [PseudoMetricSpace P] (A1 A2 : StdAlg P) (g : Geom P) (hg : g.Dominates)
    (fp1 fp2 : FieldParams) (hf1 : fp1.minsize = 0) (hf2 : fp2.minsize = 0) (p : Params) (hb : p.b = 0) (minsep maxsep : ℝ) (N : ℤ)
    (hp : LogParams { Sampler.params p minsep maxsep with nbins := N }) (rows1 rows2 : List (Obj P)) (h1 : Numbered rows1)
    (h2 : Numbered rows2) (hw1 : ∀ o ∈ rows1, 0 < o.w) (hw2 : ∀ o ∈ rows2, 0 < o.w) (u : ℕ → ℝ) (hu : ∀ k, 0 ≤ u k ∧ u k ≤ 1)
    (fuel n : ℕ) :
    ∃ es, processCross (logBin P) (plainMetric P) (Sampler.params p minsep maxsep) (buildField A1 g fp1 rows1)
        (buildField A2 g fp2 rows2) = some es ∧
      (Sampler.NeverPartly n es → ∀ out,
        samplePairsPy (logBin P) (plainMetric P) p u fuel n (buildField A1 g fp1 rows1) (buildField A2 g fp2 rows2) minsep maxsep
          = some out →
        out.length = min n (Multiset.card (pairsIn (crossPairs rows1 rows2) (fun d => minsep ≤ d ∧ d < maxsep))) ∧
        (out.map SampledPair.rows).Nodup ∧
        ∀ v ∈ out, ∃ o1 o2, rows1[v.1]? = some o1 ∧ rows2[v.2.1]? = some o2 ∧
          minsep ≤ dist o1.pos o2.pos ∧ dist o1.pos o2.pos < maxsep) := by
  obtain ⟨es, hes, hpr⟩ := log_sample_exact A1 A2 g hg fp1 fp2 hf1 hf2 hp hb rows1 rows2 hw1 hw2
  refine ⟨es, hes, fun hN out hout => ?_⟩
  obtain ⟨a, b, c⟩ := sample_pairs_distinct_partial (logBin P) (plainMetric P) p u hu fuel n A1 A2 g fp1 fp2 rows1 rows2 h1 h2
    minsep maxsep es hes hN out hout
  refine ⟨by rw [a, hpr]; rfl, b, fun v hv => ?_⟩
  obtain ⟨e, he, o1, ho1, o2, ho2, r1, r2, -⟩ := c v hv
  refine ⟨o1, o2, r1, r2, ?_⟩
  have := mem_pairsOf_of he ho1 ho2
  rw [hpr] at this
  exact mem_pairsIn this

/-- The range [1, e²) in bins [1, e), [e, e²), [e², e³), one pair wanted. -/
example (u : ℕ → ℝ) (hu : ∀ k, 0 ≤ u k ∧ u k ≤ 1) (out : List SampledPair)
    (h : samplePairsPy (logBin _) (plainMetric _) exLog u 0 1 (buildField (sortAlg _ 0) (euclidGeom 2) exFp [ob 0 0 0])
      (buildField (sortAlg _ 0) (euclidGeom 2) exFp [ob 2 0 0, ob 5 0 1]) 1 (Real.exp 2) = some out) :
    out.length = min 1 (Multiset.card (pairsIn (crossPairs [ob 0 0 0] [ob 2 0 0, ob 5 0 1]) (fun d => 1 ≤ d ∧ d < Real.exp 2))) := by
  have hp : LogParams { Sampler.params exLog 1 (Real.exp 2) with nbins := 2 } := by
    constructor <;> norm_num [Sampler.params, exLog]
  obtain ⟨es, -, hx⟩ := sample_pairs_range_partial (sortAlg _ 0) (sortAlg _ 0) (euclidGeom 2) (euclidGeom_dominates 2) exFp exFp rfl rfl
    exLog rfl 1 (Real.exp 2) 2 hp [ob 0 0 0] [ob 2 0 0, ob 5 0 1] (numbered_one _ rfl) (KMeans.numbered_two rfl rfl) (by simp) (by simp)
    u hu 0 1
  exact (hx (neverPartly_one es) out h).1

/-! ### Where it fails -/

/-- **C36 fails** for limits that are not a whole number of bins apart: with `bin_slop = 0`, `sample_pairs(2, cat1, cat2, min_sep=1, max_sep=1.7)`
returns a pair of rows more than 1.7 apart, whatever the random numbers.  The test for accepting two cells knows the
edges of the bins, not the limits given. -/
theorem sample_pairs_off_grid_wrong : ∃ l1 l2 : List (Obj (EuclideanSpace ℝ (Fin 2))), Numbered l1 ∧ Numbered l2 ∧
    (∀ o ∈ l1, 0 < o.w) ∧ (∀ o ∈ l2, 0 < o.w) ∧ exLog.b = 0 ∧
    ∀ u : ℕ → ℝ, (∀ k, 0 ≤ u k ∧ u k ≤ 1) → ∀ fuel, ∃ out,
      samplePairsPy (logBin _) (plainMetric _) exLog u fuel 2
        (buildField (sortAlg _ 0) (euclidGeom 2) exFp l1) (buildField (sortAlg _ 0) (euclidGeom 2) exFp l2) 1 (17 / 10) = some out ∧
      ∃ v ∈ out, ∃ o1 o2, l1[v.1]? = some o1 ∧ l2[v.2.1]? = some o2 ∧ 17 / 10 < dist o1.pos o2.pos := by
  set r := Real.exp (1 / 2) with hr
  have hr0 : 0 < r := Real.exp_pos _
  have hsq : r ^ 2 = Real.exp 1 := by rw [hr, ← Real.exp_nat_mul]; norm_num
  have he1 := Real.exp_one_gt_d9
  have he2 := Real.exp_one_lt_d9
  have hlo : 1.61 < r := by nlinarith
  have hhi : r < 1.7 := by nlinarith
  have hlog : 0.5 * Real.log (r ^ 2) = 1 / 2 := by rw [hsq, Real.log_exp]; norm_num
  have hsb : logSingleBin (r ^ 2) (1 / 10) (Sampler.params exLog 1 (17 / 10)) = some { k := 0, r := Real.sqrt (r ^ 2), logr := 1 / 2 } := by
    have ht : truncInt (1 / 2) = 0 := by norm_num [truncInt]
    have hp : Sampler.params exLog 1 (17 / 10) = { minsep := 1, maxsep := 17 / 10, nbins := 3, binsize := 1, b := 0, a := 1 / 10 } := by
      norm_num [Sampler.params, exLog]
    rw [hp, logSingleBin]
    simp only
    rw [if_neg (by norm_num), if_neg (by nlinarith), if_neg (by nlinarith), if_neg (by nlinarith), hlog]
    norm_num only [Real.log_one, sub_zero, div_one]
    rw [ht]
    have hx : 0 < 1 / 100 / r ^ 2 ∧ 1 / 100 / r ^ 2 < 1 / 100 := by
      refine ⟨by positivity, ?_⟩
      rw [div_lt_iff₀ (by positivity)]
      nlinarith
    rw [if_neg, if_neg]
    · push_cast
      have h3 : (1 / 10 : ℝ) ≤ 1 / 2 - 1 / 100 / r ^ 2 := by linarith [hx.2]
      have h4 : (1 / 10 : ℝ) ^ 2 ≤ (1 / 2 - 1 / 100 / r ^ 2) ^ 2 := pow_le_pow_left₀ (by norm_num) h3 2
      norm_num at h4 ⊢
      nlinarith
    · push_cast
      norm_num
      nlinarith
  obtain ⟨es, hes, hk⟩ := cross_two (B := logBin _) (p := Sampler.params exLog 1 (17 / 10)) exFp exFp (r := r) (s := 1 / 10) (k := 0)
    hr0 (by norm_num) (by norm_num [exFp]) (by norm_num [exFp]) (by norm_num [exFp]) (by norm_num [exFp])
    (by
      rintro (h | h)
      · have := h.1
        simp only [Sampler.params] at this
        nlinarith
      · have := h.1
        simp only [Sampler.params] at this
        nlinarith)
    _ hsb
    (by
      refine ⟨?_, ?_⟩ <;> simp only [Sampler.params] <;> nlinarith)
    (by
      intro c1 c2 _ _
      simp [directProcess11, Sampler.params, exLog])
  set l1 := [ob 0 0 0]
  set l2 := [ob (r - 1 / 10) 0 0, ob (r + 1 / 10) 0 1]
  have hle := (cross_counted _ _ _ _ _ _ _ hes).1
  have hall : pairsOf es = crossPairs l1 l2 := le_antisymm hle (hk ▸ pairsAt_le es 0)
  refine ⟨l1, l2, numbered_one _ rfl, KMeans.numbered_two rfl rfl, by simp [l1], by simp [l2], rfl, fun u hu fuel => ?_⟩
  obtain ⟨out, ho, hm⟩ := sample_pairs_all (logBin _) (plainMetric _) exLog u hu fuel 2 _ _ _ _ _ l1 l2 1 (17 / 10) es hes
    (by rw [hall, crossPairs_singleton]; simp [l2])
  refine ⟨out, ho, ?_⟩
  have hmem : ((0, 1) : ℕ × ℕ) ∈ out.map SampledPair.rows := by
    rw [← Multiset.mem_coe, hm, hall, crossPairs_singleton]
    simp [l2, ob]
  obtain ⟨v, hv, hv2⟩ := List.mem_map.1 hmem
  simp only [SampledPair.rows, Prod.mk.injEq] at hv2
  refine ⟨v, hv, ob 0 0 0, ob (r + 1 / 10) 0 1, by rw [hv2.1]; rfl, by rw [hv2.2]; rfl, ?_⟩
  rw [ob_pos, ob_pos, dist_pt_x, abs_of_neg (by linarith)]
  norm_num at hlo ⊢
  linarith

/-- Median splits, at least two top-level cells if possible. -/
def exTop : FieldParams := { minsize := 0, maxsize := 100, sm := .median, mintop := 1, maxtop := 10 }

/-- Two rows at the origin. -/
def exRows1 : List (Obj (EuclideanSpace ℝ (Fin 2))) := [ob 0 0 0, ob 0 0 1]

/-- One row at (1,0) and two at (2,0). -/
def exRows2 : List (Obj (EuclideanSpace ℝ (Fin 2))) := [ob 1 0 0, ob 2 0 1, ob 2 0 2]

def exU (k : ℕ) : ℝ := if k = 0 then 1 / 6 else if k = 1 then 4 / 5 else 3 / 4

theorem calcSizeSq_same (x y : ℝ) (i j : ℕ) : calcSizeSq (euclidGeom 2) (pt x y) [ob x y i, ob x y j] = 0 := by
  simp [calcSizeSq, normSq_pt]

theorem mean_same (x y : ℝ) (i j : ℕ) : (euclidGeom 2).mean [ob x y i, ob x y j] = pt x y := by
  rw [mean_two]
  congr 1 <;> ring

theorem buildCell_same (A : StdAlg _) (sm : SplitMethod) (x y : ℝ) (i j : ℕ) :
    buildCell A (euclidGeom 2) sm 0 [ob x y i, ob x y j] = .leaf ⟨pt x y, 2, 2, 0⟩ [ob x y i, ob x y j] := by
  have hc : cellData (euclidGeom 2) [ob x y i, ob x y j] = ⟨pt x y, 2, 2, 0⟩ := by
    simp only [cellData, mean_same]
    norm_num [ob]
  rw [buildCell]
  simp only [hc]
  rw [if_neg (by rw [calcSizeSq_same]; simp)]

theorem exField1 : buildField (sortAlg _ 0) (euclidGeom 2) exTop exRows1
    = { center := pt 0 0, size := 0, cells := [.leaf ⟨pt 0 0, 2, 2, 0⟩ [ob 0 0 0, ob 0 0 1]] } := by
  simp only [buildField, exRows1, mean_same, calcSizeSq_same, Real.sqrt_zero]
  congr 1
  rw [topCells]
  simp only [mean_same, calcSizeSq_same, true_or, if_true, List.map_cons, List.map_nil]
  have : exTop.minsize * exTop.minsize = 0 := by simp [exTop]
  rw [this, buildCell_same]

theorem exMean2 : (euclidGeom 2).mean exRows2 = pt (5 / 3) 0 := by
  ext k
  fin_cases k <;> simp [euclidGeom, wmean, ob, pt, exRows2] <;> norm_num

theorem exSize2 : calcSizeSq (euclidGeom 2) (pt (5 / 3) 0) exRows2 = (2 / 3) ^ 2 := by
  simp only [calcSizeSq, exRows2, List.foldl, ob_pos, normSq_pt]
  norm_num

theorem exSplit2 (i : ℕ) : splitCore (sortAlg _ 0) (euclidGeom 2) .median exRows2 (pt (5 / 3) 0) i = (exRows2, 1) := by
  have h : exRows2.insertionSort (fun a b => (euclidGeom 2).coord i a.pos ≤ (euclidGeom 2).coord i b.pos) = exRows2 := by
    refine List.Pairwise.insertionSort_eq ?_
    have : ∀ a b : ℝ, ∀ m n, a ≤ b → (euclidGeom 2).coord i (ob a 0 m).pos ≤ (euclidGeom 2).coord i (ob b 0 n).pos := by
      intro a b m n hab
      simp only [euclidGeom, ob_pos]
      split
      · rename_i hi
        match i, hi with
        | 0, _ => simpa [pt] using hab
        | 1, _ => simp [pt]
      · exact le_rfl
    simp only [exRows2, List.pairwise_cons, List.mem_cons, List.not_mem_nil, or_false, forall_eq_or_imp, forall_eq, false_implies,
      implies_true, List.Pairwise.nil, and_true]
    exact ⟨⟨this _ _ _ _ (by norm_num), this _ _ _ _ (by norm_num)⟩, this _ _ _ _ le_rfl⟩
  simp only [splitCore, sortAlg, h]
  rfl

theorem exField2 : buildField (sortAlg _ 0) (euclidGeom 2) exTop exRows2
    = { center := pt (5 / 3) 0, size := 2 / 3,
        cells := [.leaf ⟨pt 1 0, 1, 1, 0⟩ [ob 1 0 0], .leaf ⟨pt 2 0, 2, 2, 0⟩ [ob 2 0 1, ob 2 0 2]] } := by
  have hs : splitData (sortAlg _ 0) (euclidGeom 2) .median exRows2 (pt (5 / 3) 0) = ([ob 1 0 0], [ob 2 0 1, ob 2 0 2]) := by
    simp only [splitData, exSplit2]
    rfl
  have ht : topCells (sortAlg _ 0) (euclidGeom 2) .median (100 * 100) 1 10 exRows2 = [[ob 1 0 0], [ob 2 0 1, ob 2 0 2]] := by
    have h0 : exRows2 = ob 1 0 0 :: ob 2 0 1 :: [ob 2 0 2] := rfl
    rw [h0, topCells, ← h0]
    simp only [exMean2, exSize2, hs]
    rw [if_neg (by norm_num), if_neg (by norm_num)]
    have h1 : topCells (sortAlg _ 0) (euclidGeom 2) .median (100 * 100) (1 - 1) (10 - 1) [ob 1 0 0] = [[ob 1 0 0]] := by
      rw [topCells]
    have h2 : topCells (sortAlg _ 0) (euclidGeom 2) .median (100 * 100) (1 - 1) (10 - 1) [ob 2 0 1, ob 2 0 2] = [[ob 2 0 1, ob 2 0 2]] := by
      rw [topCells]
      simp only [mean_same, calcSizeSq_same, true_or, if_true]
    rw [h1, h2]
    rfl
  simp only [buildField, exMean2, exSize2]
  congr 1
  · rw [Real.sqrt_sq (by norm_num)]
  · have h3 : exTop.minsize * exTop.minsize = 0 := by simp [exTop]
    have h4 : topCells (sortAlg _ 0) (euclidGeom 2) exTop.sm (exTop.maxsize * exTop.maxsize) exTop.mintop exTop.maxtop exRows2
      = [[ob 1 0 0], [ob 2 0 1, ob 2 0 2]] := ht
    rw [h4, h3, List.map_cons, List.map_cons, buildCell_same, buildCell]
    rfl

def exC1 : Cell (EuclideanSpace ℝ (Fin 2)) := .leaf ⟨pt 0 0, 2, 2, 0⟩ [ob 0 0 0, ob 0 0 1]
def exD1 : Cell (EuclideanSpace ℝ (Fin 2)) := .leaf ⟨pt 1 0, 1, 1, 0⟩ [ob 1 0 0]
def exD2 : Cell (EuclideanSpace ℝ (Fin 2)) := .leaf ⟨pt 2 0, 2, 2, 0⟩ [ob 2 0 1, ob 2 0 2]

/-- The limits of the example. -/
def exLim : Params := Sampler.params exLog (1 / 2) 4

theorem exLeaf {c d : Cell (EuclideanSpace ℝ (Fin 2))} {r : ℝ} (hd : dist c.pos d.pos = r) (h1 : 1 / 2 ≤ r) (h2 : r < 4)
    (hw : c.w ≠ 0) (hw' : d.w ≠ 0) (hs : c.size = 0) (hs' : d.size = 0) :
    decide11 (logBin _) (plainMetric _) exLim false c d = .direct (directProcess11 (logBin _) exLim false c d (r ^ 2) {}) := by
  rw [decide11_plain, hd, hs, hs', add_zero]
  have t1 : ¬ (logBin (EuclideanSpace ℝ (Fin 2))).tooSmall (r ^ 2) 0 exLim := by
    rintro ⟨h, -⟩
    simp only [exLim, Sampler.params] at h
    nlinarith
  have t2 : ¬ (logBin (EuclideanSpace ℝ (Fin 2))).tooLarge (r ^ 2) 0 exLim := by
    rintro ⟨h, -⟩
    simp only [exLim, Sampler.params] at h
    nlinarith
  have t3 : (logBin (EuclideanSpace ℝ (Fin 2))).singleBin (r ^ 2) 0 c.pos d.pos exLim = some {} := by
    simp [logBin, logSingleBin]
  have t4 : (logBin (EuclideanSpace ℝ (Fin 2))).inRange (r ^ 2) c.pos d.pos exLim := by
    refine ⟨?_, ?_⟩ <;> simp only [exLim, Sampler.params] <;> nlinarith
  rw [if_neg (by simp [hw, hw']), if_neg t1, if_neg t2, t3]
  simp only
  rw [if_pos t4]

theorem exEmits : processCross (logBin _) (plainMetric _) exLim (buildField (sortAlg _ 0) (euclidGeom 2) exTop exRows1)
      (buildField (sortAlg _ 0) (euclidGeom 2) exTop exRows2)
    = some [directProcess11 (logBin _) exLim false exC1 exD1 (1 ^ 2) {}, directProcess11 (logBin _) exLim false exC1 exD2 (2 ^ 2) {}] := by
  have d1 : dist exC1.pos exD1.pos = 1 := by
    change dist (pt 0 0) (pt 1 0) = 1
    rw [dist_pt_x]; norm_num
  have d2 : dist exC1.pos exD2.pos = 2 := by
    change dist (pt 0 0) (pt 2 0) = 2
    rw [dist_pt_x]; norm_num
  have a1 := process11_direct (exLeaf d1 (by norm_num) (by norm_num) (by norm_num [exC1, Cell.w, Cell.data]) (by norm_num [exD1, Cell.w, Cell.data]) rfl rfl)
  have a2 := process11_direct (exLeaf d2 (by norm_num) (by norm_num) (by norm_num [exC1, Cell.w, Cell.data]) (by norm_num [exD2, Cell.w, Cell.data]) rfl rfl)
  rw [exField1, exField2, processCross, if_neg]
  · simp only [processCrossLoop, processCrossRow]
    change (do let rows ← [exC1].mapM fun c1 => (do let bs ← [exD1, exD2].mapM fun c2 => process11 _ c1 c2; pure bs.flatten); pure rows.flatten) = _
    simp [a1, a2]
  · have : dist (pt 0 0) (pt (5 / 3) 0) = 5 / 3 := by rw [dist_pt_x]; norm_num [abs_of_neg]
    simp only [fieldsTooFar, plainMetric, this]
    rintro (h | h | h)
    · exact h
    · have := h.1.1
      norm_num [exLim, Sampler.params] at this
    · have := h.1.1
      norm_num [exLim, Sampler.params] at this

theorem exEmit (d : Cell (EuclideanSpace ℝ (Fin 2))) {r : ℝ} (hr : 0 < r) :
    Sampler.sepOf (directProcess11 (logBin _) exLim false exC1 d (r ^ 2) {}) = r := by
  have : Real.sqrt (r ^ 2) = r := Real.sqrt_sq hr.le
  simp [Sampler.sepOf, directProcess11, this, hr.ne']

theorem exSelect : selectRandomFrom exU 0 6 3 0 = some ([1, 5, 0], 3) := by
  have f1 : ⌊(1 / 6 : ℝ) * ((6 : ℕ) - (0 : ℕ))⌋₊ = 1 := by norm_num
  have f2 : ⌊(4 / 5 : ℝ) * ((6 : ℕ) - (1 : ℕ))⌋₊ = 4 := by norm_num
  have f3 : ⌊(3 / 4 : ℝ) * ((6 : ℕ) - (2 : ℕ))⌋₊ = 3 := by norm_num
  have s0 : fisherYatesStep exU 6 0 [0, 1, 2, 3, 4, 5] 0 = some [1, 0, 2, 3, 4, 5] := by
    have : exU (0 + 0) = 1 / 6 := by simp [exU]
    simp only [fisherYatesStep, this, f1]
    rfl
  have s1 : fisherYatesStep exU 6 0 [1, 0, 2, 3, 4, 5] 1 = some [1, 5, 2, 3, 4, 0] := by
    have : exU (0 + 1) = 4 / 5 := by simp [exU]
    simp only [fisherYatesStep, this, f2]
    rfl
  have s2 : fisherYatesStep exU 6 0 [1, 5, 2, 3, 4, 0] 2 = some [1, 5, 0, 3, 4, 2] := by
    have : exU (0 + 2) = 3 / 4 := by simp [exU]
    simp only [fisherYatesStep, this, f3]
    rfl
  have r3 : List.range 3 = [0, 1, 2] := rfl
  have r6 : List.range 6 = [0, 1, 2, 3, 4, 5] := rfl
  rw [selectRandomFrom, if_neg (by norm_num), r3, r6]
  simp [s0, s1, s2]

/-- **C36 fails** even where all separations are in range: for two rows at the origin against rows at distances 1, 2,
2, `sample_pairs(3, cat1, cat2, min_sep=0.5, max_sep=4)` may return the pair (0, 0) twice, once with a separation of 0, out of range: the
third entry is never written. -/
theorem sample_pairs_unwritten_wrong :
    samplePairsPy (logBin _) (plainMetric _) exLog exU 0 3 (buildField (sortAlg _ 0) (euclidGeom 2) exTop exRows1)
      (buildField (sortAlg _ 0) (euclidGeom 2) exTop exRows2) (1 / 2) 4 = some [(0, 0, 1), (1, 2, 2), (0, 0, 0)] := by
  have hp : Sampler.params exLog (1 / 2) 4 = exLim := rfl
  rw [samplePairsPy, hp, exEmits, Option.bind_some]
  set e1 := directProcess11 (logBin _) exLim false exC1 exD1 (1 ^ 2) {} with he1
  set e2 := directProcess11 (logBin _) exLim false exC1 exD2 (2 ^ 2) {} with he2
  have q1 : Sampler.sepOf e1 = 1 := exEmit _ one_pos
  have q2 : Sampler.sepOf e2 = 2 := exEmit _ two_pos
  have w1 : Sampler.rowsOf e1 = [[(0, 0, 1)], [(1, 0, 1)]] := by
    simp only [Sampler.rowsOf, q1]
    rfl
  have w2 : Sampler.rowsOf e2 = [[(0, 1, 2), (0, 2, 2)], [(1, 1, 2), (1, 2, 2)]] := by
    simp only [Sampler.rowsOf, q2]
    rfl
  have m1 : e1.c1.n * e1.c2.n = 2 := rfl
  have m2 : e2.c1.n * e2.c2.n = 4 := rfl
  have n2 : e2.c2.n = 2 := rfl
  clear_value e1 e2
  simp only [Sampler.run, List.foldlM_cons, List.foldlM_nil]
  have g1 : ∃ a, Sampler.finish exU 0 3 { arr := fun _ => none, k := 0, used := 0 } e1 = some { arr := a, k := 2, used := 0 } ∧
      a 0 = some (0, 0, 1) ∧ a 2 = none := by
    rw [Sampler.finish]
    simp only [m1, w1]
    rw [if_pos (by norm_num)]
    refine ⟨fun i => if i = 1 then some (1, 0, 1) else if i = 0 then some (0, 0, 1) else none, by simp [Sampler.takeStep, Sampler.put], ?_, ?_⟩ <;> simp
  obtain ⟨a, ga, ga0, ga2⟩ := g1
  have pl : Sampler.placesOf 2 3 [0, 5, 1] = some [(5, 1)] := rfl
  have fx : (List.range' 2 (3 - 2)).foldlM (Sampler.fixStep 3) [1, 5, 0] = some [0, 5, 1] := by
    have : Sampler.fixStep 3 [1, 5, 0] 2 = some [0, 5, 1] := by
      simp [Sampler.fixStep, swapIdx]
    simp [this]
  have g2 : ∃ b, Sampler.finish exU 0 3 { arr := a, k := 2, used := 0 } e2 = some { arr := b, k := 6, used := 3 } ∧
      b 0 = some (0, 0, 1) ∧ b 1 = some (1, 2, 2) ∧ b 2 = none := by
    rw [Sampler.finish]
    simp only [m2, w2]
    rw [if_neg (by norm_num), if_neg (by norm_num), exSelect, Option.bind_some]
    simp only [fx, pl, Option.bind_some, n2]
    rw [if_neg (by simp)]
    refine ⟨fun i => if i = 1 then some (1, 2, 2) else a i, by simp [Sampler.walk, Sampler.walkRow, Sampler.put], ?_, ?_, ?_⟩ <;> simp [ga0, ga2]
  obtain ⟨b, gb, gb0, gb1, gb2⟩ := g2
  have r3 : List.range 3 = [0, 1, 2] := rfl
  simp [ga, gb, gb0, gb1, gb2, r3]

/-- In it every random number is in the allowed range, the rows are numbered and have weight 1. -/
example : (∀ k, 0 ≤ exU k ∧ exU k ≤ 1) ∧ Numbered exRows1 ∧ (∀ o ∈ exRows1 ++ exRows2, o.w = 1) := by
  refine ⟨fun k => ?_, KMeans.numbered_two rfl rfl, by simp [exRows1, exRows2]⟩
  unfold exU
  split
  · norm_num
  split <;> norm_num

/-! ### C38 -/

/-- **C38 fails**: after `sample_pairs` the number of threads is 1, whatever it was before, because `SetOMPThreads` returns the new
number, not the old one. -/
theorem sample_pairs_threads_wrong (s : Omp) : s.samplePairs.get = 1 := rfl

/-- **C38, partial**: so it is restored exactly if it was 1. -/
theorem sample_pairs_threads_partial (s : Omp) : s.samplePairs.get = s.get ↔ s.get = 1 :=
  ⟨fun h => h.symm, fun h => h.symm⟩

example : (Omp.mk 8).samplePairs.get ≠ (Omp.mk 8).get := by decide

end
end TreeCorr
