import Verif.Proofs.KMeansInit
import Verif.Props.KMeans
import Verif.Props.Sampler
import Verif.Proofs.TwoDWitness

/-!
C76: the random and the k-means++ initial centres (`Field.kmeans_initialize_centers` with `init='random'` and `init='kmeans++'`).

`g` is any of the geometries of the code (flat, 3d, sphere: `euclidGeom_dominates`, `sphereGeom_dominates`).
-/

namespace TreeCorr
open Classical List KMeans
noncomputable section
variable {E : Type} [NormedAddCommGroup E] [InnerProductSpace ℝ E]

theorem field_fine (A : StdAlg E) (g : Geom E) (hg : g.Dominates) (fp : FieldParams) (hm : fp.minsize = 0) (rows : List (Obj E)) :
    ∀ c ∈ (buildField A g fp rows).cells, Fine c := by
  intro c hc
  have := buildField_bounded A g hg fp hm.ge rows c hc
  rw [hm] at this
  exact this

theorem field_ntot (A : StdAlg E) (g : Geom E) (hg : g.Dominates) (fp : FieldParams) (hm : fp.minsize = 0) (rows : List (Obj E)) :
    ntot (buildField A g fp rows).cells = rows.length := by
  rw [ntot_eq (field_fine A g hg fp hm rows), (buildField_objs A g fp rows).length_eq]

theorem field_diff (A : StdAlg E) (g : Geom E) (fp : FieldParams) (rows : List (Obj E)) (hd : (rows.map Obj.pos).Nodup) :
    DiffRows (buildField A g fp rows).cells :=
  ((buildField_objs A g fp rows).map Obj.pos).nodup_iff.2 hd

/-! ### Random centres -/

/-- **C76, partial.** The random initialiser, for any tree with `min_size = 0` and any numbers the generator may give (0 and 1 included): when it
returns, centre `i` belongs to row `sel[i]`, these are different rows of the catalogue, and the centre is the position of its row, unless that is
already taken by an earlier centre; then it is that position times a number from 1 to `(1 + 1e-8)^i`.
Missing: it need not return (`kmeans_random_returns`), and repeated positions need not be pulled apart (`kmeans_random_origin_wrong`,
`kmeans_random_sphere_wrong`). -/
theorem kmeans_random_rows_partial (A : StdAlg E) (g : Geom E) (hg : g.Dominates) (fp : FieldParams) (hm : fp.minsize = 0) (rows : List (Obj E))
    (u : ℕ → ℝ) (hu : ∀ k, 0 ≤ u k ∧ u k ≤ 1) (fuel npatch : ℕ) (hn : npatch ≤ rows.length) (cen : ℕ → E)
    (h : initRand u fuel (buildField A g fp rows).cells npatch = some cen) :
    ∃ sel : List (Obj E), sel <+~ rows ∧ sel.length = npatch ∧ ∀ i (hi : i < sel.length),
      (∃ t : ℝ, 1 ≤ t ∧ t ≤ (1 + 1 / 10 ^ 8) ^ i ∧ cen i = t • sel[i].pos) ∧ ((∀ j < i, cen j ≠ sel[i].pos) → cen i = sel[i].pos) := by
  set cells := (buildField A g fp rows).cells with hcells
  have hf := field_fine A g hg fp hm rows
  have hnt := field_ntot A g hg fp hm rows
  have hperm := buildField_objs A g fp rows
  rw [← hcells] at hf hnt hperm
  unfold initRand at h
  obtain ⟨index, hsel, rfl⟩ := Option.map_eq_some_iff.1 h
  obtain ⟨h1, h2, h3⟩ := selectRandomFrom_spec u hu fuel _ npatch 0 (by rw [hnt]; exact hn) index hsel
  rw [ntot_eq hf] at h3
  have key := initRand_fold u hu cells hf index.1 index.2 h3 npatch h1.ge
  simp only at key
  choose o t ho using key
  have hl : (List.ofFn fun i : Fin npatch => o i i.2).length = npatch := by simp
  refine ⟨List.ofFn fun i : Fin npatch => o i i.2, ?_, hl, ?_⟩
  · refine (subperm_of_places (objsOf cells) index.1 h2 h3 _ ?_ (by rw [hl, h1])).trans hperm.subperm
    intro j hj
    rw [(ho j (by omega)).1, getElem?_eq_getElem (by rw [hl]; omega)]
    simp
  · intro i hi
    rw [hl] at hi
    obtain ⟨-, a1, a2, a3, a4⟩ := ho i hi
    rw [List.getElem_ofFn]
    exact ⟨⟨t i hi, a1, a2, a3⟩, a4⟩

/-- **C76, partial.** If the rows are at different positions the random centres are the positions of `npatch` different rows, and all different. -/
theorem kmeans_random_distinct_partial (A : StdAlg E) (g : Geom E) (hg : g.Dominates) (fp : FieldParams) (hm : fp.minsize = 0)
    (rows : List (Obj E)) (hd : (rows.map Obj.pos).Nodup)
    (u : ℕ → ℝ) (hu : ∀ k, 0 ≤ u k ∧ u k ≤ 1) (fuel npatch : ℕ) (hn : npatch ≤ rows.length) (cen : ℕ → E)
    (h : initRand u fuel (buildField A g fp rows).cells npatch = some cen) :
    (∃ sel : List (Obj E), sel <+~ rows ∧ sel.length = npatch ∧ ∀ i (hi : i < sel.length), cen i = sel[i].pos) ∧
      ∀ i < npatch, ∀ j < npatch, cen i = cen j → i = j := by
  obtain ⟨sel, h1, h2, h3⟩ := kmeans_random_rows_partial A g hg fp hm rows u hu fuel npatch hn cen h
  have hnd : (sel.map Obj.pos).Nodup := by
    obtain ⟨c, hp, hs⟩ := h1
    exact ((hp.map Obj.pos).nodup_iff).1 ((hs.map Obj.pos).nodup hd)
  have key : ∀ i (hi : i < sel.length), cen i = sel[i].pos := by
    intro i
    induction i using Nat.strong_induction_on with
    | _ i ih =>
      intro hi
      refine (h3 i hi).2 fun j hj e => ?_
      rw [ih j hj (by omega)] at e
      have := (hnd.getElem_inj_iff (i := j) (j := i) (hi := by simp; omega) (hj := by simp; omega)).1 (by simpa using e)
      omega
  refine ⟨⟨sel, h1, h2, key⟩, fun i hi j hj e => ?_⟩
  rw [key i (by omega), key j (by omega)] at e
  exact (hnd.getElem_inj_iff (i := i) (j := j) (hi := by simp; omega) (hj := by simp; omega)).1 (by simpa using e)

/-- **C76.** The random initialiser returns if there are at most `3 npatch` rows, and otherwise as soon as the generator has given `npatch`
different row numbers. -/
theorem kmeans_random_returns (A : StdAlg E) (g : Geom E) (hg : g.Dominates) (fp : FieldParams) (hm : fp.minsize = 0) (rows : List (Obj E))
    (u : ℕ → ℝ) (hu : ∀ k, 0 ≤ u k ∧ u k ≤ 1) (fuel npatch : ℕ) (hn : npatch ≤ rows.length)
    (h : rows.length ≤ 3 * npatch ∨ ∃ is : List ℕ, is.Nodup ∧ is.length = npatch ∧ ∀ j ∈ is, ∃ i < fuel, u i < 1 ∧ ⌊u i * rows.length⌋₊ = j) :
    ∃ cen, initRand u fuel (buildField A g fp rows).cells npatch = some cen := by
  obtain ⟨r, hr⟩ := select_random_ends u hu fuel rows.length npatch 0 hn (by simpa using h)
  unfold initRand
  rw [field_ntot A g hg fp hm rows, hr]
  exact ⟨_, rfl⟩

/-- **C76 fails** for two rows at the origin: both centres are the origin, although the code means to pull repeated centres apart. -/
theorem kmeans_random_origin_wrong : ∃ rows : List (Obj (EuclideanSpace ℝ (Fin 2))), rows.length = 2 ∧
    ∀ (A : StdAlg (EuclideanSpace ℝ (Fin 2))) (fp : FieldParams), fp.minsize = 0 → ∀ u : ℕ → ℝ, (∀ k, 0 ≤ u k ∧ u k ≤ 1) → ∀ fuel,
      ∃ cen, initRand u fuel (buildField A (euclidGeom 2) fp rows).cells 2 = some cen ∧ cen 0 = cen 1 := by
  refine ⟨[ob 0 0 0, ob 0 0 1], rfl, fun A fp hm u hu fuel => ?_⟩
  obtain ⟨cen, h⟩ := kmeans_random_returns A _ (euclidGeom_dominates 2) fp hm [ob 0 0 0, ob 0 0 1] u hu fuel 2 (by simp) (by simp)
  obtain ⟨sel, h1, h2, h3⟩ := kmeans_random_rows_partial A _ (euclidGeom_dominates 2) fp hm _ u hu fuel 2 (by simp) cen h
  have hp : ∀ o ∈ sel, o.pos = 0 := by
    intro o ho
    have := h1.subset ho
    simp only [mem_cons, not_mem_nil, or_false] at this
    rcases this with rfl | rfl <;> (ext k; fin_cases k <;> simp [ob, pt])
  refine ⟨cen, h, ?_⟩
  obtain ⟨⟨t0, -, -, e0⟩, -⟩ := h3 0 (by omega)
  obtain ⟨⟨t1, -, -, e1⟩, -⟩ := h3 1 (by omega)
  rw [e0, e1, hp _ (getElem_mem _), hp _ (getElem_mem _), smul_zero, smul_zero]

/-- **C76 fails** on the sphere: repeated centres are pulled apart along the line from the origin, and the first thing `kmeans_refine_centers` and
`kmeans_assign_patches` do is to put the centres back on the sphere.  For two rows at one place the centres they use are the same. -/
theorem kmeans_random_sphere_wrong (o : Obj (EuclideanSpace ℝ (Fin 3))) (ho : ‖o.pos‖ = 1) (A : StdAlg (EuclideanSpace ℝ (Fin 3)))
    (fp : FieldParams) (hm : fp.minsize = 0) (u : ℕ → ℝ) (hu : ∀ k, 0 ≤ u k ∧ u k ≤ 1) (fuel : ℕ) :
    ∃ cen, initRand u fuel (buildField A sphereGeom fp [o, o]).cells 2 = some cen ∧ sphereNormalize (cen 0) = sphereNormalize (cen 1) := by
  obtain ⟨cen, h⟩ := kmeans_random_returns A _ sphereGeom_dominates fp hm [o, o] u hu fuel 2 (by simp) (by simp)
  obtain ⟨sel, h1, h2, h3⟩ := kmeans_random_rows_partial A _ sphereGeom_dominates fp hm _ u hu fuel 2 (by simp) cen h
  have hp : ∀ o' ∈ sel, o'.pos = o.pos := by
    intro o' ho
    have := h1.subset ho
    simp only [mem_cons, not_mem_nil, or_false, or_self] at this
    rw [this]
  refine ⟨cen, h, ?_⟩
  have key : ∀ i (hi : i < sel.length), sphereNormalize (cen i) = o.pos := by
    intro i hi
    obtain ⟨⟨t, ht, -, e⟩, -⟩ := h3 i hi
    rw [e, hp _ (getElem_mem _)]
    have hn : ‖t • o.pos‖ = t := by rw [norm_smul, ho, mul_one, Real.norm_of_nonneg (by linarith)]
    unfold sphereNormalize
    rw [hn, if_neg (by linarith), smul_smul, inv_mul_cancel₀ (by linarith), one_smul]
  rw [key 0 (by omega), key 1 (by omega)]

/-! ### k-means++ -/

/-- **C76, partial.** k-means++ for rows at different positions, any tree with `min_size = 0`, numbers of the generator below 1: when it
returns, the `npatch` centres are positions of rows and all different.  None of them but the first is at the origin.
Missing: it need not return (`kmeans_plusplus_origin_wrong`, `kmeans_plusplus_mean_wrong`; it does if `kmeans_plusplus_returns_partial`), and the
generator also gives 1 (`kmeans_plusplus_one_wrong`).  For rows at the same position see `kmeans_plusplus_repeat_wrong`. -/
theorem kmeans_plusplus_rows_partial (A : StdAlg E) (g : Geom E) (hg : g.Dominates) (fp : FieldParams) (hm : fp.minsize = 0) (rows : List (Obj E))
    (hd : (rows.map Obj.pos).Nodup) (u : ℕ → ℝ) (hu : ∀ k, 0 ≤ u k ∧ u k < 1) (coef : ℝ) (hc : 0 < coef) (npatch : ℕ) (h1 : 1 ≤ npatch)
    (hn : npatch ≤ rows.length) (cen : ℕ → E) (h : initKmpp u coef (buildField A g fp rows).cells npatch = some cen) :
    (∀ i < npatch, ∃ o ∈ rows, cen i = o.pos) ∧ (∀ i < npatch, ∀ j < npatch, cen i = cen j → i = j) ∧ ∀ i < npatch, i ≠ 0 → cen i ≠ 0 := by
  have hf := field_fine A g hg fp hm rows
  have hnt := field_ntot A g hg fp hm rows
  have hperm := buildField_objs A g fp rows
  obtain ⟨⟨src, i0⟩, -⟩ := kmppFirst_inv hf u hu (by omega)
  obtain ⟨st, hst, rfl⟩ := Option.map_eq_some_iff.1 h
  obtain ⟨⟨src', k1⟩, -, k3⟩ := kmpp_loop hf (field_diff A g fp rows hd) u hu hc (nc := npatch) (by omega) (npatch - 1) 1 _ st src le_rfl (by omega) i0 hst
  refine ⟨fun i hi => ?_, fun i hi j hj e => ?_, fun i hi h0 => k3 i (by omega) hi⟩
  · obtain ⟨c, hk, o, ho, e⟩ := k1.row i hi
    exact ⟨o, hperm.mem_iff.1 (mem_flatMap.2 ⟨c, mem_of_getElem? hk, ho⟩), e.symm⟩
  · rcases lt_trichotomy i j with hij | hij | hij
    · exact absurd e.symm (k1.diff j hj i hij)
    · exact hij
    · exact absurd e (k1.diff i hi j hij)

/-- **C76, partial.** It returns if no row is at the origin and no cell of the tree with more than one position has its centroid at the origin or at
a row. -/
theorem kmeans_plusplus_returns_partial (A : StdAlg E) (g : Geom E) (hg : g.Dominates) (fp : FieldParams) (hm : fp.minsize = 0) (rows : List (Obj E))
    (hd : (rows.map Obj.pos).Nodup) (h0 : ∀ o ∈ rows, o.pos ≠ 0)
    (hgen : ∀ c ∈ (buildField A g fp rows).cells, c.Each fun c => 0 < c.size → c.pos ≠ 0 ∧ ∀ o ∈ rows, c.pos ≠ o.pos)
    (u : ℕ → ℝ) (hu : ∀ k, 0 ≤ u k ∧ u k < 1) (coef : ℝ) (hc : 0 < coef) (npatch : ℕ) (h1 : 1 ≤ npatch) (hn : npatch ≤ rows.length) :
    ∃ cen, initKmpp u coef (buildField A g fp rows).cells npatch = some cen := by
  have hf := field_fine A g hg fp hm rows
  have hnt := field_ntot A g hg fp hm rows
  have hperm := buildField_objs A g fp rows
  obtain ⟨⟨src, i0⟩, -⟩ := kmppFirst_inv hf u hu (by omega)
  obtain ⟨st, hst⟩ := kmpp_loop_isSome hf (field_diff A g fp rows hd) u hu hc (nc := npatch) (by omega) (fun o ho => h0 o (hperm.mem_iff.1 ho))
    (fun c hc => each_imp (fun c h hs => ⟨(h hs).1, fun o ho => (h hs).2 o (hperm.mem_iff.1 ho)⟩) (hgen c hc)) (npatch - 1) 1 _ src le_rfl (by omega) i0
  unfold initKmpp
  rw [hst]
  exact ⟨_, rfl⟩

/-- **C76 fails** for the rows (0,0) and (1,0) and two patches: whatever the tree, there are numbers of the generator for which the exception
`LeafAlreadyUsed` is not caught - when the first centre is (1,0).  Centres not chosen yet count as centres at the origin. -/
theorem kmeans_plusplus_origin_wrong (A : StdAlg (EuclideanSpace ℝ (Fin 2))) (fp : FieldParams) (hm : fp.minsize = 0) (coef : ℝ) (hc : 0 < coef) :
    (([ob 0 0 0, ob 1 0 1] : List (Obj (EuclideanSpace ℝ (Fin 2)))).map Obj.pos).Nodup ∧
    ∃ u : ℕ → ℝ, (∀ k, 0 ≤ u k ∧ u k < 1) ∧ initKmpp u coef (buildField A (euclidGeom 2) fp [ob 0 0 0, ob 1 0 1]).cells 2 = none := by
  have hne : pt 0 0 ≠ pt 1 0 := by
    intro h
    have := congrFun (congrArg (fun x : EuclideanSpace ℝ (Fin 2) => x.ofLp) h) 0
    simp [pt] at this
  have hz : (0 : EuclideanSpace ℝ (Fin 2)) = pt 0 0 := by ext k; fin_cases k <;> simp [pt]
  have hd : (([ob 0 0 0, ob 1 0 1] : List (Obj (EuclideanSpace ℝ (Fin 2)))).map Obj.pos).Nodup := by simp [ob_pos, hne]
  refine ⟨hd, ?_⟩
  have hg := euclidGeom_dominates 2
  have hf := field_fine A _ hg fp hm [ob 0 0 0, ob 1 0 1]
  have hnt := field_ntot A _ hg fp hm [ob 0 0 0, ob 1 0 1]
  have hperm := buildField_objs A (euclidGeom 2) fp [ob 0 0 0, ob 1 0 1]
  obtain ⟨m, hm2, hmlt, hpos⟩ : ∃ m, m < 2 ∧ ∃ h : m < (objsOf (buildField A (euclidGeom 2) fp [ob 0 0 0, ob 1 0 1]).cells).length,
      ((objsOf (buildField A (euclidGeom 2) fp [ob 0 0 0, ob 1 0 1]).cells)[m]).pos = pt 1 0 := by
    obtain ⟨m, h, e⟩ := mem_iff_getElem.1 (hperm.mem_iff.2 (show ob 1 0 1 ∈ [ob 0 0 0, ob 1 0 1] by simp))
    exact ⟨m, by have := hperm.length_eq; simp at this; omega, h, by rw [e, ob_pos]⟩
  refine ⟨fun _ => m / 2, ?_, ?_⟩
  · intro k
    interval_cases m <;> norm_num
  · by_contra hno
    obtain ⟨cen, hcen⟩ := Option.ne_none_iff_exists'.1 hno
    have hu : ∀ k : ℕ, 0 ≤ ((m : ℝ) / 2) ∧ ((m : ℝ) / 2) < 1 := by intro k; interval_cases m <;> norm_num
    obtain ⟨k1, k2, k3⟩ := kmeans_plusplus_rows_partial A _ hg fp hm _ hd _ hu coef hc 2 (by norm_num) (by simp) cen hcen
    have hfirst : cen 0 = pt 1 0 := by
      obtain ⟨⟨src, i0⟩, hlt, e⟩ := kmppFirst_inv hf (fun _ => (m : ℝ) / 2) hu (by rw [hnt]; simp)
      obtain ⟨st, hst, rfl⟩ := Option.map_eq_some_iff.1 hcen
      obtain ⟨-, l2, -⟩ := kmpp_loop hf (field_diff A _ fp _ hd) _ hu hc (nc := 2) (by rw [hnt]; simp) (2 - 1) 1 _ st src le_rfl (by omega) i0 hst
      rw [l2 0 (by norm_num), e, ← hpos]
      have : ⌊(m : ℝ) / 2 * ntot (buildField A (euclidGeom 2) fp [ob 0 0 0, ob 1 0 1]).cells⌋₊ = m := by
        rw [hnt]
        simp
      simp only [this]
    obtain ⟨o, ho, e⟩ := k1 1 (by norm_num)
    simp only [mem_cons, not_mem_nil, or_false] at ho
    rcases ho with rfl | rfl
    · rw [ob_pos] at e
      exact k3 1 (by norm_num) (by norm_num) (e.trans hz.symm)
    · rw [ob_pos] at e
      exact absurd (k2 0 (by norm_num) 1 (by norm_num) (hfirst.trans e.symm)) (by norm_num)

/-- **C76 fails** when the generator gives 1: for the row (1,0) and one patch the centre is the origin. -/
theorem kmeans_plusplus_one_wrong (A : StdAlg (EuclideanSpace ℝ (Fin 2))) (fp : FieldParams) (hm : fp.minsize = 0) (coef : ℝ) :
    ∃ u : ℕ → ℝ, (∀ k, 0 ≤ u k ∧ u k ≤ 1) ∧ ∃ cen, initKmpp u coef (buildField A (euclidGeom 2) fp [ob 1 0 0]).cells 1 = some cen ∧
      cen 0 = pt 0 0 := by
  refine ⟨fun _ => 1, fun _ => by norm_num, _, rfl, ?_⟩
  have hz : (0 : EuclideanSpace ℝ (Fin 2)) = pt 0 0 := by ext k; fin_cases k <;> simp [pt]
  have hc : (buildField A (euclidGeom 2) fp [ob 1 0 0]).cells = [.leaf ⟨pt 1 0, 1, 1, 0⟩ [ob 1 0 0]] := by
    simp only [buildField, topCells, map_cons, map_nil, buildCell]
    rfl
  rw [hc, ← hz]
  simp [kmppFirst, ntot, findLeaf, Cell.n, Cell.data]

/-- **C76 fails** for two rows at (1,0) and two patches: the second centre is left at the origin, where there is no row. -/
theorem kmeans_plusplus_repeat_wrong (A : StdAlg (EuclideanSpace ℝ (Fin 2))) (fp : FieldParams) (hm : fp.minsize = 0) (coef : ℝ)
    (u : ℕ → ℝ) (hu : ∀ k, 0 ≤ u k ∧ u k < 1) :
    ∃ cen, initKmpp u coef (buildField A (euclidGeom 2) fp [ob 1 0 0, ob 1 0 1]).cells 2 = some cen ∧ cen 0 = pt 1 0 ∧ cen 1 = pt 0 0 := by
  have hz : (0 : EuclideanSpace ℝ (Fin 2)) = pt 0 0 := by ext k; fin_cases k <;> simp [pt]
  have hc : (buildField A (euclidGeom 2) fp [ob 1 0 0, ob 1 0 1]).cells = [.leaf ⟨pt 1 0, 2, 2, 0⟩ [ob 1 0 0, ob 1 0 1]] := by
    simp only [buildField]
    rw [topCells]
    simp only [mean_same, calcSizeSq_same, true_or, if_true, List.map_cons, List.map_nil]
    rw [hm, mul_zero, buildCell_same]
  have hfirst : kmppFirst u (buildField A (euclidGeom 2) fp [ob 1 0 0, ob 1 0 1]).cells =
      ⟨Function.update (fun _ => 0) 0 (pt 1 0), Function.update (fun _ => 0) 0 1, 1⟩ := by
    rw [hc]
    have : ⌊u 0 * (ntot [Cell.leaf ⟨pt 1 0, 2, 2, 0⟩ [ob 1 0 0, ob 1 0 1]] : ℕ)⌋₊ < 2 := by
      rw [Nat.floor_lt' (by norm_num)]
      simp only [ntot, map_cons, map_nil, sum_cons, sum_nil, Cell.n, Cell.data]
      push_cast
      linarith [(hu 0).2]
    unfold kmppFirst
    rw [findLeaf, if_pos (show _ < (Cell.leaf ⟨pt 1 0, 2, 2, 0⟩ [ob 1 0 0, ob 1 0 1]).n from this)]
    rfl
  have hstep : kmppStep u coef (buildField A (euclidGeom 2) fp [ob 1 0 0, ob 1 0 1]).cells 2
      ⟨Function.update (fun _ => 0) 0 (pt 1 0), Function.update (fun _ => 0) 0 1, 1⟩ 1 =
      some ⟨Function.update (fun _ => 0) 0 (pt 1 0), Function.update (fun _ => 0) 0 1, 2⟩ := by
    rw [hc]
    simp [kmppStep, kmppProb, minDsq, kmppChoose, Cell.size, Cell.pos, Cell.data]
  refine ⟨Function.update (fun _ => 0) 0 (pt 1 0), ?_, by simp, by rw [← hz]; simp⟩
  unfold initKmpp
  rw [hfirst]
  simp only [show 2 - 1 = 1 from rfl, range'_one, foldlM_cons, foldlM_nil, hstep]
  rfl

/-! Three rows whose tree has a cell with centroid at the origin. -/

/-- One top-level cell. -/
def oneFp : FieldParams := { minsize := 0, maxsize := 100, sm := .mean, mintop := 0, maxtop := 10 }

theorem far_cells : (buildField (sortAlg _ 0) (euclidGeom 2) oneFp [ob (-1) 0 0, ob 1 0 1, ob 10 0 2]).cells
    = [.node ⟨pt (10 / 3) 0, 3, 3, 0⟩ (Real.sqrt (400 / 9)) (.node ⟨pt 0 0, 2, 2, 0⟩ 1 (lf (-1) 0) (lf 1 1)) (lf 10 2)] := by
  have hm3 : (euclidGeom 2).mean [ob (-1) 0 0, ob 1 0 1, ob 10 0 2] = pt (10 / 3) 0 := by
    ext k
    fin_cases k <;> norm_num [euclidGeom, wmean, ob, pt]
  have hs3 : calcSizeSq (euclidGeom 2) (pt (10 / 3) 0) [ob (-1) 0 0, ob 1 0 1, ob 10 0 2] = 400 / 9 := by
    simp only [calcSizeSq, List.foldl, ob_pos, normSq_pt]
    norm_num
  have hsp3 : splitData (sortAlg _ 0) (euclidGeom 2) .mean [ob (-1) 0 0, ob 1 0 1, ob 10 0 2] (pt (10 / 3) 0)
      = ([ob (-1) 0 0, ob 1 0 1], [ob 10 0 2]) := by
    have hs : getSplit (euclidGeom 2) [ob (-1) 0 0, ob 1 0 1, ob 10 0 2] = 0 := by
      norm_num [getSplit, boundRange, boundHi, boundLo, euclidGeom, pt]
    simp only [splitData, hs]
    have h1 : (-1 : ℝ) < 10 / 3 := by norm_num
    have h2 : (1 : ℝ) < 10 / 3 := by norm_num
    have h3 : ¬ (10 : ℝ) < 10 / 3 := by norm_num
    simp [splitCore, sortAlg, coord0_pt, List.filter, h1, h2, h3]
  have hm2 : (euclidGeom 2).mean [ob (-1) 0 0, ob 1 0 1] = pt 0 0 := by
    rw [mean_two]; norm_num
  have hs2 : calcSizeSq (euclidGeom 2) (pt 0 0) [ob (-1) 0 0, ob 1 0 1] = 1 := by
    simp only [calcSizeSq, List.foldl, ob_pos, normSq_pt]
    norm_num
  have hsp2 : splitData (sortAlg _ 0) (euclidGeom 2) .mean [ob (-1) 0 0, ob 1 0 1] (pt 0 0) = ([ob (-1) 0 0], [ob 1 0 1]) := by
    have hs : getSplit (euclidGeom 2) [ob (-1) 0 0, ob 1 0 1] = 0 := by
      norm_num [getSplit, boundRange, boundHi, boundLo, euclidGeom, pt]
    simp only [splitData, hs]
    have h1 : (-1 : ℝ) < 0 := by norm_num
    have h2 : ¬ (1 : ℝ) < 0 := by norm_num
    simp [splitCore, sortAlg, coord0_pt, List.filter, h1, h2]
  have ht : topCells (sortAlg _ 0) (euclidGeom 2) oneFp.sm (oneFp.maxsize * oneFp.maxsize) oneFp.mintop
      oneFp.maxtop [ob (-1) 0 0, ob 1 0 1, ob 10 0 2] = [[ob (-1) 0 0, ob 1 0 1, ob 10 0 2]] := by
    rw [topCells, hm3, hs3, if_pos (by norm_num [oneFp])]
  have hc3 : cellData (euclidGeom 2) [ob (-1) 0 0, ob 1 0 1, ob 10 0 2] = ⟨pt (10 / 3) 0, 3, 3, 0⟩ := by
    simp only [cellData, hm3]
    norm_num [ob]
  have hc2 : cellData (euclidGeom 2) [ob (-1) 0 0, ob 1 0 1] = ⟨pt 0 0, 2, 2, 0⟩ := by
    simp only [cellData, hm2]
    norm_num [ob]
  have hb2 : buildCell (sortAlg _ 0) (euclidGeom 2) .mean 0 [ob (-1) 0 0, ob 1 0 1] = .node ⟨pt 0 0, 2, 2, 0⟩ 1 (lf (-1) 0) (lf 1 1) := by
    rw [buildCell]
    simp only [hc2, hs2]
    rw [if_pos (by norm_num)]
    simp only [hsp2, buildCell, Real.sqrt_one]
    rfl
  simp only [buildField, ht, List.map_cons, List.map_nil]
  rw [show oneFp.minsize * oneFp.minsize = 0 by norm_num [oneFp], show oneFp.sm = .mean from rfl, buildCell]
  simp only [hc3, hs3]
  rw [if_pos (by norm_num)]
  simp only [hsp3, hb2, buildCell]
  rfl

/-- **C76 fails** for the rows (-1,0), (1,0) and (10,0) and two patches, although no row is at the origin and there are three of them: if the
first centre is (10,0) the exception `LeafAlreadyUsed` is not caught.  The rows (-1,0) and (1,0) make a cell with its centroid at the origin,
where the second centre is as long as it has not been chosen. -/
theorem kmeans_plusplus_mean_wrong (coef : ℝ) (hc : 0 < coef) :
    (([ob (-1) 0 0, ob 1 0 1, ob 10 0 2] : List (Obj (EuclideanSpace ℝ (Fin 2)))).map Obj.pos).Nodup ∧
    ∃ u : ℕ → ℝ, (∀ k, 0 ≤ u k ∧ u k < 1) ∧
      initKmpp u coef (buildField (sortAlg _ 0) (euclidGeom 2) oneFp [ob (-1) 0 0, ob 1 0 1, ob 10 0 2]).cells 2 = none := by
  have hne : ∀ x y : ℝ, x ≠ y → pt x 0 ≠ pt y 0 := by
    intro x y hxy h
    have := congrFun (congrArg (fun x : EuclideanSpace ℝ (Fin 2) => x.ofLp) h) 0
    exact hxy (by simpa [pt] using this)
  have hz : pt 0 0 = (0 : EuclideanSpace ℝ (Fin 2)) := by ext k; fin_cases k <;> simp [pt]
  have hd : (([ob (-1) 0 0, ob 1 0 1, ob 10 0 2] : List (Obj (EuclideanSpace ℝ (Fin 2)))).map Obj.pos).Nodup := by
    simp only [map_cons, map_nil, ob_pos, nodup_cons, mem_cons, not_mem_nil, or_false, not_false_eq_true, nodup_nil, and_true, not_or]
    exact ⟨⟨hne _ _ (by norm_num), hne _ _ (by norm_num)⟩, hne _ _ (by norm_num)⟩
  have hu : ∀ k : ℕ, (0 : ℝ) ≤ (fun _ => 2 / 3 : ℕ → ℝ) k ∧ (fun _ => 2 / 3 : ℕ → ℝ) k < 1 := fun _ => by norm_num
  refine ⟨hd, fun _ => 2 / 3, hu, ?_⟩
  have hg := euclidGeom_dominates 2
  have hf := field_fine (sortAlg _ 0) _ hg oneFp rfl [ob (-1) 0 0, ob 1 0 1, ob 10 0 2]
  have hnt := field_ntot (sortAlg _ 0) _ hg oneFp rfl [ob (-1) 0 0, ob 1 0 1, ob 10 0 2]
  obtain ⟨⟨src, i0⟩, hlt, e⟩ := kmppFirst_inv hf (fun _ => 2 / 3) hu (by rw [hnt]; simp)
  obtain ⟨k, c, hk, -, hstep⟩ := kmppStep_eq hf (field_diff _ _ oneFp _ hd) (fun _ => 2 / 3) hu hc le_rfl 2 i0 (by rw [hnt]; simp)
  have hcell : c = .node ⟨pt (10 / 3) 0, 3, 3, 0⟩ (Real.sqrt (400 / 9)) (.node ⟨pt 0 0, 2, 2, 0⟩ 1 (lf (-1) 0) (lf 1 1)) (lf 10 2) := by
    have := mem_of_getElem? hk
    rw [far_cells] at this
    simpa using this
  have h0 : (kmppFirst (fun _ => 2 / 3) (buildField (sortAlg _ 0) (euclidGeom 2) oneFp [ob (-1) 0 0, ob 1 0 1, ob 10 0 2]).cells).cen 0 = pt 10 0 := by
    rw [e]
    have hfl : ⌊(2 / 3 : ℝ) * ntot (buildField (sortAlg _ 0) (euclidGeom 2) oneFp [ob (-1) 0 0, ob 1 0 1, ob 10 0 2]).cells⌋₊ = 2 := by
      rw [hnt]; norm_num
    have hobj : objsOf (buildField (sortAlg _ 0) (euclidGeom 2) oneFp [ob (-1) 0 0, ob 1 0 1, ob 10 0 2]).cells =
        [ob (-1) 0 0, ob 1 0 1, ob 10 0 2] := by rw [far_cells]; rfl
    simp only [hfl, hobj]
    rfl
  have hnone : ∀ k, kmppCell (fun _ => 2 / 3) (kmppFirst (fun _ => 2 / 3) (buildField (sortAlg _ 0) (euclidGeom 2) oneFp
      [ob (-1) 0 0, ob 1 0 1, ob 10 0 2]).cells).cen 2 c k = (none, k) := by
    intro k
    rw [hcell]
    simp only [kmppCell]
    rw [if_neg (Real.sqrt_ne_zero'.2 (by norm_num)), if_pos]
    rw [(minDsq_zero (by norm_num)).2 ⟨1, by norm_num, ?_⟩, (minDsq_zero (by norm_num)).2 ⟨0, by norm_num, ?_⟩, add_zero]
    · rw [h0]; rfl
    · rw [i0.rest 1 le_rfl, ← hz]; rfl
  rw [hnone] at hstep
  unfold initKmpp
  simp only [show 2 - 1 = 1 from rfl, range'_one, foldlM_cons, hstep]
  rfl

/-! Cases that meet the hypotheses. -/

/-- The rows of `three_cells`, whose top-level cells are the row (0,0) and the cell of (2,0) and (4,0): random centres, with the generator always at one half. -/
example : ∃ cen, initRand (fun _ => 1 / 2) 0 (buildField (sortAlg _ 0) (euclidGeom 2) threeFp [ob 0 0 0, ob 2 0 1, ob 4 0 2]).cells 2 = some cen ∧
    ∀ i < 2, ∀ j < 2, cen i = cen j → i = j := by
  have hne : ∀ x y : ℝ, x ≠ y → pt x 0 ≠ pt y 0 := by
    intro x y hxy h
    have := congrFun (congrArg (fun x : EuclideanSpace ℝ (Fin 2) => x.ofLp) h) 0
    exact hxy (by simpa [pt] using this)
  have hd : (([ob 0 0 0, ob 2 0 1, ob 4 0 2] : List (Obj (EuclideanSpace ℝ (Fin 2)))).map Obj.pos).Nodup := by
    simp only [map_cons, map_nil, ob_pos, nodup_cons, mem_cons, not_mem_nil, or_false, not_false_eq_true, nodup_nil, and_true, not_or]
    exact ⟨⟨hne _ _ (by norm_num), hne _ _ (by norm_num)⟩, hne _ _ (by norm_num)⟩
  have hu : ∀ k : ℕ, (0 : ℝ) ≤ (fun _ => 1 / 2 : ℕ → ℝ) k ∧ (fun _ => 1 / 2 : ℕ → ℝ) k ≤ 1 := fun _ => by norm_num
  obtain ⟨cen, h⟩ := kmeans_random_returns (sortAlg _ 0) _ (euclidGeom_dominates 2) threeFp rfl [ob 0 0 0, ob 2 0 1, ob 4 0 2] _ hu 0 2 (by simp) (by simp)
  exact ⟨cen, h, (kmeans_random_distinct_partial _ _ (euclidGeom_dominates 2) threeFp rfl _ hd _ hu 0 2 (by simp) cen h).2⟩

/-- k-means++ for the rows (3,0) and (5,0) in one cell with centroid (4,0). -/
example (A : StdAlg (EuclideanSpace ℝ (Fin 2))) (fp : FieldParams) (hm : fp.minsize = 0) (hmt : fp.mintop ≤ 0) (hmax : 1 ≤ fp.maxsize) :
    ∃ cen, initKmpp (fun _ => 1 / 2) (1 / 2) (buildField A (euclidGeom 2) fp [ob 3 0 0, ob 5 0 1]).cells 2 = some cen ∧ cen 0 ≠ cen 1 := by
  have hne : ∀ x y : ℝ, x ≠ y → pt x 0 ≠ pt y 0 := by
    intro x y hxy h
    have := congrFun (congrArg (fun x : EuclideanSpace ℝ (Fin 2) => x.ofLp) h) 0
    exact hxy (by simpa [pt] using this)
  have hz : (0 : EuclideanSpace ℝ (Fin 2)) = pt 0 0 := by ext k; fin_cases k <;> simp [pt]
  have hd : (([ob 3 0 0, ob 5 0 1] : List (Obj (EuclideanSpace ℝ (Fin 2)))).map Obj.pos).Nodup := by simp [ob_pos, hne 3 5 (by norm_num)]
  have hu : ∀ k : ℕ, (0 : ℝ) ≤ (fun _ => 1 / 2 : ℕ → ℝ) k ∧ (fun _ => 1 / 2 : ℕ → ℝ) k < 1 := fun _ => by norm_num
  have hone : ∀ s : List (Obj (EuclideanSpace ℝ (Fin 2))), s.length = 1 → (buildCell A (euclidGeom 2) fp.sm (fp.minsize * fp.minsize) s).Each
      fun c => 0 < c.size → c.pos ≠ 0 ∧ ∀ o ∈ [ob 3 0 0, ob 5 0 1], c.pos ≠ o.pos := by
    intro s hs
    obtain ⟨o, rfl⟩ := length_eq_one_iff.1 hs
    rw [buildCell]
    intro h
    simp [Cell.size] at h
  have hgen : ∀ c ∈ (buildField A (euclidGeom 2) fp [ob 3 0 0, ob 5 0 1]).cells,
      c.Each fun c => 0 < c.size → c.pos ≠ 0 ∧ ∀ o ∈ [ob 3 0 0, ob 5 0 1], c.pos ≠ o.pos := by
    have hsz : calcSizeSq (euclidGeom 2) (pt ((3 + 5) / 2) ((0 + 0) / 2)) [ob 3 0 0, ob 5 0 1] = 1 := by
      rw [sizeSq_two]; norm_num
    have htop : topCells A (euclidGeom 2) fp.sm (fp.maxsize * fp.maxsize) fp.mintop fp.maxtop [ob 3 0 0, ob 5 0 1] = [[ob 3 0 0, ob 5 0 1]] := by
      rw [topCells]
      simp only [mean_two, hsz]
      rw [if_pos (Or.inr ⟨by nlinarith, hmt⟩)]
    have hpos : (cellData (euclidGeom 2) [ob 3 0 0, ob 5 0 1]).pos = pt ((3 + 5) / 2) ((0 + 0) / 2) := mean_two _ _ _ _ _ _
    intro c hc
    simp only [buildField, htop, map_cons, map_nil, mem_singleton] at hc
    rw [hc, buildCell]
    have hlt := splitData_lt A (euclidGeom 2) fp.sm [ob 3 0 0, ob 5 0 1] (cellData (euclidGeom 2) [ob 3 0 0, ob 5 0 1]).pos (by simp)
    simp only [length_cons, length_nil] at hlt
    rw [if_pos (by rw [hpos, hsz, hm]; norm_num)]
    refine ⟨fun _ => ?_, hone _ (by omega), hone _ (by omega)⟩
    simp only [Cell.pos, Cell.data, hpos]
    have e4 : pt ((3 + 5) / 2) ((0 + 0) / 2) = pt 4 0 := by norm_num
    rw [e4, hz]
    refine ⟨hne _ _ (by norm_num), fun o ho => ?_⟩
    simp only [mem_cons, not_mem_nil, or_false] at ho
    rcases ho with rfl | rfl <;> exact hne _ _ (by norm_num)
  obtain ⟨cen, h⟩ := kmeans_plusplus_returns_partial A _ (euclidGeom_dominates 2) fp hm _ hd (by
    intro o ho
    simp only [mem_cons, not_mem_nil, or_false] at ho
    rw [hz]
    rcases ho with rfl | rfl <;> exact hne _ _ (by norm_num)) hgen _ hu (1 / 2) (by norm_num) 2 (by norm_num) (by simp)
  refine ⟨cen, h, fun e => ?_⟩
  have := (kmeans_plusplus_rows_partial A _ (euclidGeom_dominates 2) fp hm _ hd _ hu (1 / 2) (by norm_num) 2 (by norm_num) (by simp) cen h).2.1
    0 (by norm_num) 1 (by norm_num) e
  omega

end
end TreeCorr
