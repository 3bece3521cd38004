import Verif.Proofs.PatchCount3
import Verif.Proofs.Slop3
import Verif.Proofs.SasPlane

/-! Triangle counting in patches: the arrays of each job and the jobs left out. -/

namespace TreeCorr
open Classical
noncomputable section
variable {P : Type}

/-! ### Every call has cells with at least one row -/

/-- A cell as the tree builder makes it, whatever the weights. -/
def SumCell [PseudoMetricSpace P] (δ : ℝ) (c : Cell P) : Prop := c.Bounded δ ∧ c.SumsOK

theorem hered_sumCell [PseudoMetricSpace P] (δ : ℝ) : Hered (SumCell (P := P) δ) := (hered_bounded δ).and hered_sumsOK

/-- The three cells of a call have rows. -/
def HasRows (e : Emit3 P) : Prop := 0 < e.c1.n ∧ 0 < e.c2.n ∧ 0 < e.c3.n

theorem Cell.SumsOK.n_pos {c : Cell P} (h : c.SumsOK) : 0 < c.n := by
  rw [h.n_eq]
  have := List.length_pos_of_ne_nil h.ne_nil
  exact_mod_cast this

variable [PseudoMetricSpace P]

theorem ruv_rows3 (p : Prm3) {M : Metric3 P} (hM : M.Of) {δ : ℝ} : Safe3 (binRUV p M) M (SumCell δ) HasRows where
  leaf12 := by
    intro O c1 c2 q1 q2 hs
    refine lt_of_le_of_ne q2.1.size_nonneg fun h0 => hs ?_
    simp [skip12, binRUV, ← h0]
  split := by
    intro O c1 c2 c3 f1 f2 f3 q1 q2 q3 h
    obtain ⟨a, b, c, d⟩ := ruvSplit_some (by rw [hM.distSq]; positivity) q1.1.size_nonneg q2.1.size_nonneg (ruvAct_split h)
    exact splitCells_isSome a b c d
  direct := by
    intro O c1 c2 c3 e q1 q2 q3 _ h
    obtain ⟨_, _, i, v, _, rfl⟩ := ruvAct_direct h
    exact ⟨⟨rfl, rfl, rfl⟩, q1.2.n_pos, q2.2.n_pos, q3.2.n_pos⟩

theorem sas_rows3 (p : Prm3) (M : Metric3 P) {δ : ℝ} : Safe3 (binSAS p M) M (SumCell δ) HasRows where
  leaf12 := by
    intro O c1 c2 q1 q2 hs
    refine lt_of_le_of_ne q2.1.size_nonneg fun h0 => hs ?_
    simp [skip12, binSAS, ← h0]
  split := by
    intro O c1 c2 c3 f1 f2 f3 q1 q2 q3 h
    obtain ⟨a, b, c, d⟩ := sasSplit_some q2.1.size_nonneg q3.1.size_nonneg (sasAct_split h)
    exact splitCells_isSome a b c d
  direct := by
    intro O c1 c2 c3 e q1 q2 q3 _ h
    obtain ⟨-, _, i, _, rfl⟩ := sasAct_direct h
    exact ⟨⟨rfl, rfl, rfl⟩, q1.2.n_pos, q2.2.n_pos, q3.2.n_pos⟩

theorem exists_emits (sort : Bool) (O : Ord3) : ∃ Oe, Emits sort O Oe := by
  cases sort
  · cases O
    · exact ⟨.first, Or.inl ⟨rfl, rfl⟩⟩
    · exact ⟨.first, Or.inr ⟨rfl, by simp⟩⟩
    · exact ⟨.fixed, Or.inr ⟨rfl, by simp⟩⟩
  · exact ⟨O, rfl⟩

section
variable {d : ℕ} {A : StdAlg (EuclideanSpace ℝ (Fin d))} {g : Geom (EuclideanSpace ℝ (Fin d))} {fp : FieldParams}
  {B : Bin3 (EuclideanSpace ℝ (Fin d))} {M : Metric3 (EuclideanSpace ℝ (Fin d))} {prm : Prm3}
  {same : List (Obj (EuclideanSpace ℝ (Fin d))) → List (Obj (EuclideanSpace ℝ (Fin d))) → Prop} {nn : Bool}

/-- The arrays after each job have no negative counts and nothing in the bins without triangles, whatever the weights and the slop. -/
theorem triKit_good (hg : g.Dominates) (hf : 0 ≤ fp.minsize) (hx : Safe3 B M (SumCell fp.minsize) HasRows) (h23 : B.swap23 = true)
    (hm : 0 < prm.minsep) : (triKit A g fp B M prm same nn).Good Acc3.Good where
  zero := Acc3.Good.zero
  add := Acc3.Good.add
  eq_zero := fun h => h.eq_zero
  nz_zero := by
    rintro ⟨k, h⟩
    exact h rfl
  auto := by
    intro l
    obtain ⟨Oe, hO⟩ := exists_emits B.sort .any
    obtain ⟨es, e, he⟩ := processAuto3_most hx h23 (hered_sumCell _) hO hm _ (buildField_bounded A g hg fp hf l)
    show (runAcc3 (processAuto3 B M prm.minsep (buildField A g fp l).cells)).Good
    rw [e]
    exact accumulate3_good es he.2
  cross12 := by
    intro o l1 l2
    obtain ⟨Oe, hO⟩ := exists_emits B.sort (ord12 o)
    obtain ⟨es, e, he⟩ := processCross12_most hx h23 (hered_sumCell _) (ord12 o) hO _ _ (buildField_bounded A g hg fp hf l1)
      (buildField_bounded A g hg fp hf l2)
    show (runAcc3 (processCross12 B M (ord12 o) (buildField A g fp l1).cells (buildField A g fp l2).cells)).Good
    rw [e]
    exact accumulate3_good es he.2
  cross := by
    intro O l1 l2 l3
    obtain ⟨Oe, hO⟩ := exists_emits B.sort O
    obtain ⟨es, e, he⟩ := processCross123_most hx h23 (hered_sumCell _) O hO _ _ _ (buildField_bounded A g hg fp hf l1)
      (buildField_bounded A g hg fp hf l2) (buildField_bounded A g hg fp hf l3)
    show (runAcc3 (processCross123 B M O (buildField A g fp l1).cells (buildField A g fp l2).cells (buildField A g fp l3).cells)).Good
    rw [e]
    exact accumulate3_good es he.2

/-! ### The jobs left out have no triangles in range -/

theorem middle_le {a b c m : ℝ} (ha : a ≤ m) (hb : b ≤ m) (hc : c ≤ m) : middle a b c ≤ m := by
  unfold middle
  exact max_le (min_le_of_left_le ha) (min_le_of_right_le hc)

theorem centers_near {l1 l2 : List (Obj (EuclideanSpace ℝ (Fin d)))} {a b : Obj (EuclideanSpace ℝ (Fin d))} (ha : a ∈ l1) (hb : b ∈ l2) :
    dist (centerSize l1).1 (centerSize l2).1 ≤ (centerSize l1).2 + (centerSize l2).2 + dist a.pos b.pos := by
  have h1 := centerSize_le l1 a ha
  have h2 := centerSize_le l2 b hb
  have := dist_triangle4 (centerSize l1).1 a.pos b.pos (centerSize l2).1
  rw [dist_comm _ a.pos] at this
  linarith

theorem centerSize_nonneg (l : List (Obj (EuclideanSpace ℝ (Fin d)))) : 0 ≤ (centerSize l).2 := Real.sqrt_nonneg _

theorem trivZero3_sound {maxsep : ℝ} {l1 l2 l3 : List (Obj (EuclideanSpace ℝ (Fin d)))} (h : trivZero3 maxsep l1 l2 l3)
    {a b c : Obj (EuclideanSpace ℝ (Fin d))} (ha : a ∈ l1) (hb : b ∈ l2) (hc : c ∈ l3) (h1 : dist b.pos c.pos ≤ 2 * maxsep)
    (h2 : dist c.pos a.pos ≤ 2 * maxsep) (h3 : dist a.pos b.pos ≤ 2 * maxsep) : False := by
  have e1 := centers_near hb hc
  have e2 := centers_near hc ha
  have e3 := centers_near ha hb
  have s1 := centerSize_nonneg l1
  have s2 := centerSize_nonneg l2
  have s3 := centerSize_nonneg l3
  refine absurd h (not_lt.2 (middle_le ?_ ?_ ?_)) <;> linarith

/-- Triangles in range have all sides at most twice the maximum separation. -/
def SidesLe (t : Obj P × Obj P × Obj P) (r : ℝ) : Prop := side1 t ≤ r ∧ side2 t ≤ r ∧ side3 t ≤ r

theorem sidesLe_orders {O : Ord3} {a b c : Obj P} {q : Obj P × Obj P × Obj P} (h : q ∈ O.orders (a, b, c)) {r : ℝ} (hr : SidesLe q r) :
    dist b.pos c.pos ≤ r ∧ dist c.pos a.pos ≤ r ∧ dist a.pos b.pos ≤ r := by
  obtain ⟨h1, h2, h3⟩ := hr
  cases O <;> simp only [Ord3.orders, orders6, orders2, Multiset.mem_add, Multiset.mem_singleton] at h
  · rcases h with ((((rfl | rfl) | rfl) | rfl) | rfl) | rfl <;> simp only [side1, side2, side3] at h1 h2 h3 <;>
      refine ⟨?_, ?_, ?_⟩ <;> first | assumption | (rw [dist_comm]; assumption)
  · rcases h with rfl | rfl <;> simp only [side1, side2, side3] at h1 h2 h3 <;>
      refine ⟨?_, ?_, ?_⟩ <;> first | assumption | (rw [dist_comm]; assumption)
  · subst h
    simp only [side1, side2, side3] at h1 h2 h3
    refine ⟨?_, ?_, ?_⟩ <;> first | assumption | (rw [dist_comm]; assumption)

theorem triv_from111 {maxsep : ℝ} {l1 l2 l3 : List (Obj (EuclideanSpace ℝ (Fin d)))} (h : trivZero3 maxsep l1 l2 l3) {O : Ord3}
    {q : Obj (EuclideanSpace ℝ (Fin d)) × Obj _ × Obj _} (hq : q ∈ from111 O l1 l2 l3) : ¬ SidesLe q (2 * maxsep) := by
  intro hs
  obtain ⟨a, ha, b, hb, c, hc, ho⟩ := mem_from111.1 hq
  obtain ⟨x, y, z⟩ := sidesLe_orders ho hs
  exact trivZero3_sound h ha hb hc x y z

theorem triv_from12 {maxsep : ℝ} {l1 l2 : List (Obj (EuclideanSpace ℝ (Fin d)))} (h : trivZero3 maxsep l1 l2 l2) {O : Ord3}
    {q : Obj (EuclideanSpace ℝ (Fin d)) × Obj _ × Obj _} (hq : q ∈ from12 O l1 l2) : ¬ SidesLe q (2 * maxsep) := by
  intro hs
  obtain ⟨a, ha, b, hb, c, hc, ho⟩ := mem_from12 hq
  obtain ⟨x, y, z⟩ := sidesLe_orders ho hs
  exact trivZero3_sound h ha hb hc x y z

theorem logBin_lt_max {minsep binsize maxsep : ℝ} {nbins k : ℤ} {x : ℝ} (hm : 0 < minsep) (hb : 0 < binsize)
    (hmax : maxsep = minsep * Real.exp (nbins * binsize)) (h : InLogBin minsep binsize nbins k x) : x < maxsep := by
  refine lt_of_lt_of_le h.2.2.2 ?_
  rw [hmax]
  unfold logEdge
  have : ((k : ℝ) + 1) ≤ nbins := by exact_mod_cast h.2.1
  push_cast
  gcongr

theorem inRuv_sides {p : Prm3} (hp : RuvParams p) {ccw : P → P → P → Prop} {k : ℤ} {t : Obj P × Obj P × Obj P} (h : inRuv p ccw k t) :
    SidesLe t (2 * p.maxsep) := by
  obtain ⟨kr, ku, kv, ⟨_, h32, h3, hr, _⟩, _⟩ := h
  have h2 := logBin_lt_max hp.minsep hp.binsize hp.maxsep hr
  have t1 : side1 t ≤ side3 t + side2 t := by
    have := dist_triangle t.2.1.pos t.1.pos t.2.2.pos
    rwa [dist_comm t.2.1.pos t.1.pos] at this
  refine ⟨?_, ?_, ?_⟩ <;> linarith

theorem inSas_sides {p : Prm3} (hp : SasParams p) {ccw : P → P → P → Prop} {k : ℤ} {t : Obj P × Obj P × Obj P} (h : inSas p ccw k t) :
    SidesLe t (2 * p.maxsep) := by
  obtain ⟨k2, k3, kphi, ⟨h2, h3, _⟩, _⟩ := h
  have b2 := logBin_lt_max hp.minsep hp.binsize hp.maxsep h2
  have b3 := logBin_lt_max hp.minsep hp.binsize hp.maxsep h3
  have p2 := h2.pos hp.minsep
  have p3 := h3.pos hp.minsep
  have t1 : side1 t ≤ side3 t + side2 t := by
    have := dist_triangle t.2.1.pos t.1.pos t.2.2.pos
    rwa [dist_comm t.2.1.pos t.1.pos] at this
  refine ⟨?_, ?_, ?_⟩ <;> linarith

/-! ### Each job -/

variable {Gc : Ord3 → Obj (EuclideanSpace ℝ (Fin d)) × Obj (EuclideanSpace ℝ (Fin d)) × Obj (EuclideanSpace ℝ (Fin d)) → Prop}
  {inBin : ℤ → Obj (EuclideanSpace ℝ (Fin d)) × Obj (EuclideanSpace ℝ (Fin d)) × Obj (EuclideanSpace ℝ (Fin d)) → Prop}
  {fu fv : Obj (EuclideanSpace ℝ (Fin d)) × Obj (EuclideanSpace ℝ (Fin d)) × Obj (EuclideanSpace ℝ (Fin d)) → ℝ}

theorem mem_list_sum {α ι : Type} {l : List ι} {f : ι → Multiset α} {c : ι} (hc : c ∈ l) {q : α} (hq : q ∈ f c) : q ∈ (l.map f).sum := by
  induction l with
  | nil => simp at hc
  | cons a t ih =>
    rw [List.map_cons, List.sum_cons, Multiset.mem_add]
    rcases List.mem_cons.1 hc with rfl | h
    · exact Or.inl hq
    · exact Or.inr (ih h)

theorem tri_auto_job (hx : Exact3 B M prm.minsep (ValidCell 0) Gc inBin Weightless (Call3 fu fv)) (hm : 0 < prm.minsep)
    (hg : g.Dominates) (hf : fp.minsize = 0) {l : List (Obj (EuclideanSpace ℝ (Fin d)))} (hw : ∀ o ∈ l, o.Valid)
    (hG : ∀ q ∈ orderedTriples l, Gc .any q) (k : ℤ) :
    ((triKit A g fp B M prm same nn).auto l).Holds k ((orderedTriples l).filter (inBin k)) fu fv := by
  have hv := buildField_valid A g hg fp hf.ge l hw
  rw [hf] at hv
  have hperm := orderedTriples_perm (buildField_objs A g fp l)
  obtain ⟨es, h, he⟩ := processAuto3_ex hx (hered_valid 0) hm _ hv (by rw [hperm]; exact hG)
  rw [hperm] at he
  show (runAcc3 (processAuto3 B M prm.minsep (buildField A g fp l).cells)).Holds _ _ _ _
  rw [h]
  exact holds_of_ex3 he k

theorem tri_cross12_job (hx : Exact3 B M prm.minsep (ValidCell 0) Gc inBin Weightless (Call3 fu fv))
    (hr : ∀ k t, inBin k t → SidesLe t (2 * prm.maxsep)) (hg : g.Dominates) (hf : fp.minsize = 0) (o : Bool)
    {l1 l2 : List (Obj (EuclideanSpace ℝ (Fin d)))} (hw1 : ∀ o ∈ l1, o.Valid) (hw2 : ∀ o ∈ l2, o.Valid)
    (hG : ∀ q ∈ from12 (ord12 o) l1 l2, Gc (ord12 o) q) (k : ℤ) :
    (if (triKit A g fp B M prm same nn).triv l1 l2 l2 then 0 else (triKit A g fp B M prm same nn).cross12 o l1 l2).Holds k
      ((from12 (ord12 o) l1 l2).filter (inBin k)) fu fv := by
  split
  · rename_i ht
    exact holds_zero fun t hq hb => triv_from12 ht hq (hr k t hb)
  · have h1 := buildField_valid A g hg fp hf.ge l1 hw1
    have h2 := buildField_valid A g hg fp hf.ge l2 hw2
    rw [hf] at h1 h2
    have hO : ord12 o ≠ .fixed := by cases o <;> simp [ord12]
    have e := from12_perm hO (buildField_objs A g fp l1) (buildField_objs A g fp l2)
    obtain ⟨es, h, he⟩ := processCross12_ex hx (hered_valid 0) (ord12 o) hO _ _ h1 h2 (by rw [e]; exact hG)
    rw [e] at he
    show (runAcc3 (processCross12 B M (ord12 o) (buildField A g fp l1).cells (buildField A g fp l2).cells)).Holds _ _ _ _
    rw [h]
    exact holds_of_ex3 he k

theorem tri_cross_job (hx : Exact3 B M prm.minsep (ValidCell 0) Gc inBin Weightless (Call3 fu fv))
    (hr : ∀ k t, inBin k t → SidesLe t (2 * prm.maxsep)) (hg : g.Dominates) (hf : fp.minsize = 0) (O : Ord3)
    {l1 l2 l3 : List (Obj (EuclideanSpace ℝ (Fin d)))} (hw1 : ∀ o ∈ l1, o.Valid) (hw2 : ∀ o ∈ l2, o.Valid) (hw3 : ∀ o ∈ l3, o.Valid)
    (hG : ∀ q ∈ from111 O l1 l2 l3, Gc O q) (k : ℤ) :
    (if (triKit A g fp B M prm same nn).triv l1 l2 l3 then 0 else (triKit A g fp B M prm same nn).cross O l1 l2 l3).Holds k
      ((from111 O l1 l2 l3).filter (inBin k)) fu fv := by
  split
  · rename_i ht
    exact holds_zero fun t hq hb => triv_from111 ht hq (hr k t hb)
  · have h1 := buildField_valid A g hg fp hf.ge l1 hw1
    have h2 := buildField_valid A g hg fp hf.ge l2 hw2
    have h3 := buildField_valid A g hg fp hf.ge l3 hw3
    rw [hf] at h1 h2 h3
    have e := from111_perm_list (O := O) (buildField_objs A g fp l1) (buildField_objs A g fp l2) (buildField_objs A g fp l3)
    obtain ⟨es, h, he⟩ := processCross123_ex hx (hered_valid 0) O _ _ _ h1 h2 h3 (by rw [e]; exact hG)
    rw [e] at he
    show (runAcc3 (processCross123 B M O (buildField A g fp l1).cells (buildField A g fp l2).cells
      (buildField A g fp l3).cells)).Holds _ _ _ _
    rw [h]
    exact holds_of_ex3 he k

/-! ### All jobs -/

theorem patched_auto_holds (hx : Exact3 B M prm.minsep (ValidCell 0) Gc inBin Weightless (Call3 fu fv))
    (hs : Safe3 B M (SumCell fp.minsize) HasRows) (h23 : B.swap23 = true) (hm : 0 < prm.minsep)
    (hr : ∀ k t, inBin k t → SidesLe t (2 * prm.maxsep)) (hg : g.Dominates) (hf : fp.minsize = 0)
    {cats : List (ℕ × List (Obj (EuclideanSpace ℝ (Fin d))))} (hid : (cats.map Prod.fst).Nodup)
    (hw : ∀ c ∈ cats, ∀ o ∈ c.2, o.Valid) (hG : ∀ q ∈ orderedTriples (cats.flatMap Prod.snd), Gc .any q) (S : TriCorr Acc3) (k : ℤ) :
    ((triKit A g fp B M prm same nn).processAuto true cats S).self.acc.Holds k
      ((orderedTriples (cats.flatMap Prod.snd)).filter (inBin k)) fu fv := by
  rw [orderedTriples_flatMap _ hid] at hG
  unfold rows3 at hG
  refine patched_auto_rel (triKit_good hg hf.ge hs h23 hm) (holds_addRel (inBin k) k fu fv) hid S ?_ ?_ ?_
  · intro c hc
    refine tri_auto_job hx hm hg hf (hw c hc) (fun q hq => hG q (mem_list_sum hc ?_)) k
    exact Multiset.mem_add.2 (Or.inl hq)
  · intro c1 h1 c2 h2 hne
    refine tri_cross12_job hx hr hg hf false (hw c1 h1) (hw c2 h2) (fun q hq => ?_) k
    rcases lt_or_gt_of_ne hne with h | h
    · refine hG q (mem_list_sum h1 (Multiset.mem_add.2 (Or.inr (mem_list_sum (List.mem_filter.2 ⟨h2, by simpa using h⟩) ?_))))
      exact Multiset.mem_add.2 (Or.inl (Multiset.mem_add.2 (Or.inl hq)))
    · refine hG q (mem_list_sum h2 (Multiset.mem_add.2 (Or.inr (mem_list_sum (List.mem_filter.2 ⟨h1, by simpa using h⟩) ?_))))
      exact Multiset.mem_add.2 (Or.inl (Multiset.mem_add.2 (Or.inr hq)))
  · intro c1 h1 c2 h2 c3 h3 h12 h23'
    refine tri_cross_job hx hr hg hf .any (hw c1 h1) (hw c2 h2) (hw c3 h3) (fun q hq => ?_) k
    refine hG q (mem_list_sum h1 (Multiset.mem_add.2 (Or.inr (mem_list_sum (List.mem_filter.2 ⟨h2, by simpa using h12⟩) ?_))))
    exact Multiset.mem_add.2 (Or.inr (mem_list_sum (List.mem_filter.2 ⟨h3, by simpa using h23'⟩) hq))

theorem patched_cross12_holds (hx : Exact3 B M prm.minsep (ValidCell 0) Gc inBin Weightless (Call3 fu fv))
    (hs : Safe3 B M (SumCell fp.minsize) HasRows) (h23 : B.swap23 = true) (hm : 0 < prm.minsep)
    (hr : ∀ k t, inBin k t → SidesLe t (2 * prm.maxsep)) (hg : g.Dominates) (hf : fp.minsize = 0) (o : Bool)
    {cats1 cats2 : List (ℕ × List (Obj (EuclideanSpace ℝ (Fin d))))} (hid1 : (cats1.map Prod.fst).Nodup)
    (hid2 : (cats2.map Prod.fst).Nodup) (hw1 : ∀ c ∈ cats1, ∀ o ∈ c.2, o.Valid) (hw2 : ∀ c ∈ cats2, ∀ o ∈ c.2, o.Valid)
    (hG : ∀ q ∈ from12 (ord12 o) (cats1.flatMap Prod.snd) (cats2.flatMap Prod.snd), Gc (ord12 o) q) (S : TriCorr Acc3) (k : ℤ) :
    ((triKit A g fp B M prm same nn).processCross12 true o cats1 cats2 S).self.acc.Holds k
      ((from12 (ord12 o) (cats1.flatMap Prod.snd) (cats2.flatMap Prod.snd)).filter (inBin k)) fu fv := by
  have hO : ord12 o ≠ .fixed := by cases o <;> simp [ord12]
  rw [from12_flatMap1] at hG
  have hG' : ∀ c1 ∈ cats1, ∀ q ∈ (cats2.map fun c2 => from12 (ord12 o) c1.2 c2.2 +
      ((cats2.filter fun c3 => c2.1 < c3.1).map fun c3 => from111 (ord12 o) c1.2 c2.2 c3.2).sum).sum, Gc (ord12 o) q := by
    intro c1 h1 q hq
    refine hG q (mem_list_sum h1 ?_)
    rwa [from12_flatMap2 hO _ _ hid2]
  refine patched_cross12_rel (triKit_good hg hf.ge hs h23 hm) (holds_addRel (inBin k) k fu fv) o hid1 hid2 S ?_ ?_
  · intro c1 h1 c2 h2
    refine tri_cross12_job hx hr hg hf o (hw1 c1 h1) (hw2 c2 h2) (fun q hq => hG' c1 h1 q (mem_list_sum h2 ?_)) k
    exact Multiset.mem_add.2 (Or.inl hq)
  · intro c1 h1 c2 h2 c3 h3 h
    refine tri_cross_job hx hr hg hf (ord12 o) (hw1 c1 h1) (hw2 c2 h2) (hw2 c3 h3) (fun q hq => hG' c1 h1 q (mem_list_sum h2 ?_)) k
    exact Multiset.mem_add.2 (Or.inr (mem_list_sum (List.mem_filter.2 ⟨h3, by simpa using h⟩) hq))

theorem patched_cross_holds (hx : Exact3 B M prm.minsep (ValidCell 0) Gc inBin Weightless (Call3 fu fv))
    (hs : Safe3 B M (SumCell fp.minsize) HasRows) (h23 : B.swap23 = true) (hm : 0 < prm.minsep)
    (hr : ∀ k t, inBin k t → SidesLe t (2 * prm.maxsep)) (hg : g.Dominates) (hf : fp.minsize = 0) (o : Bool)
    {cats1 cats2 cats3 : List (ℕ × List (Obj (EuclideanSpace ℝ (Fin d))))} (hid1 : (cats1.map Prod.fst).Nodup)
    (hid2 : (cats2.map Prod.fst).Nodup) (hid3 : (cats3.map Prod.fst).Nodup) (hw1 : ∀ c ∈ cats1, ∀ o ∈ c.2, o.Valid)
    (hw2 : ∀ c ∈ cats2, ∀ o ∈ c.2, o.Valid) (hw3 : ∀ c ∈ cats3, ∀ o ∈ c.2, o.Valid)
    (hG : ∀ q ∈ from111 (ord123 o) (cats1.flatMap Prod.snd) (cats2.flatMap Prod.snd) (cats3.flatMap Prod.snd), Gc (ord123 o) q)
    (S : TriCorr Acc3) (k : ℤ) :
    ((triKit A g fp B M prm same nn).processCross true o cats1 cats2 cats3 S).self.acc.Holds k
      ((from111 (ord123 o) (cats1.flatMap Prod.snd) (cats2.flatMap Prod.snd) (cats3.flatMap Prod.snd)).filter (inBin k)) fu fv := by
  refine patched_cross_rel (triKit_good hg hf.ge hs h23 hm) (holds_addRel (inBin k) k fu fv) o hid1 hid2 hid3 S ?_
  intro c1 h1 c2 h2 c3 h3
  refine tri_cross_job hx hr hg hf (ord123 o) (hw1 c1 h1) (hw2 c2 h2) (hw3 c3 h3) (fun q hq => hG q ?_) k
  rw [from111_flatMap1]
  refine mem_list_sum h1 ?_
  rw [from111_flatMap2]
  refine mem_list_sum h2 ?_
  rw [from111_flatMap3]
  exact mem_list_sum h3 hq

end
end
end TreeCorr
