import Verif.Proofs.Tree

/-! From exact decisions to exact sums, for any binning. -/

namespace TreeCorr
open Classical
variable {P : Type}

theorem sum_filter_map {α : Type} (s : Multiset α) (p : α → Prop) (f : α → ℝ) :
    ((s.filter p).map f).sum = (s.map (fun a => if p a then f a else 0)).sum := by
  induction s using Multiset.induction_on with
  | empty => simp
  | cons a s ih =>
    by_cases h : p a
    · simp [h, ih]
    · simp [h, ih]

theorem crossPairs_perm {α β : Type} {a a' : List α} {b b' : List β} (h1 : a.Perm a') (h2 : b.Perm b') :
    crossPairs a b = crossPairs a' b' := by
  unfold crossPairs
  rw [Multiset.coe_eq_coe.2 h1, Multiset.coe_eq_coe.2 h2]

/-- A symmetric quantity summed over the unordered pairs does not depend on the order of the rows. -/
theorem autoPairs_perm_sum {α : Type} {a b : List α} (h : a.Perm b) (F : α × α → ℝ)
    (hF : ∀ x y, F (x, y) = F (y, x)) : ((autoPairs a).map F).sum = ((autoPairs b).map F).sum := by
  induction h with
  | nil => rfl
  | cons x h ih =>
    simp only [autoPairs, Multiset.map_add, Multiset.sum_add, ih]
    congr 1
    simp only [Multiset.map_coe, Multiset.sum_coe, List.map_map]
    exact (h.map _).sum_eq
  | swap x y l =>
    simp only [autoPairs, Multiset.map_add, Multiset.sum_add, Multiset.map_coe, Multiset.sum_coe,
      List.map_map, List.map_cons, List.sum_cons]
    rw [hF y x]
    ring
  | trans _ _ ih1 ih2 => exact ih1.trans ih2

theorem autoPairs_filter_perm_sum {α : Type} {a b : List α} (h : a.Perm b) (p : α × α → Prop)
    (hp : ∀ x y, p (x, y) ↔ p (y, x)) (F : α × α → ℝ) (hF : ∀ x y, F (x, y) = F (y, x)) :
    (((autoPairs a).filter p).map F).sum = (((autoPairs b).filter p).map F).sum := by
  rw [sum_filter_map, sum_filter_map]
  apply autoPairs_perm_sum h
  intro x y
  by_cases hxy : p (x, y)
  · rw [if_pos hxy, if_pos ((hp x y).1 hxy), hF]
  · rw [if_neg hxy, if_neg (fun h => hxy ((hp x y).2 h))]

theorem card_eq_sum_one {α : Type} (s : Multiset α) :
    (Multiset.card s : ℝ) = (s.map (fun _ => (1 : ℝ))).sum := by
  simp

/-- The decisions for a binning scheme are exact with respect to `inBin`, up to pairs in `Z` that may be
dropped. -/
structure ExactDecide (act : Cell P → Cell P → Action P) (Q1 Q2 : Cell P → Prop)
    (inBin : ℤ → Obj P × Obj P → Prop) (Z : Obj P × Obj P → Prop) : Prop where
  honest : Honest act
  safe : SafeSplit act Q1 Q2
  dir : ∀ a b e, Q1 a → Q2 b → act a b = .direct e → ∀ q : Obj P × Obj P, q.1 ∈ a.objs →
      q.2 ∈ b.objs → ∀ k, (inBin k q ↔ e.k = k)
  drop : ∀ a b, Q1 a → Q2 b → act a b = .drop → ∀ q : Obj P × Obj P, q.1 ∈ a.objs →
      q.2 ∈ b.objs → ∀ k, inBin k q → Z q

/-- As `Covers.exact` for the auto-correlation. -/
theorem CoversAuto.exact {act : Cell P → Cell P → Action P} {prm : Params} {Q : Cell P → Prop}
    {all : Multiset (Obj P × Obj P)} {es : List (Emit P)} {inBin : ℤ → Obj P × Obj P → Prop}
    {Z : Obj P × Obj P → Prop} (hx : ExactDecide act Q Q inBin Z) (h : CoversAuto act prm Q all es)
    (hsmall : ∀ c, Q c → (c.w = 0 ∨ c.size ≤ 0.5 * prm.minsep) → ∀ q : Obj P × Obj P,
      q ∈ all → q.1 ∈ c.objs → q.2 ∈ c.objs → ∀ k, inBin k q → Z q) (k : ℤ) :
    ∃ D, pairsAt es k + D = all.filter (inBin k) ∧ ∀ q ∈ D, Z q := by
  obtain ⟨D, D2, hD, he, hd, hd2⟩ := h
  refine ⟨D.filter (inBin k) + D2.filter (inBin k), ?_, ?_⟩
  · rw [pairsAt_eq_filter es k inBin, ← hD, Multiset.filter_add, Multiset.filter_add, add_assoc]
    intro e hmem q h1 h2
    obtain ⟨a, b, qa, qb, hab⟩ := he e hmem
    obtain ⟨e1, e2⟩ := hx.honest a b e hab
    rw [e1] at h1
    rw [e2] at h2
    exact hx.dir a b e qa qb hab q h1 h2 k
  · intro q hq
    rcases Multiset.mem_add.1 hq with hq | hq
    · rw [Multiset.mem_filter] at hq
      obtain ⟨a, b, qa, qb, hab, h1, h2⟩ := hd q hq.1
      exact hx.drop a b qa qb hab q h1 h2 k hq.2
    · rw [Multiset.mem_filter] at hq
      obtain ⟨c, qc, hc, h1, h2⟩ := hd2 q hq.1
      exact hsmall c qc hc q (by rw [← hD]; exact Multiset.mem_add.2 (Or.inr hq.1)) h1 h2 k hq.2

theorem Covers.exact {act : Cell P → Cell P → Action P} {Q1 Q2 : Cell P → Prop}
    {all : Multiset (Obj P × Obj P)} {es : List (Emit P)} {inBin : ℤ → Obj P × Obj P → Prop}
    {Z : Obj P × Obj P → Prop} (hx : ExactDecide act Q1 Q2 inBin Z) (h : Covers act Q1 Q2 all es)
    (k : ℤ) : ∃ D, pairsAt es k + D = all.filter (inBin k) ∧ ∀ q ∈ D, Z q := by
  obtain ⟨D, hD, he, hd⟩ := h
  refine ⟨D.filter (inBin k), ?_, ?_⟩
  · rw [pairsAt_eq_filter es k inBin, ← hD, Multiset.filter_add]
    intro e hmem q h1 h2
    obtain ⟨a, b, qa, qb, hab⟩ := he e hmem
    obtain ⟨e1, e2⟩ := hx.honest a b e hab
    rw [e1] at h1
    rw [e2] at h2
    exact hx.dir a b e qa qb hab q h1 h2 k
  · intro q hq
    rw [Multiset.mem_filter] at hq
    obtain ⟨a, b, qa, qb, hab, h1, h2⟩ := hd q hq.1
    exact hx.drop a b qa qb hab q h1 h2 k hq.2

/-- Dropping pairs on which `F` vanishes does not change the sum of `F`. -/
theorem sum_add_zero_of {α : Type} {S D T : Multiset α} (h : S + D = T) (F : α → ℝ)
    (hF : ∀ q ∈ D, F q = 0) : (S.map F).sum = (T.map F).sum := by
  rw [← h, Multiset.map_add, Multiset.sum_add, Multiset.map_congr rfl hF]
  simp

theorem crossLoop_exact {act : Cell P → Cell P → Action P} {Q1 Q2 : Cell P → Prop}
    {inBin : ℤ → Obj P × Obj P → Prop} {Z : Obj P × Obj P → Prop}
    (hx : ExactDecide act Q1 Q2 inBin Z) (hQ1 : Hered Q1)
    (hQ2 : Hered Q2) {cs1 cs2 : List (Cell P)}
    (h1 : ∀ c ∈ cs1, Q1 c) (h2 : ∀ c ∈ cs2, Q2 c) :
    ∃ es, processCrossLoop act cs1 cs2 = some es ∧
      Covers act Q1 Q2 (crossPairs (objsOf cs1) (objsOf cs2)) es ∧
      ∀ k, ∃ D, pairsAt es k + D = (crossPairs (objsOf cs1) (objsOf cs2)).filter (inBin k) ∧
        ∀ q ∈ D, Z q := by
  obtain ⟨es, hes⟩ := crossLoop_total act Q1 Q2 hQ1 hQ2 hx.safe cs1 cs2 h1 h2
  have hc := crossLoop_covers act hx.honest Q1 Q2 hQ1 hQ2 cs1 cs2 h1 h2 es hes
  exact ⟨es, hes, hc, fun k => hc.exact hx k⟩

theorem CoversAuto.sumsOK {act : Cell P → Cell P → Action P} {prm : Params} {Q : Cell P → Prop}
    {all : Multiset (Obj P × Obj P)} {es : List (Emit P)} (hact : Honest act)
    (h : CoversAuto act prm Q all es) (h1 : ∀ c, Q c → c.SumsOK) :
    ∀ e ∈ es, e.c1.SumsOK ∧ e.c2.SumsOK := by
  obtain ⟨D, D2, hD, he, hd⟩ := h
  intro e hmem
  obtain ⟨a, b, qa, qb, hab⟩ := he e hmem
  obtain ⟨e1, e2⟩ := hact a b e hab
  rw [e1, e2]
  exact ⟨h1 a qa, h1 b qb⟩

theorem CoversAuto.k2_none {B : BinHelper P} {M : MetricHelper P} {prm : Params} {Q : Cell P → Prop}
    {all : Multiset (Obj P × Obj P)} {es : List (Emit P)}
    (h : CoversAuto (decide11 B M prm false) prm Q all es) : ∀ e ∈ es, e.k2 = none := by
  obtain ⟨D, D2, hD, he, hd⟩ := h
  intro e hmem
  obtain ⟨a, b, qa, qb, hab⟩ := he e hmem
  exact decide11_k2_none B M prm hab

theorem processAuto_exact {act : Cell P → Cell P → Action P} {prm : Params} {Q : Cell P → Prop}
    {inBin : ℤ → Obj P × Obj P → Prop} {Z : Obj P × Obj P → Prop}
    (hx : ExactDecide act Q Q inBin Z) (hQ : Hered Q)
    (hm : 0 ≤ prm.minsep) {cs : List (Cell P)} (h1 : ∀ c ∈ cs, Q c)
    (hsmall : ∀ c, Q c → (c.w = 0 ∨ c.size ≤ 0.5 * prm.minsep) → ∀ q : Obj P × Obj P,
      q ∈ autoPairs (objsOf cs) → q.1 ∈ c.objs → q.2 ∈ c.objs → ∀ k, inBin k q → Z q) :
    ∃ es, processAuto act prm cs = some es ∧ CoversAuto act prm Q (autoPairs (objsOf cs)) es ∧
      ∀ k, ∃ D, pairsAt es k + D = (autoPairs (objsOf cs)).filter (inBin k) ∧ ∀ q ∈ D, Z q := by
  obtain ⟨es, hes⟩ := processAuto_total act prm hm Q hQ hx.safe cs h1
  have hc := processAuto_covers act hx.honest prm Q hQ cs h1 es hes
  exact ⟨es, hes, hc, fun k => hc.exact hx hsmall k⟩

/-- One of the two objects has weight zero (and weighted value zero). -/
def ZeroPair (q : Obj P × Obj P) : Prop := (q.1.w = 0 ∧ q.1.wk = 0) ∨ (q.2.w = 0 ∧ q.2.wk = 0)

theorem ZeroPair.w {q : Obj P × Obj P} (h : ZeroPair q) : q.1.w * q.2.w = 0 := by
  rcases h with h | h <;> simp [h]
theorem ZeroPair.nk {q : Obj P × Obj P} (h : ZeroPair q) : q.1.w * q.2.wk = 0 := by
  rcases h with h | h <;> simp [h]
theorem ZeroPair.kk {q : Obj P × Obj P} (h : ZeroPair q) : q.1.wk * q.2.wk = 0 := by
  rcases h with h | h <;> simp [h]

/-- Sums for a run that covers the pairs `all` of a bin up to zero-weight pairs. -/
theorem sums_of_exact {es : List (Emit P)} (hk2 : ∀ e ∈ es, e.k2 = none)
    (hs : ∀ e ∈ es, e.c1.SumsOK ∧ e.c2.SumsOK) {k : ℤ} {D all : Multiset (Obj P × Obj P)}
    (h : pairsAt es k + D = all) (hD : ∀ q ∈ D, ZeroPair q) :
    (accumulate Acc.zero es).weight k = bruteW all ∧
    (accumulate Acc.zero es).nk k = bruteNK all ∧
    (accumulate Acc.zero es).kk k = bruteKK all ∧
    ((∀ q ∈ all, ¬ ZeroPair q) → (accumulate Acc.zero es).npairs k = bruteN all) := by
  obtain ⟨e1, e2, e3, e4⟩ := accumulate_eq Acc.zero es hk2 hs k
  rw [e1, e2, e3, e4]
  simp only [Acc.zero, zero_add]
  refine ⟨sum_add_zero_of h _ (fun q hq => (hD q hq).w), sum_add_zero_of h _ (fun q hq => (hD q hq).nk),
    sum_add_zero_of h _ (fun q hq => (hD q hq).kk), ?_⟩
  intro hz
  have : D = 0 := Multiset.eq_zero_of_forall_notMem (fun q hq => hz q
    (by rw [← h]; exact Multiset.mem_add.2 (Or.inr hq)) (hD q hq))
  rw [← h, this, add_zero]

theorem buildField_valid [PseudoMetricSpace P] (A : StdAlg P) (g : Geom P) (hg : g.Dominates)
    (fp : FieldParams) (hm : 0 ≤ fp.minsize) (l : List (Obj P)) (hw : ∀ o ∈ l, o.Valid) :
    ∀ c ∈ (buildField A g fp l).cells, ValidCell fp.minsize c := by
  intro c hc
  refine ⟨buildField_bounded A g hg fp hm l c hc, ?_⟩
  intro o ho
  apply hw
  rw [← (buildField_objs A g fp l).mem_iff]
  exact List.mem_flatMap.2 ⟨c, hc, ho⟩

/-- A cell built from some of the objects `l`. -/
def CellOf [PseudoMetricSpace P] (l : List (Obj P)) (c : Cell P) : Prop :=
  ValidCell 0 c ∧ ∀ o ∈ c.objs, o ∈ l

theorem hered_cellOf [PseudoMetricSpace P] (l : List (Obj P)) : Hered (CellOf l) := by
  apply (hered_valid 0).and
  intro d s l r h
  exact ⟨fun o ho => h o (by simp [Cell.objs, ho]), fun o ho => h o (by simp [Cell.objs, ho])⟩

theorem buildField_cellOf [PseudoMetricSpace P] (A : StdAlg P) (g : Geom P) (hg : g.Dominates)
    (fp : FieldParams) (hm : fp.minsize = 0) (l : List (Obj P)) (hw : ∀ o ∈ l, o.Valid) :
    ∀ c ∈ (buildField A g fp l).cells, CellOf l c := by
  intro c hc
  have := buildField_valid A g hg fp hm.ge l hw c hc
  rw [hm] at this
  refine ⟨this, ?_⟩
  intro o ho
  rw [← (buildField_objs A g fp l).mem_iff]
  exact List.mem_flatMap.2 ⟨c, hc, ho⟩

/-- A binning by separation that is decided exactly for the objects `l1` and `l2`. -/
structure BinExact [PseudoMetricSpace P] (B : BinHelper P) (p : Params) (inBin : ℤ → ℝ → Prop)
    (l1 l2 : List (Obj P)) : Prop where
  dec : ExactDecide (decide11 B (plainMetric P) p false) (CellOf l1) (CellOf l2)
    (fun k q => inBin k (dist q.1.pos q.2.pos)) ZeroPair
  far : ∀ f1 f2 : Field P, fieldsTooFar B (plainMetric P) p f1 f2 → ∀ x y : P,
    dist x f1.center ≤ f1.size → dist y f2.center ≤ f2.size → ∀ k, ¬ inBin k (dist x y)
  min : ∀ k d, inBin k d → p.minsep ≤ d
  minsep : 0 ≤ p.minsep

theorem not_zeroPair {q : Obj P × Obj P} (h1 : 0 < q.1.w) (h2 : 0 < q.2.w) : ¬ ZeroPair q := by
  rintro (h | h)
  · exact h1.ne' h.1
  · exact h2.ne' h.1

theorem cross_exact_of [PseudoMetricSpace P] (A1 A2 : StdAlg P) (g : Geom P) (hg : g.Dominates)
    (fp1 fp2 : FieldParams) (hf1 : fp1.minsize = 0) (hf2 : fp2.minsize = 0) {B : BinHelper P}
    {p : Params} {inBin : ℤ → ℝ → Prop} (l1 l2 : List (Obj P)) (hx : BinExact B p inBin l1 l2)
    (hw1 : ∀ o ∈ l1, o.Valid) (hw2 : ∀ o ∈ l2, o.Valid) :
    ∃ es, processCross B (plainMetric P) p (buildField A1 g fp1 l1) (buildField A2 g fp2 l2)
        = some es ∧
      ∀ k, let prs := pairsIn (crossPairs l1 l2) (inBin k)
        (accumulate Acc.zero es).weight k = bruteW prs ∧
        (accumulate Acc.zero es).nk k = bruteNK prs ∧
        (accumulate Acc.zero es).kk k = bruteKK prs ∧
        ((∀ o ∈ l1, 0 < o.w) → (∀ o ∈ l2, 0 < o.w) →
          (accumulate Acc.zero es).npairs k = bruteN prs) := by
  have g1 := buildField_cellOf A1 g hg fp1 hf1 l1 hw1
  have g2 := buildField_cellOf A2 g hg fp2 hf2 l2 hw2
  by_cases hfar : fieldsTooFar B (plainMetric P) p (buildField A1 g fp1 l1) (buildField A2 g fp2 l2)
  · refine ⟨[], by rw [processCross, if_pos hfar], ?_⟩
    intro k
    have : pairsIn (crossPairs l1 l2) (inBin k) = 0 := by
      rw [pairsIn, Multiset.filter_eq_nil]
      intro q hq
      rw [mem_crossPairs] at hq
      exact hx.far _ _ hfar _ _ (buildField_center A1 g hg fp1 l1 _ hq.1)
        (buildField_center A2 g hg fp2 l2 _ hq.2) k
    rw [this]
    simp [accumulate, Acc.zero, bruteN, bruteW, bruteNK, bruteKK]
  · obtain ⟨es, hes, hc, hk⟩ := crossLoop_exact hx.dec (hered_cellOf l1) (hered_cellOf l2) g1 g2
    refine ⟨es, by rw [processCross, if_neg hfar]; exact hes, ?_⟩
    intro k
    obtain ⟨D, hD, hz⟩ := hk k
    obtain ⟨s1, s2, s3, s4⟩ := sums_of_exact hc.k2_none
      (hc.sumsOK (decide11_honest _ _ _ _) (fun _ h => h.1.1.2) (fun _ h => h.1.1.2)) hD hz
    rw [crossPairs_perm (buildField_objs A1 g fp1 l1) (buildField_objs A2 g fp2 l2)] at s1 s2 s3 s4
    refine ⟨s1, s2, s3, fun p1 p2 => s4 ?_⟩
    intro q hq
    rw [Multiset.mem_filter, mem_crossPairs] at hq
    exact not_zeroPair (p1 _ hq.1.1) (p2 _ hq.1.2)

theorem auto_exact_of [PseudoMetricSpace P] (A : StdAlg P) (g : Geom P) (hg : g.Dominates)
    (fp : FieldParams) (hf : fp.minsize = 0) {B : BinHelper P} {p : Params} {inBin : ℤ → ℝ → Prop}
    (l : List (Obj P)) (hx : BinExact B p inBin l l) (hw : ∀ o ∈ l, o.Valid)
    (hmin : ∀ q ∈ autoPairs l, dist q.1.pos q.2.pos ≠ p.minsep) :
    ∃ es, processAuto (decide11 B (plainMetric P) p false) p (buildField A g fp l).cells
        = some es ∧
      ∀ k, let prs := pairsIn (autoPairs l) (inBin k)
        (accumulate Acc.zero es).weight k = bruteW prs ∧
        (accumulate Acc.zero es).kk k = bruteKK prs ∧
        ((∀ o ∈ l, 0 < o.w) → (accumulate Acc.zero es).npairs k = bruteN prs) := by
  have g1 := buildField_cellOf A g hg fp hf l hw
  have hperm := buildField_objs A g fp l
  have hmin' : ∀ q ∈ autoPairs (objsOf (buildField A g fp l).cells),
      dist q.1.pos q.2.pos ≠ p.minsep := by
    intro q hq heq
    have h1 := autoPairs_perm_sum hperm
      (fun q : Obj P × Obj P => if dist q.1.pos q.2.pos = p.minsep then (1 : ℝ) else 0)
      (fun x y => by simp only [dist_comm x.pos y.pos])
    have h2 : ((autoPairs l).map
        (fun q : Obj P × Obj P => if dist q.1.pos q.2.pos = p.minsep then (1 : ℝ) else 0)).sum = 0 := by
      apply Multiset.sum_eq_zero
      intro x hx
      obtain ⟨q', hq', rfl⟩ := Multiset.mem_map.1 hx
      simp [hmin q' hq']
    rw [h2] at h1
    obtain ⟨t, ht⟩ := Multiset.exists_cons_of_mem hq
    rw [ht, Multiset.map_cons, Multiset.sum_cons, if_pos heq] at h1
    have h3 : 0 ≤ (t.map
        (fun q : Obj P × Obj P => if dist q.1.pos q.2.pos = p.minsep then (1 : ℝ) else 0)).sum := by
      apply Multiset.sum_nonneg
      intro x hx
      obtain ⟨q', hq', rfl⟩ := Multiset.mem_map.1 hx
      split <;> norm_num
    linarith
  obtain ⟨es, hes, hc, hk⟩ := processAuto_exact (prm := p) hx.dec (hered_cellOf l) hx.minsep g1 (by
    intro c hc hcase q hq h1 h2 k hin
    rcases hcase with h | h
    · exact Or.inl (hc.1.zero h h1)
    · have d1 := hc.1.1.1.dist_le le_rfl h1
      have d2 := hc.1.1.1.dist_le le_rfl h2
      have d3 := dist_triangle_right q.1.pos q.2.pos c.pos
      exact absurd (le_antisymm (by linarith) (hx.min _ _ hin)) (hmin' q hq))
  refine ⟨es, hes, ?_⟩
  intro k
  obtain ⟨D, hD, hz⟩ := hk k
  obtain ⟨s1, s2, s3, s4⟩ := sums_of_exact hc.k2_none
      (hc.sumsOK (decide11_honest _ _ _ _) (fun _ h => h.1.1.2)) hD hz
  have sym : ∀ x y : Obj P, inBin k (dist x.pos y.pos) ↔ inBin k (dist y.pos x.pos) := by
    intro x y; rw [dist_comm]
  refine ⟨?_, ?_, ?_⟩
  · rw [s1]
    exact autoPairs_filter_perm_sum hperm _ sym _ (fun _ _ => mul_comm _ _)
  · rw [s3]
    exact autoPairs_filter_perm_sum hperm _ sym _ (fun _ _ => mul_comm _ _)
  · intro hpos
    rw [s4]
    · simp only [bruteN, pairsIn, card_eq_sum_one]
      exact autoPairs_filter_perm_sum hperm _ sym _ (fun _ _ => rfl)
    · intro q hq
      rw [Multiset.mem_filter] at hq
      have := mem_autoPairs _ _ hq.1
      exact not_zeroPair (hpos _ (hperm.mem_iff.1 this.1)) (hpos _ (hperm.mem_iff.1 this.2))

end TreeCorr
