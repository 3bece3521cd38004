import Verif.Proofs.Accum

/-! Exactness of pair counting with Log binning at zero slop. -/

namespace TreeCorr
open Classical
variable {P : Type}

/-- A cell the tree builder can make from objects with positive weights, with extent `δ` of leaves. -/
def GoodCell [PseudoMetricSpace P] (δ : ℝ) (c : Cell P) : Prop :=
  (c.Bounded δ ∧ c.SumsOK) ∧ c.PosW

theorem hered_good [PseudoMetricSpace P] (δ : ℝ) : Hered (GoodCell (P := P) δ) :=
  ((hered_bounded δ).and hered_sumsOK).and hered_posW

theorem GoodCell.w_ne [PseudoMetricSpace P] {δ : ℝ} {c : Cell P} (h : GoodCell δ c) : c.w ≠ 0 :=
  (c.w_pos h.1.2 h.2).ne'

/-- Weights are not negative, and a zero weight object has zero weighted value. -/
def Obj.Valid (o : Obj P) : Prop := 0 ≤ o.w ∧ (o.w = 0 → o.wk = 0)

/-- A cell the tree builder can make from objects with weights `≥ 0`. -/
def ValidCell [PseudoMetricSpace P] (δ : ℝ) (c : Cell P) : Prop :=
  (c.Bounded δ ∧ c.SumsOK) ∧ ∀ o ∈ c.objs, o.Valid

theorem hered_valid [PseudoMetricSpace P] (δ : ℝ) : Hered (ValidCell (P := P) δ) := by
  apply ((hered_bounded δ).and hered_sumsOK).and
  intro d s l r h
  exact ⟨fun o ho => h o (by simp [Cell.objs, ho]), fun o ho => h o (by simp [Cell.objs, ho])⟩

theorem sum_zero_of {α : Type} (f : α → ℝ) (l : List α) (h : ∀ x ∈ l, 0 ≤ f x)
    (h0 : (l.map f).sum = 0) : ∀ x ∈ l, f x = 0 := by
  induction l with
  | nil => simp
  | cons x xs ih =>
    simp only [List.map_cons, List.sum_cons] at h0
    have h1 := h x (by simp)
    have h2 : 0 ≤ (xs.map f).sum := List.sum_nonneg (by
      intro y hy
      obtain ⟨z, hz, rfl⟩ := List.mem_map.1 hy
      exact h z (by simp [hz]))
    intro y hy
    rcases List.mem_cons.1 hy with rfl | hy
    · linarith
    · exact ih (fun z hz => h z (by simp [hz])) (by linarith) y hy

/-- In a cell of total weight zero every object has weight zero. -/
theorem ValidCell.zero [PseudoMetricSpace P] {δ : ℝ} {c : Cell P} (h : ValidCell δ c) (h0 : c.w = 0)
    {o : Obj P} (ho : o ∈ c.objs) : o.w = 0 ∧ o.wk = 0 := by
  rw [h.1.2.w_eq] at h0
  have := sum_zero_of Obj.w _ (fun o ho => (h.2 o ho).1) h0 o ho
  exact ⟨this, (h.2 o ho).2 this⟩

theorem SafeSplit.mono {act : Cell P → Cell P → Action P} {Q1 Q2 R1 R2 : Cell P → Prop}
    (h : SafeSplit act Q1 Q2) (h1 : ∀ c, R1 c → Q1 c) (h2 : ∀ c, R2 c → Q2 c) :
    SafeSplit act R1 R2 :=
  fun a b s1 s2 ha hb he => h a b s1 s2 (h1 a ha) (h2 b hb) he

theorem inLogBin_iff {p : Params} (hp : LogParams p) {k : ℤ} {d : ℝ} (hd : 0 < d) :
    InLogBin p.minsep p.binsize p.nbins k d ↔
      0 ≤ k ∧ k < p.nbins ∧ Real.log p.minsep + k * p.binsize ≤ Real.log d ∧
        Real.log d < Real.log p.minsep + (k + 1) * p.binsize := by
  have hm := hp.minsep
  have e : ∀ j : ℤ, Real.log (logEdge p.minsep p.binsize j)
      = Real.log p.minsep + j * p.binsize := by
    intro j
    rw [logEdge, Real.log_mul hm.ne' (Real.exp_pos _).ne', Real.log_exp]
  have pos : ∀ j : ℤ, 0 < logEdge p.minsep p.binsize j := fun j => mul_pos hm (Real.exp_pos _)
  have e1 := e (k + 1)
  push_cast at e1
  rw [InLogBin, ← Real.log_le_log_iff (pos k) hd, ← Real.log_lt_log_iff hd (pos (k + 1)), e k, e1]

theorem InLogBin.pos {minsep binsize d : ℝ} {nbins k : ℤ} (hm : 0 < minsep)
    (h : InLogBin minsep binsize nbins k d) : 0 < d :=
  lt_of_lt_of_le (mul_pos hm (Real.exp_pos _)) h.2.2.1

theorem logBin_unique {m bs y : ℝ} (hbs : 0 < bs) {j k : ℤ}
    (h1 : m + j * bs ≤ y) (h2 : y < m + (j + 1) * bs) (h3 : m + k * bs ≤ y)
    (h4 : y < m + (k + 1) * bs) : j = k := by
  have a : (j : ℝ) < k + 1 := by
    by_contra h
    push Not at h
    have := mul_le_mul_of_nonneg_right h hbs.le
    linarith
  have b : (k : ℝ) < j + 1 := by
    by_contra h
    push Not at h
    have := mul_le_mul_of_nonneg_right h hbs.le
    linarith
  have a' : j < k + 1 := by exact_mod_cast a
  have b' : k < j + 1 := by exact_mod_cast b
  omega

theorem log_direct_iff [PseudoMetricSpace P] {p : Params} (hp : LogParams p) (hb0 : p.b = 0)
    {a b : Cell P} (ha : a.Bounded 0) (hb : b.Bounded 0) {R : Bool} {e : Emit P}
    (h : decide11 (logBin P) (plainMetric P) p R a b = .direct e) {o1 o2 : Obj P}
    (h1 : o1 ∈ a.objs) (h2 : o2 ∈ b.objs) (k : ℤ) :
    InLogBin p.minsep p.binsize p.nbins k (dist o1.pos o2.pos) ↔ e.k = k := by
  obtain ⟨g1, g2, d', hd', hpos, g3, g4⟩ := log_direct hp le_rfl ha hb h h1 h2
  have : d' = dist o1.pos o2.pos := by
    have : dist o1.pos o2.pos - d' = 0 := by simpa using hd'
    linarith
  subst this
  rw [hb0] at g3 g4
  rw [inLogBin_iff hp hpos]
  constructor
  · rintro ⟨k1, k2, k3, k4⟩
    exact logBin_unique hp.binsize (by linarith) (by linarith) k3 k4
  · rintro rfl
    exact ⟨g1, g2, by linarith, by linarith⟩

theorem logEdge_mono {m bs : ℝ} (hm : 0 < m) (hbs : 0 < bs) {j k : ℤ} (h : j ≤ k) :
    logEdge m bs j ≤ logEdge m bs k := by
  unfold logEdge
  apply mul_le_mul_of_nonneg_left _ hm.le
  apply Real.exp_le_exp.2
  exact mul_le_mul_of_nonneg_right (by exact_mod_cast h) hbs.le

theorem log_drop_not [PseudoMetricSpace P] {p : Params} (hp : LogParams p) (hb0 : p.b = 0)
    {a b : Cell P} (ha : a.Bounded 0) (hb : b.Bounded 0) (hwa : a.w ≠ 0) (hwb : b.w ≠ 0) {R : Bool}
    (h : decide11 (logBin P) (plainMetric P) p R a b = .drop) {o1 o2 : Obj P}
    (h1 : o1 ∈ a.objs) (h2 : o2 ∈ b.objs) (k : ℤ) :
    ¬ InLogBin p.minsep p.binsize p.nbins k (dist o1.pos o2.pos) := by
  obtain ⟨d', hd', hcase⟩ := log_drop hp le_rfl ha hb hwa hwb h h1 h2
  have : d' = dist o1.pos o2.pos := by
    have : dist o1.pos o2.pos - d' = 0 := by simpa using hd'
    linarith
  subst this
  rw [hb0] at hcase
  simp at hcase
  rintro ⟨k1, k2, k3, k4⟩
  rcases hcase with h | h
  · have e0 : logEdge p.minsep p.binsize 0 = p.minsep := by simp [logEdge]
    have := logEdge_mono hp.minsep hp.binsize k1
    linarith
  · have e1 : logEdge p.minsep p.binsize p.nbins = p.maxsep := by rw [hp.maxsep]; rfl
    have := logEdge_mono hp.minsep hp.binsize (show k + 1 ≤ p.nbins by omega)
    linarith

theorem Covers.sumsOK {act : Cell P → Cell P → Action P} {Q1 Q2 : Cell P → Prop}
    {all : Multiset (Obj P × Obj P)} {es : List (Emit P)} (hact : Honest act)
    (h : Covers act Q1 Q2 all es) (h1 : ∀ c, Q1 c → c.SumsOK) (h2 : ∀ c, Q2 c → c.SumsOK) :
    ∀ e ∈ es, e.c1.SumsOK ∧ e.c2.SumsOK := by
  obtain ⟨D, hD, he, hd⟩ := h
  intro e hmem
  obtain ⟨a, b, qa, qb, hab⟩ := he e hmem
  obtain ⟨e1, e2⟩ := hact a b e hab
  rw [e1, e2]
  exact ⟨h1 a qa, h2 b qb⟩

theorem decide11_k2_none (B : BinHelper P) (M : MetricHelper P) (prm : Params) {a b : Cell P}
    {e : Emit P} (h : decide11 B M prm false a b = .direct e) : e.k2 = none := by
  unfold decide11 at h
  split at h
  · cases h
  simp only at h
  split at h
  · cases h
  split at h
  · cases h
  split at h
  · cases h
  split at h
  · split at h
    · injection h with h
      subst h
      simp [directProcess11]
    · cases h
  · cases h

theorem Covers.k2_none {B : BinHelper P} {M : MetricHelper P} {prm : Params} {Q1 Q2 : Cell P → Prop}
    {all : Multiset (Obj P × Obj P)} {es : List (Emit P)}
    (h : Covers (decide11 B M prm false) Q1 Q2 all es) : ∀ e ∈ es, e.k2 = none := by
  obtain ⟨D, hD, he, hd⟩ := h
  intro e hmem
  obtain ⟨a, b, qa, qb, hab⟩ := he e hmem
  exact decide11_k2_none B M prm hab

end TreeCorr
