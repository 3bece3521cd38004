import Verif.Proofs.MpPair

/-! The multipole traversal with no slop: when `calculateZeta` is called for a bin, the scratch arrays of that bin and of all larger
ones hold all their rows. -/

namespace TreeCorr
open Classical
variable {P : Type}

/-- The rows of a list of cells. -/
def cellRows (l : List (Cell P)) : Multiset (Obj P) := (l.flatMap Cell.objs : List (Obj P))

theorem cellRows_nil : cellRows ([] : List (Cell P)) = 0 := rfl
theorem cellRows_cons (c : Cell P) (l : List (Cell P)) : cellRows (c :: l) = (c.objs : Multiset (Obj P)) + cellRows l := by
  simp [cellRows]
theorem cellRows_append (l m : List (Cell P)) : cellRows (l ++ m) = cellRows l + cellRows m := by
  simp [cellRows]
theorem mem_rowsOf {o : Obj P} {l : List (Cell P)} : o ∈ cellRows l ↔ ∃ c ∈ l, o ∈ c.objs := by
  simp [cellRows]

/-- The rows at a separation from `x` that is in bin `k`. -/
noncomputable def binRows [PseudoMetricSpace P] (p : Params) (x : P) (k : ℤ) (m : Multiset (Obj P)) : Multiset (Obj P) :=
  m.filter fun o => InLogBin p.minsep p.binsize p.nbins k (dist x o.pos)

theorem binRows_add [PseudoMetricSpace P] (p : Params) (x : P) (k : ℤ) (m n : Multiset (Obj P)) :
    binRows p x k (m + n) = binRows p x k m + binRows p x k n := Multiset.filter_add _ _ _

theorem binRows_zero [PseudoMetricSpace P] (p : Params) (x : P) (k : ℤ) : binRows p x k (0 : Multiset (Obj P)) = 0 := rfl

theorem binRows_none [PseudoMetricSpace P] {p : Params} {x : P} {k : ℤ} {m : Multiset (Obj P)}
    (h : ∀ o ∈ m, ¬ InLogBin p.minsep p.binsize p.nbins k (dist x o.pos)) : binRows p x k m = 0 :=
  Multiset.filter_eq_nil.2 h

theorem binRows_all [PseudoMetricSpace P] {p : Params} {x : P} {k : ℤ} {m : Multiset (Obj P)}
    (h : ∀ o ∈ m, InLogBin p.minsep p.binsize p.nbins k (dist x o.pos)) : binRows p x k m = m :=
  Multiset.filter_eq_self.2 h

theorem children_objs {c l r : Cell P} (h : c.children = some (l, r)) : c.objs = l.objs ++ r.objs := by
  cases c with
  | leaf d os => simp [Cell.children] at h
  | node d s a b =>
    simp only [Cell.children, Option.some.injEq, Prod.mk.injEq] at h
    rw [← h.1, ← h.2]; rfl

theorem children_nodes {c l r : Cell P} (h : c.children = some (l, r)) : c.nodes = l.nodes + r.nodes + 1 := by
  cases c with
  | leaf d os => simp [Cell.children] at h
  | node d s a b =>
    simp only [Cell.children, Option.some.injEq, Prod.mk.injEq] at h
    rw [← h.1, ← h.2]; rfl

theorem children_hered {Q : Cell P → Prop} (hQ : Hered Q) {c l r : Cell P} (h : c.children = some (l, r)) (hc : Q c) :
    Q l ∧ Q r := by
  cases c with
  | leaf d os => simp [Cell.children] at h
  | node d s a b =>
    simp only [Cell.children, Option.some.injEq, Prod.mk.injEq] at h
    rw [← h.1, ← h.2]
    exact hQ _ _ _ _ hc

theorem children_of_size {c : Cell P} (h : 0 < c.size) : ∃ l r, c.children = some (l, r) := by
  cases c with
  | leaf d os => simp [Cell.size] at h
  | node d s a b => exact ⟨a, b, rfl⟩

theorem nodes_pos (c : Cell P) : 0 < c.nodes := by cases c <;> simp [Cell.nodes]

theorem listNodes_nil : listNodes ([] : List (Cell P)) = 0 := rfl
theorem listNodes_cons (c : Cell P) (l : List (Cell P)) : listNodes (c :: l) = c.nodes + listNodes l := by
  simp [listNodes]
theorem listNodes_append (l m : List (Cell P)) : listNodes (l ++ m) = listNodes l + listNodes m := by
  simp [listNodes]

/-- What the sharp traversal needs to know about the scratch arrays: `Rep mp R` says that `mp` holds the rows `R k` in bin `k`. -/
structure GnRep [PseudoMetricSpace P] {S : Type} (p : Params) (gn : Cell P → Cell P → ℝ → ℝ → ℤ → S → S) (Q : Cell P → Prop)
    (c1 : Cell P) (Rep : S → (ℤ → Multiset (Obj P)) → Prop) : Prop where
  step : ∀ (c2 : Cell P) (mp : S) (R : ℤ → Multiset (Obj P)) (k : ℤ) (r logr : ℝ), Q c2 →
    mpPair p c1 c2 = .use k r logr → Rep mp R →
    Rep (gn c1 c2 r logr k mp) (fun j => R j + if j = k then (c2.objs : Multiset (Obj P)) else 0)

section
variable [PseudoMetricSpace P] {S A : Type} {p : Params} {gn : Cell P → Cell P → ℝ → ℝ → ℤ → S → S} {Q : Cell P → Prop}
  {c1 : Cell P} {Rep : S → (ℤ → Multiset (Obj P)) → Prop} {x : P}

/-- The loop of `splitC2CellsOrCalculateGn` for a first cell of size zero. -/
theorem gnFold_sharp (hp : LogParams p) (hs : Sharp p) (hQ : Hered Q) (hQ0 : ∀ c, Q c → c.Bounded 0) (hc : c1.Bounded 0)
    (hc0 : c1.size = 0) (hx : ∃ o ∈ c1.objs, o.pos = x) (hgn : GnRep p gn Q c1 Rep) (t : ℝ) (lst : List (Cell P)) :
    ∀ (st : MpStep P S) (R : ℤ → Multiset (Obj P)), (∀ c ∈ lst, Q c) → (∀ c ∈ st.lst, Q c) → Rep st.mp R →
      (∀ o ∈ cellRows st.lst, dist x o.pos ≤ st.maxr) →
      ∃ st' R', lst.foldlM (gnOne p gn c1 t) st = some st' ∧ Rep st'.mp R' ∧
        (∀ k, R' k + binRows p x k (cellRows st'.lst) =
          R k + binRows p x k (cellRows st.lst) + binRows p x k (cellRows lst)) ∧
        st'.any = st.any ∧ (∀ c ∈ st'.lst, Q c) ∧ (∀ o ∈ cellRows st'.lst, dist x o.pos ≤ st'.maxr) ∧
        listNodes st'.lst + lst.length ≤ listNodes st.lst + listNodes lst := by
  induction lst with
  | nil =>
    intro st R _ h2 h3 h4
    exact ⟨st, R, rfl, h3, by simp [cellRows_nil, binRows_zero], rfl, h2, h4, by simp [listNodes_nil]⟩
  | cons c2 cs ih =>
    intro st R h1 h2 h3 h4
    obtain ⟨o1, ho1, rfl⟩ := hx
    have q2 := h1 c2 (by simp)
    have b2 := hQ0 _ q2
    have hn := nodes_pos c2
    have h1' : ∀ c ∈ cs, Q c := fun c h => h1 c (by simp [h])
    cases hm : mpPair p c1 c2 with
    | skip =>
      have e : gnOne p gn c1 t st c2 = some st := by unfold gnOne; rw [hm]
      obtain ⟨st', R', g1, g2, g3, g4, g5, g6, g7⟩ := ih st R h1' h2 h3 h4
      refine ⟨st', R', by rw [List.foldlM_cons, e]; exact g1, g2, ?_, g4, g5, g6, ?_⟩
      · intro k
        rw [g3, cellRows_cons, binRows_add, binRows_none (m := (c2.objs : Multiset (Obj P))) (fun o ho =>
          sharp_skip hp hs hc b2 hm ho1 ho k), zero_add]
      · rw [listNodes_cons]; simp only [List.length_cons]; omega
    | use k r logr =>
      have e : gnOne p gn c1 t st c2 = some { st with mp := gn c1 c2 r logr k st.mp } := by unfold gnOne; rw [hm]
      obtain ⟨st', R', g1, g2, g3, g4, g5, g6, g7⟩ := ih { st with mp := gn c1 c2 r logr k st.mp }
        (fun j => R j + if j = k then (c2.objs : Multiset (Obj P)) else 0) h1' h2 (hgn.step _ _ _ _ _ _ q2 hm h3) h4
      refine ⟨st', R', by rw [List.foldlM_cons, e]; exact g1, g2, ?_, g4, g5, g6, ?_⟩
      · intro j
        rw [g3, cellRows_cons, binRows_add]
        by_cases hj : j = k
        · rw [if_pos hj, binRows_all (m := (c2.objs : Multiset (Obj P))) (fun o ho =>
            (sharp_use hp hs hc b2 hm ho1 ho j).2 hj)]
          abel
        · rw [if_neg hj, binRows_none (m := (c2.objs : Multiset (Obj P))) (fun o ho h =>
            hj ((sharp_use hp hs hc b2 hm ho1 ho j).1 h))]
          abel
      · rw [listNodes_cons]
        simp only [List.length_cons] at g7 ⊢
        omega
    | keep rtot f1 f2 =>
      obtain ⟨k1, k2, k3, k4, k5, k6⟩ := mpPair_keep hc.size_nonneg b2.size_nonneg hm
      obtain ⟨rfl, rfl⟩ := k6 hc0
      obtain ⟨l, r, hlr⟩ := children_of_size (k4 rfl)
      have e : gnOne p gn c1 t st c2 = some { st with lst := st.lst ++ [l, r], any := st.any, maxr := max rtot st.maxr } := by
        unfold gnOne; rw [hm]
        simp [hlr]
      obtain ⟨ql, qr⟩ := children_hered hQ hlr q2
      have hrow : cellRows (st.lst ++ [l, r]) = cellRows st.lst + (c2.objs : Multiset (Obj P)) := by
        rw [cellRows_append, cellRows_cons, cellRows_cons, cellRows_nil, children_objs hlr, add_zero, ← Multiset.coe_add]
      obtain ⟨st', R', g1, g2, g3, g4, g5, g6, g7⟩ := ih
        { st with lst := st.lst ++ [l, r], any := st.any, maxr := max rtot st.maxr } R h1' (by
          intro c hc
          simp only [List.mem_append, List.mem_cons, List.not_mem_nil, or_false] at hc
          rcases hc with h | rfl | rfl
          · exact h2 _ h
          · exact ql
          · exact qr) h3 (by
          intro o ho
          simp only [hrow, Multiset.mem_add] at ho ⊢
          rcases ho with ho | ho
          · exact (h4 o ho).trans (le_max_right _ _)
          · refine le_trans ?_ (le_max_left _ _)
            have a := hc.dist_le le_rfl ho1
            have b := b2.dist_le le_rfl ho
            have t1 := dist_triangle4 o1.pos c1.pos c2.pos o.pos
            rw [dist_comm c2.pos o.pos] at t1
            linarith)
      refine ⟨st', R', by rw [List.foldlM_cons, e]; exact g1, g2, ?_, g4, g5, g6, ?_⟩
      · intro j
        rw [g3, cellRows_cons, binRows_add]
        simp only [hrow, binRows_add]
        abel
      · rw [listNodes_cons]
        simp only [List.length_cons, listNodes_append, listNodes_cons, listNodes_nil, children_nodes hlr] at g7 ⊢
        omega

/-- No row within `maxr` is in a bin at or above `earlyK maxr`. -/
theorem earlyK_none (hp : LogParams p) {maxr d : ℝ} {k : ℤ} (hd : d ≤ maxr) (hk : earlyK p maxr ≤ k) :
    ¬ InLogBin p.minsep p.binsize p.nbins k d := by
  intro h
  obtain ⟨r1, r2⟩ := h.range hp
  have hpos := h.pos hp.minsep
  unfold earlyK at hk
  rw [if_neg (by linarith)] at hk
  rw [inLogBin_iff hp hpos] at h
  have hl := Real.log_le_log hpos hd
  have hm := hp.minsep
  have hb := hp.binsize
  have h0 : 0 ≤ (Real.log maxr - Real.log p.minsep) / p.binsize :=
    div_nonneg (by have := Real.log_le_log hm r1; linarith) hb.le
  rw [truncInt_nonneg h0] at hk
  have : k ≤ ⌊(Real.log maxr - Real.log p.minsep) / p.binsize⌋ := by
    rw [Int.le_floor, le_div_iff₀ hb]; linarith
  omega

theorem earlyK_nonneg (hp : LogParams p) (maxr : ℝ) : 0 ≤ earlyK p maxr := by
  unfold earlyK
  split
  · exact le_rfl
  · rename_i h
    push Not at h
    have h0 : 0 ≤ (Real.log maxr - Real.log p.minsep) / p.binsize :=
      div_nonneg (by have := Real.log_le_log hp.minsep h; linarith) hp.binsize.le
    rw [truncInt_nonneg h0]
    have := Int.floor_nonneg.2 h0
    omega

/-- What a call of `calculateZeta` does for the entry `[k2,k3]` with `min k2 k3 = j`, once the bins it needs are complete. -/
structure ZetaRep {V : Type} [AddCommMonoid V] (p : Params) (tot : List A → V) (j : ℤ) (v : V) (Z : ℤ → ℤ → List A)
    (done : ℤ → Prop) : Prop where
  /-- `done k`: all bins `≥ k` are complete -/
  eq : ∀ kstart mink, 0 ≤ kstart → mink ≤ p.nbins → done kstart → tot (Z kstart mink) = if kstart ≤ j ∧ j < mink then v else 0

/-- `multipoleFinish` for a first cell of size zero. -/
theorem finish_sharp {V : Type} [AddCommMonoid V] (hp : LogParams p) (hs : Sharp p) (hQ : Hered Q)
    (hQ0 : ∀ c, Q c → c.Bounded 0) (hc : c1.Bounded 0)
    (hc0 : c1.size = 0) (hx : ∃ o ∈ c1.objs, o.pos = x) (hgn : GnRep p gn Q c1 Rep) {zeta : Cell P → S → ℤ → ℤ → List A}
    {tot : List A → V} (ht : ∀ a b, tot (a ++ b) = tot a + tot b) (ht0 : tot [] = 0) {j : ℤ} {v : V} {full : ℤ → Multiset (Obj P)}
    (hz : ∀ mp R, Rep mp R → ZetaRep p tot j v (zeta c1 mp) (fun ks => ∀ k, ks ≤ k → k < p.nbins → R k = full k)) :
    ∀ (n : ℕ) (lst : List (Cell P)) (mp : S) (R : ℤ → Multiset (Obj P)) (mink : ℤ) (maxr : ℝ), mink ≤ p.nbins →
      listNodes lst < n → (∀ c ∈ lst, Q c) → Rep mp R → (∀ k, R k + binRows p x k (cellRows lst) = full k) →
      ∃ out, multipoleFinishN p gn zeta n c1 lst mp mink maxr = some out ∧ tot out = if 0 ≤ j ∧ j < mink then v else 0 := by
  intro n
  induction n with
  | zero => intro lst mp R mink maxr _ h; omega
  | succ n ih =>
    intro lst mp R mink maxr hmk hn hl hR hf
    obtain ⟨st, R', g1, g2, g3, g4, g5, g6, g7⟩ := gnFold_sharp hp hs hQ hQ0 hc hc0 hx hgn ((1 - p.binsize) * maxr) lst
      { lst := [], any := false, mp := mp, maxr := 0 } R hl (by simp) hR (by simp [cellRows_nil])
    have hst : splitOrGn p gn c1 lst false mp maxr = some st := g1
    simp only [cellRows_nil, binRows_zero, add_zero, hf] at g3
    unfold multipoleFinishN
    rw [hst]
    simp only
    by_cases he : st.lst = []
    · rw [if_pos he]
      refine ⟨_, rfl, ?_⟩
      rw [he, cellRows_nil] at g3
      simp only [binRows_zero, add_zero] at g3
      exact (hz _ _ g2).eq 0 mink le_rfl hmk (fun k _ _ => g3 k)
    · rw [if_neg he]
      simp only at g4
      rw [g4]
      simp only [Bool.false_eq_true, if_false]
      have hlt : listNodes st.lst < n := by
        simp only [listNodes_nil, zero_add] at g7
        have : lst ≠ [] := by
          rintro rfl
          simp [listNodes_nil] at g7
          cases hh : st.lst with
          | nil => exact he hh
          | cons a b =>
            rw [hh, listNodes_cons] at g7
            have := nodes_pos a
            omega
        have := List.length_pos_iff.2 this
        omega
      have hearly : (earlyZeta p (zeta c1 st.mp) mink st.maxr).2 ≤ mink ∧ 0 ≤ (earlyZeta p (zeta c1 st.mp) mink st.maxr).2 ∨
          (earlyZeta p (zeta c1 st.mp) mink st.maxr) = ([], mink) := by
        unfold earlyZeta
        split
        · split
          · rename_i h; exact Or.inl ⟨h.le, earlyK_nonneg hp _⟩
          · exact Or.inr rfl
        · exact Or.inr rfl
      have hval : ∀ w : V, w = (if 0 ≤ j ∧ j < (earlyZeta p (zeta c1 st.mp) mink st.maxr).2 then v else 0) →
          tot (earlyZeta p (zeta c1 st.mp) mink st.maxr).1 + w = if 0 ≤ j ∧ j < mink then v else 0 := by
        intro w hw
        rw [hw]
        unfold earlyZeta
        split
        · split
          · rename_i h
            simp only
            have hk0 := earlyK_nonneg hp st.maxr
            rw [(hz _ _ g2).eq (earlyK p st.maxr) mink hk0 hmk (by
              intro k h1 h2
              rw [← g3 k, binRows_none (fun o ho => earlyK_none hp (g6 o ho) h1), add_zero])]
            by_cases c1 : earlyK p st.maxr ≤ j
            · by_cases c2 : j < mink
              · rw [if_pos ⟨c1, c2⟩, if_neg (by omega), if_pos ⟨by omega, c2⟩, add_zero]
              · rw [if_neg (by omega), if_neg (by omega), if_neg (by omega), add_zero]
            · rw [if_neg (by omega)]
              by_cases c3 : 0 ≤ j
              · rw [if_pos ⟨c3, by omega⟩, if_pos ⟨c3, by omega⟩, zero_add]
              · rw [if_neg (by omega), if_neg (by omega), zero_add]
          · simp only [ht0, zero_add]
        · simp only [ht0, zero_add]
      obtain ⟨out, h1, h2⟩ := ih st.lst st.mp R' (earlyZeta p (zeta c1 st.mp) mink st.maxr).2 st.maxr (by
        rcases hearly with h | h
        · exact h.1.trans hmk
        · rw [h]; exact hmk) hlt g5 g2 (fun k => g3 k)
      rw [h1]
      refine ⟨_, rfl, ?_⟩
      rw [ht]
      exact hval _ h2

end

end TreeCorr
