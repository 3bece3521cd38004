import Verif.Proofs.MpSharp

/-! The whole multipole run with no slop, for abstract scratch arrays. -/

namespace TreeCorr
open Classical
variable {P : Type}

section
variable [PseudoMetricSpace P] {S A : Type} {p : Params} {gn : Cell P → Cell P → ℝ → ℝ → ℤ → S → S} {Q Q1 : Cell P → Prop}

/-- `splitC2Cells` loses no row that is in a bin. -/
theorem splitC2Cells_ok (hp : LogParams p) (hQ : Hered Q) (hQ0 : ∀ c, Q c → c.Bounded 0) {c1 : Cell P} (hc : c1.Bounded 0)
    (lst : List (Cell P)) (hl : ∀ c ∈ lst, Q c) :
    ∃ new, splitC2Cells p c1 lst = some new ∧ (∀ c ∈ new, Q c) ∧
      ∀ o1 ∈ c1.objs, ∀ k, binRows p o1.pos k (cellRows new) = binRows p o1.pos k (cellRows lst) := by
  unfold splitC2Cells
  induction lst with
  | nil => exact ⟨[], rfl, by simp, fun _ _ _ => rfl⟩
  | cons c2 cs ih =>
    obtain ⟨new, h1, h2, h3⟩ := ih (fun c h => hl c (by simp [h]))
    have q2 := hl c2 (by simp)
    have b2 := hQ0 _ q2
    have key : ∃ a, splitC2One p c1 c2 = some a ∧ (∀ c ∈ a, Q c) ∧
        ∀ o1 ∈ c1.objs, ∀ k, binRows p o1.pos k (cellRows a) = binRows p o1.pos k (c2.objs : Multiset (Obj P)) := by
      unfold splitC2One
      split
      · rename_i ho
        refine ⟨[], rfl, by simp, ?_⟩
        intro o1 ho1 k
        rw [cellRows_nil, binRows_zero, binRows_none (fun o h => mpOut_not hp hc b2 ho ho1 h k)]
      · split
        · rename_i hs
          obtain ⟨l, r, hlr⟩ := children_of_size (lt_of_le_of_lt hc.size_nonneg hs.2)
          rw [hlr]
          obtain ⟨ql, qr⟩ := children_hered hQ hlr q2
          refine ⟨[l, r], rfl, by simp [ql, qr], ?_⟩
          intro o1 _ k
          rw [cellRows_cons, cellRows_cons, cellRows_nil, children_objs hlr, add_zero, ← Multiset.coe_add]
        · refine ⟨[c2], rfl, by simpa using q2, ?_⟩
          intro o1 _ k
          rw [cellRows_cons, cellRows_nil, add_zero]
    obtain ⟨a, e1, e2, e3⟩ := key
    refine ⟨a ++ new, by simp [concatM, e1, h1], ?_, ?_⟩
    · intro c hc
      rcases List.mem_append.1 hc with h | h
      · exact e2 c h
      · exact h2 c h
    · intro o1 ho1 k
      rw [cellRows_append, cellRows_cons, binRows_add, binRows_add, e3 o1 ho1, h3 o1 ho1]

theorem sharp_eff (hs : Sharp p) : (logBin P).effBSq (p.maxsep ^ 2) p = 0 := by
  have h0 : min (p.b ^ 2) (p.a ^ 2) = 0 := by
    rcases hs with h | h
    · rw [h, zero_pow two_ne_zero]; exact min_eq_left (sq_nonneg _)
    · rw [h, zero_pow two_ne_zero]; exact min_eq_right (sq_nonneg _)
  simp only [logBin]
  simp [h0]

/-- What a run needs to know of a first cell of size zero: the scratch arrays represent rows, and `calculateZeta` adds
`Σ vo` over the rows of the cell once the bins are complete. -/
def LeafRep {V : Type} [AddCommMonoid V] (p : Params) (gn : Cell P → Cell P → ℝ → ℝ → ℤ → S → S) (Q : Cell P → Prop)
    (zeta : Cell P → S → ℤ → ℤ → List A) (clear : S) (tot : List A → V) (j : ℤ) (vo : Obj P → V) (all : Multiset (Obj P))
    (c : Cell P) : Prop :=
  ∃ Rep : S → (ℤ → Multiset (Obj P)) → Prop, Rep clear (fun _ => 0) ∧ GnRep p gn Q c Rep ∧
    ∀ x, (∃ o ∈ c.objs, o.pos = x) → ∀ mp R, Rep mp R →
      ZetaRep p tot j (c.objs.map vo).sum (zeta c mp) (fun ks => ∀ k, ks ≤ k → k < p.nbins → R k = binRows p x k all)

theorem split1_sharp {V : Type} [AddCommMonoid V] (hp : LogParams p) (hs : Sharp p) (hQ : Hered Q)
    (hQ0 : ∀ c, Q c → c.Bounded 0) (hQ1 : Hered Q1) (hQ10 : ∀ c, Q1 c → c.Bounded 0) (hne : ∀ c, Q1 c → c.objs ≠ [])
    {zeta : Cell P → S → ℤ → ℤ → List A} {clear : S}
    {tot : List A → V} (ht : ∀ a b, tot (a ++ b) = tot a + tot b) (ht0 : tot [] = 0) {j : ℤ} {vo : Obj P → V}
    {all : Multiset (Obj P)} (hrep : ∀ c, Q1 c → c.size = 0 → LeafRep p gn Q zeta clear tot j vo all c) (c1 : Cell P) :
    ∀ (lst : List (Cell P)), Q1 c1 → (∀ c ∈ lst, Q c) →
      (∀ o1 ∈ c1.objs, ∀ k, binRows p o1.pos k (cellRows lst) = binRows p o1.pos k all) →
      ∃ out, multipoleSplit1 p gn zeta clear c1 lst = some out ∧
        tot out = if 0 ≤ j ∧ j < p.nbins then (c1.objs.map vo).sum else 0 := by
  induction c1 with
  | leaf d os =>
    intro lst q1 hl hf
    obtain ⟨new, h1, h2, h3⟩ := splitC2Cells_ok hp hQ hQ0 (hQ10 _ q1) lst hl
    unfold multipoleSplit1
    rw [h1]
    simp only
    rw [sharp_eff hs, if_neg (by norm_num)]
    obtain ⟨Rep, r0, r1, r2⟩ := hrep _ q1 rfl
    obtain ⟨o1, ho1⟩ := List.exists_mem_of_ne_nil _ (hne _ q1)
    unfold multipoleFinish
    obtain ⟨out, g1, g2⟩ := finish_sharp hp hs hQ hQ0 (hQ10 _ q1) rfl ⟨o1, ho1, rfl⟩ r1 ht ht0 (r2 o1.pos ⟨o1, ho1, rfl⟩)
      (2 * ((Cell.leaf d os).nodes + listNodes new) + 2) new clear (fun _ => 0) p.nbins 0 le_rfl (by omega) h2 r0 (by
        intro k
        rw [zero_add, h3 o1 ho1, hf o1 ho1])
    exact ⟨out, g1, g2⟩
  | node d s l r ihl ihr =>
    intro lst q1 hl hf
    obtain ⟨new, h1, h2, h3⟩ := splitC2Cells_ok hp hQ hQ0 (hQ10 _ q1) lst hl
    unfold multipoleSplit1
    rw [h1]
    simp only
    have hpos : 0 < s := (hQ10 _ q1).1
    rw [sharp_eff hs, if_pos (by positivity)]
    obtain ⟨ql, qr⟩ := hQ1 _ _ _ _ q1
    obtain ⟨a, a1, a2⟩ := ihl new ql h2 (fun o ho k => by
      have := (show o ∈ (Cell.node d s l r).objs by simp [Cell.objs, ho])
      rw [h3 o this, hf o this])
    obtain ⟨b, b1, b2⟩ := ihr new qr h2 (fun o ho k => by
      have := (show o ∈ (Cell.node d s l r).objs by simp [Cell.objs, ho])
      rw [h3 o this, hf o this])
    rw [a1, b1]
    refine ⟨_, rfl, ?_⟩
    rw [ht, a2, b2]
    simp only [Cell.objs, List.map_append, List.sum_append]
    split <;> simp

/-- The whole run over one list. -/
theorem run_sharp {V : Type} [AddCommMonoid V] (hp : LogParams p) (hs : Sharp p) (hQ : Hered Q)
    (hQ0 : ∀ c, Q c → c.Bounded 0) (hQ1 : Hered Q1) (hQ10 : ∀ c, Q1 c → c.Bounded 0) (hne : ∀ c, Q1 c → c.objs ≠ [])
    {zeta : Cell P → S → ℤ → ℤ → List A} {clear : S}
    {tot : List A → V} (ht : ∀ a b, tot (a ++ b) = tot a + tot b) (ht0 : tot [] = 0) {j : ℤ} {vo : Obj P → V}
    (cells2 : List (Cell P)) (h2 : ∀ c ∈ cells2, Q c)
    (hrep : ∀ c, Q1 c → c.size = 0 → LeafRep p gn Q zeta clear tot j vo (cellRows cells2) c) (cells1 : List (Cell P))
    (h1 : ∀ c ∈ cells1, Q1 c) :
    ∃ out, multipoleRun p gn zeta clear cells1 cells2 = some out ∧
      tot out = if 0 ≤ j ∧ j < p.nbins then ((cellRows cells1).map vo).sum else 0 := by
  unfold multipoleRun
  induction cells1 with
  | nil => exact ⟨[], rfl, by rw [ht0, cellRows_nil]; simp⟩
  | cons c cs ih =>
    obtain ⟨b, b1, b2⟩ := ih (fun c h => h1 c (by simp [h]))
    obtain ⟨a, a1, a2⟩ := split1_sharp hp hs hQ hQ0 hQ1 hQ10 hne ht ht0 hrep c cells2 (h1 c (by simp)) h2 (fun _ _ _ => rfl)
    refine ⟨a ++ b, by simp [concatM, a1, b1], ?_⟩
    rw [ht, a2, b2, cellRows_cons, Multiset.map_add, Multiset.sum_add, Multiset.map_coe, Multiset.sum_coe]
    split <;> simp

/-! ### Two lists -/

theorem finish2_sharp {V : Type} [AddCommMonoid V] {c1 : Cell P} {Rep : S → (ℤ → Multiset (Obj P)) → Prop} {x : P}
    (hp : LogParams p) (hs : Sharp p) (hQ : Hered Q)
    (hQ0 : ∀ c, Q c → c.Bounded 0) (hc : c1.Bounded 0)
    (hc0 : c1.size = 0) (hx : ∃ o ∈ c1.objs, o.pos = x) (hgn : GnRep p gn Q c1 Rep)
    {zeta : Cell P → S → S → ℤ → ℤ → List A}
    {tot : List A → V} (ht : ∀ a b, tot (a ++ b) = tot a + tot b) (ht0 : tot [] = 0) {j : ℤ} {v : V}
    {full2 full3 : ℤ → Multiset (Obj P)}
    (hz : ∀ mp2 R2 mp3 R3, Rep mp2 R2 → Rep mp3 R3 → ZetaRep p tot j v (zeta c1 mp2 mp3)
      (fun ks => ∀ k, ks ≤ k → k < p.nbins → R2 k = full2 k ∧ R3 k = full3 k)) :
    ∀ (n : ℕ) (lst2 lst3 : List (Cell P)) (mp2 mp3 : S) (R2 R3 : ℤ → Multiset (Obj P)) (mink : ℤ) (maxr2 maxr3 : ℝ),
      mink ≤ p.nbins →
      listNodes lst2 + listNodes lst3 < n → (∀ c ∈ lst2, Q c) → (∀ c ∈ lst3, Q c) → Rep mp2 R2 → Rep mp3 R3 →
      (∀ k, R2 k + binRows p x k (cellRows lst2) = full2 k) → (∀ k, R3 k + binRows p x k (cellRows lst3) = full3 k) →
      ∃ out, multipoleFinish2N p gn zeta n c1 lst2 lst3 mp2 mp3 mink maxr2 maxr3 = some out ∧
        tot out = if 0 ≤ j ∧ j < mink then v else 0 := by
  intro n
  induction n with
  | zero => intro lst2 lst3 mp2 mp3 R2 R3 mink m2 m3 _ h; omega
  | succ n ih =>
    intro lst2 lst3 mp2 mp3 R2 R3 mink maxr2 maxr3 hmk hn hl2 hl3 hR2 hR3 hf2 hf3
    obtain ⟨st2, R2', g1, g2, g3, g4, g5, g6, g7⟩ := gnFold_sharp hp hs hQ hQ0 hc hc0 hx hgn ((1 - p.binsize) * maxr2) lst2
      { lst := [], any := false, mp := mp2, maxr := 0 } R2 hl2 (by simp) hR2 (by simp [cellRows_nil])
    have hst2 : splitOrGn p gn c1 lst2 false mp2 maxr2 = some st2 := g1
    simp only [cellRows_nil, binRows_zero, add_zero, hf2] at g3
    obtain ⟨st3, R3', k1, k2, k3, k4, k5, k6, k7⟩ := gnFold_sharp hp hs hQ hQ0 hc hc0 hx hgn ((1 - p.binsize) * maxr3) lst3
      { lst := [], any := st2.any, mp := mp3, maxr := 0 } R3 hl3 (by simp) hR3 (by simp [cellRows_nil])
    have hst3 : splitOrGn p gn c1 lst3 st2.any mp3 maxr3 = some st3 := k1
    simp only [cellRows_nil, binRows_zero, add_zero, hf3] at k3
    unfold multipoleFinish2N
    rw [hst2]
    simp only
    rw [hst3]
    simp only
    by_cases he : st2.lst = [] ∧ st3.lst = []
    · rw [if_pos he]
      refine ⟨_, rfl, ?_⟩
      rw [he.1, cellRows_nil] at g3
      rw [he.2, cellRows_nil] at k3
      simp only [binRows_zero, add_zero] at g3 k3
      exact (hz _ _ _ _ g2 k2).eq 0 mink le_rfl hmk (fun k _ _ => ⟨g3 k, k3 k⟩)
    · rw [if_neg he]
      simp only at g4 k4
      rw [k4, g4]
      simp only [Bool.false_eq_true, if_false]
      have hlt : listNodes st2.lst + listNodes st3.lst < n := by
        simp only [listNodes_nil, zero_add] at g7 k7
        have : 0 < lst2.length + lst3.length := by
          by_contra hh
          have e2 : lst2 = [] := List.length_eq_zero_iff.1 (by omega)
          have e3 : lst3 = [] := List.length_eq_zero_iff.1 (by omega)
          subst e2 e3
          simp only [listNodes_nil, List.length_nil, add_zero, Nat.le_zero] at g7 k7
          apply he
          have z : ∀ l : List (Cell P), listNodes l = 0 → l = [] := by
            intro l hl
            cases l with
            | nil => rfl
            | cons a b =>
              rw [listNodes_cons] at hl
              have := nodes_pos a
              omega
          exact ⟨z _ g7, z _ k7⟩
        omega
      generalize hM : max st2.maxr st3.maxr = M
      have hM2 : st2.maxr ≤ M := hM ▸ le_max_left _ _
      have hM3 : st3.maxr ≤ M := hM ▸ le_max_right _ _
      have hearly : (earlyZeta p (zeta c1 st2.mp st3.mp) mink M).2 ≤ mink ∧ 0 ≤ (earlyZeta p (zeta c1 st2.mp st3.mp) mink M).2 ∨
          (earlyZeta p (zeta c1 st2.mp st3.mp) mink M) = ([], mink) := by
        unfold earlyZeta
        split
        · split
          · rename_i h; exact Or.inl ⟨h.le, earlyK_nonneg hp _⟩
          · exact Or.inr rfl
        · exact Or.inr rfl
      have hval : ∀ w : V, w = (if 0 ≤ j ∧ j < (earlyZeta p (zeta c1 st2.mp st3.mp) mink M).2 then v else 0) →
          tot (earlyZeta p (zeta c1 st2.mp st3.mp) mink M).1 + w = if 0 ≤ j ∧ j < mink then v else 0 := by
        intro w hw
        rw [hw]
        unfold earlyZeta
        split
        · split
          · rename_i h
            simp only
            have hk0 := earlyK_nonneg hp M
            rw [(hz _ _ _ _ g2 k2).eq (earlyK p M) mink hk0 hmk (by
              intro k h1 h2
              rw [← g3 k, ← k3 k, binRows_none (fun o ho => earlyK_none hp ((g6 o ho).trans hM2) h1),
                binRows_none (fun o ho => earlyK_none hp ((k6 o ho).trans hM3) h1), add_zero, add_zero]
              exact ⟨rfl, rfl⟩)]
            by_cases c1 : earlyK p M ≤ j
            · by_cases c2 : j < mink
              · rw [if_pos ⟨c1, c2⟩, if_neg (by omega), if_pos ⟨by omega, c2⟩, add_zero]
              · rw [if_neg (by omega), if_neg (by omega), if_neg (by omega), add_zero]
            · rw [if_neg (by omega)]
              by_cases c3 : 0 ≤ j
              · rw [if_pos ⟨c3, by omega⟩, if_pos ⟨c3, by omega⟩, zero_add]
              · rw [if_neg (by omega), if_neg (by omega), zero_add]
          · simp only [ht0, zero_add]
        · simp only [ht0, zero_add]
      obtain ⟨out, h1, h2⟩ := ih st2.lst st3.lst st2.mp st3.mp R2' R3' (earlyZeta p (zeta c1 st2.mp st3.mp) mink M).2
        st2.maxr st3.maxr (by
        rcases hearly with h | h
        · exact h.1.trans hmk
        · rw [h]; exact hmk) hlt g5 k5 g2 k2 (fun k => g3 k) (fun k => k3 k)
      rw [h1]
      refine ⟨_, rfl, ?_⟩
      rw [ht]
      exact hval _ h2

/-- The same as `LeafRep` for two lists. -/
def LeafRep2 {V : Type} [AddCommMonoid V] (p : Params) (gn : Cell P → Cell P → ℝ → ℝ → ℤ → S → S) (Q : Cell P → Prop)
    (zeta : Cell P → S → S → ℤ → ℤ → List A) (clear : S) (tot : List A → V) (j : ℤ) (vo : Obj P → V)
    (all2 all3 : Multiset (Obj P)) (c : Cell P) : Prop :=
  ∃ Rep : S → (ℤ → Multiset (Obj P)) → Prop, Rep clear (fun _ => 0) ∧ GnRep p gn Q c Rep ∧
    ∀ x, (∃ o ∈ c.objs, o.pos = x) → ∀ mp2 R2 mp3 R3, Rep mp2 R2 → Rep mp3 R3 →
      ZetaRep p tot j (c.objs.map vo).sum (zeta c mp2 mp3)
        (fun ks => ∀ k, ks ≤ k → k < p.nbins → R2 k = binRows p x k all2 ∧ R3 k = binRows p x k all3)

theorem split12_sharp {V : Type} [AddCommMonoid V] (hp : LogParams p) (hs : Sharp p) (hQ : Hered Q)
    (hQ0 : ∀ c, Q c → c.Bounded 0) (hQ1 : Hered Q1) (hQ10 : ∀ c, Q1 c → c.Bounded 0) (hne : ∀ c, Q1 c → c.objs ≠ [])
    {zeta : Cell P → S → S → ℤ → ℤ → List A} {clear : S}
    {tot : List A → V} (ht : ∀ a b, tot (a ++ b) = tot a + tot b) (ht0 : tot [] = 0) {j : ℤ} {vo : Obj P → V}
    {all2 all3 : Multiset (Obj P)} (hrep : ∀ c, Q1 c → c.size = 0 → LeafRep2 p gn Q zeta clear tot j vo all2 all3 c)
    (c1 : Cell P) :
    ∀ (lst2 lst3 : List (Cell P)), Q1 c1 → (∀ c ∈ lst2, Q c) → (∀ c ∈ lst3, Q c) →
      (∀ o1 ∈ c1.objs, ∀ k, binRows p o1.pos k (cellRows lst2) = binRows p o1.pos k all2) →
      (∀ o1 ∈ c1.objs, ∀ k, binRows p o1.pos k (cellRows lst3) = binRows p o1.pos k all3) →
      ∃ out, multipoleSplit12 p gn zeta clear c1 lst2 lst3 = some out ∧
        tot out = if 0 ≤ j ∧ j < p.nbins then (c1.objs.map vo).sum else 0 := by
  induction c1 with
  | leaf d os =>
    intro lst2 lst3 q1 hl2 hl3 hf2 hf3
    obtain ⟨new2, h1, h2, h3⟩ := splitC2Cells_ok hp hQ hQ0 (hQ10 _ q1) lst2 hl2
    obtain ⟨new3, k1, k2, k3⟩ := splitC2Cells_ok hp hQ hQ0 (hQ10 _ q1) lst3 hl3
    unfold multipoleSplit12
    rw [h1, k1]
    simp only
    rw [sharp_eff hs, if_neg (by norm_num)]
    obtain ⟨Rep, r0, r1, r2⟩ := hrep _ q1 rfl
    obtain ⟨o1, ho1⟩ := List.exists_mem_of_ne_nil _ (hne _ q1)
    unfold multipoleFinish2
    obtain ⟨out, g1, g2⟩ := finish2_sharp hp hs hQ hQ0 (hQ10 _ q1) rfl ⟨o1, ho1, rfl⟩ r1 ht ht0 (r2 o1.pos ⟨o1, ho1, rfl⟩)
      (2 * ((Cell.leaf d os).nodes + listNodes new2 + listNodes new3) + 2) new2 new3 clear clear (fun _ => 0) (fun _ => 0)
      p.nbins 0 0 le_rfl (by omega) h2 k2 r0 r0 (by
        intro k
        rw [zero_add, h3 o1 ho1, hf2 o1 ho1]) (by
        intro k
        rw [zero_add, k3 o1 ho1, hf3 o1 ho1])
    exact ⟨out, g1, g2⟩
  | node d s l r ihl ihr =>
    intro lst2 lst3 q1 hl2 hl3 hf2 hf3
    obtain ⟨new2, h1, h2, h3⟩ := splitC2Cells_ok hp hQ hQ0 (hQ10 _ q1) lst2 hl2
    obtain ⟨new3, k1, k2, k3⟩ := splitC2Cells_ok hp hQ hQ0 (hQ10 _ q1) lst3 hl3
    unfold multipoleSplit12
    rw [h1, k1]
    simp only
    have hpos : 0 < s := (hQ10 _ q1).1
    rw [sharp_eff hs, if_pos (by positivity)]
    obtain ⟨ql, qr⟩ := hQ1 _ _ _ _ q1
    have ml : ∀ o ∈ l.objs, o ∈ (Cell.node d s l r).objs := fun o ho => by simp [Cell.objs, ho]
    have mr : ∀ o ∈ r.objs, o ∈ (Cell.node d s l r).objs := fun o ho => by simp [Cell.objs, ho]
    obtain ⟨a, a1, a2⟩ := ihl new2 new3 ql h2 k2 (fun o ho k => by rw [h3 o (ml o ho), hf2 o (ml o ho)])
      (fun o ho k => by rw [k3 o (ml o ho), hf3 o (ml o ho)])
    obtain ⟨b, b1, b2⟩ := ihr new2 new3 qr h2 k2 (fun o ho k => by rw [h3 o (mr o ho), hf2 o (mr o ho)])
      (fun o ho k => by rw [k3 o (mr o ho), hf3 o (mr o ho)])
    rw [a1, b1]
    refine ⟨_, rfl, ?_⟩
    rw [ht, a2, b2]
    simp only [Cell.objs, List.map_append, List.sum_append]
    split <;> simp

/-- The whole run over two lists. -/
theorem run2_sharp {V : Type} [AddCommMonoid V] (hp : LogParams p) (hs : Sharp p) (hQ : Hered Q)
    (hQ0 : ∀ c, Q c → c.Bounded 0) (hQ1 : Hered Q1) (hQ10 : ∀ c, Q1 c → c.Bounded 0) (hne : ∀ c, Q1 c → c.objs ≠ [])
    {zeta : Cell P → S → S → ℤ → ℤ → List A} {clear : S}
    {tot : List A → V} (ht : ∀ a b, tot (a ++ b) = tot a + tot b) (ht0 : tot [] = 0) {j : ℤ} {vo : Obj P → V}
    (cells2 cells3 : List (Cell P)) (h2 : ∀ c ∈ cells2, Q c) (h3 : ∀ c ∈ cells3, Q c)
    (hrep : ∀ c, Q1 c → c.size = 0 → LeafRep2 p gn Q zeta clear tot j vo (cellRows cells2) (cellRows cells3) c)
    (cells1 : List (Cell P)) (h1 : ∀ c ∈ cells1, Q1 c) :
    ∃ out, multipoleRun2 p gn zeta clear cells1 cells2 cells3 = some out ∧
      tot out = if 0 ≤ j ∧ j < p.nbins then ((cellRows cells1).map vo).sum else 0 := by
  unfold multipoleRun2
  induction cells1 with
  | nil => exact ⟨[], rfl, by rw [ht0, cellRows_nil]; simp⟩
  | cons c cs ih =>
    obtain ⟨b, b1, b2⟩ := ih (fun c h => h1 c (by simp [h]))
    obtain ⟨a, a1, a2⟩ := split12_sharp hp hs hQ hQ0 hQ1 hQ10 hne ht ht0 hrep c cells2 cells3 (h1 c (by simp)) h2 h3
      (fun _ _ _ => rfl) (fun _ _ _ => rfl)
    refine ⟨a ++ b, by simp [concatM, a1, b1], ?_⟩
    rw [ht, a2, b2, cellRows_cons, Multiset.map_add, Multiset.sum_add, Multiset.map_coe, Multiset.sum_coe]
    split <;> simp

end

end TreeCorr
