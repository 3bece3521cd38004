import Verif.Model.KMeansInit
import Verif.Proofs.Tree
import Verif.Proofs.Select
import Verif.Proofs.KMeansRun

/-! Helper lemmas for the initialisers of the patch centres. -/

namespace TreeCorr.KMeans
open Classical List
noncomputable section

variable {E : Type} [NormedAddCommGroup E] [InnerProductSpace ℝ E]

/-- What the trees built by the code have (with `min_size = 0`). -/
def Fine (c : Cell E) : Prop := c.Bounded 0 ∧ c.SumsOK

theorem fine_n {c : Cell E} (h : Fine c) : c.n = c.objs.length := by
  cases c with
  | leaf d os => exact h.2.2.1
  | node d s l r => exact h.2.1

theorem leafNumber_pos : ∀ (c : Cell E), Fine c → ∀ m (hm : m < c.objs.length), (leafNumber c m).pos = (c.objs[m]).pos
  | .leaf d os, h, m, hm => by
    have := h.1 (os[m]) (getElem_mem hm)
    exact (dist_le_zero.1 this).symm
  | .node d s l r, h, m, hm => by
    have hl : Fine l := ⟨h.1.2.2.1, h.2.2.2.2.1⟩
    have hr : Fine r := ⟨h.1.2.2.2, h.2.2.2.2.2⟩
    have e : (Cell.node d s l r).objs = l.objs ++ r.objs := rfl
    simp only [leafNumber, fine_n hl]
    split
    · rename_i h'
      rw [leafNumber_pos l hl m h']
      simp only [e, getElem_append_left h']
    · rename_i h'
      have : m < l.objs.length + r.objs.length := by simpa [e] using hm
      rw [leafNumber_pos r hr _ (by omega)]
      simp only [e, getElem_append_right (not_lt.1 h')]

theorem ntot_eq {cells : List (Cell E)} (h : ∀ c ∈ cells, Fine c) : ntot cells = (objsOf cells).length := by
  unfold ntot objsOf
  rw [length_flatMap]
  congr 1
  exact map_congr_left fun c hc => fine_n (h c hc)

theorem findLeaf_spec : ∀ (cells : List (Cell E)) (_ : ∀ c ∈ cells, Fine c) (k m : ℕ) (hm : m < (objsOf cells).length),
    ∃ x c, findLeaf cells k m = some x ∧ k ≤ x.1 ∧ cells[x.1 - k]? = some c ∧ x.2.pos = ((objsOf cells)[m]).pos ∧ (objsOf cells)[m] ∈ c.objs
  | [], _, _, m, hm => by simp [objsOf] at hm
  | c :: cs, h, k, m, hm => by
    have e : objsOf (c :: cs) = c.objs ++ objsOf cs := by simp [objsOf]
    have hc := h c mem_cons_self
    simp only [findLeaf, fine_n hc]
    split
    · rename_i h'
      refine ⟨_, c, rfl, le_rfl, by simp, ?_, ?_⟩
      · rw [leafNumber_pos c hc m h']
        simp only [e, getElem_append_left h']
      · simp only [e, getElem_append_left h']
        exact getElem_mem _
    · rename_i h'
      have : m < c.objs.length + (objsOf cs).length := by simpa [e] using hm
      obtain ⟨x, c', h1, h2, h3, h4, h5⟩ := findLeaf_spec cs (fun c hc => h c (mem_cons_of_mem _ hc)) (k + 1) (m - c.objs.length) (by omega)
      refine ⟨x, c', h1, by omega, ?_, ?_, ?_⟩
      · rw [show x.1 - k = (x.1 - (k + 1)) + 1 by omega, getElem?_cons_succ, h3]
      · rw [h4]
        simp only [e, getElem_append_right (not_lt.1 h')]
      · simp only [e, getElem_append_right (not_lt.1 h')]
        exact h5

/-! ### The random initialiser -/

theorem shiftRepeated_spec (u : ℕ → ℝ) (hu : ∀ k, 0 ≤ u k ∧ u k ≤ 1) (cen : ℕ → E) (i : ℕ) (p : E) (k : ℕ) :
    ∃ t : ℝ, 1 ≤ t ∧ t ≤ (1 + 1 / 10 ^ 8) ^ i ∧ (shiftRepeated u cen i p k).1 = t • p := by
  unfold shiftRepeated
  induction i with
  | zero => exact ⟨1, le_rfl, by simp, by simp⟩
  | succ i ih =>
    obtain ⟨t, h1, h2, h3⟩ := ih
    rw [range_succ, foldl_append, foldl_cons, foldl_nil]
    generalize foldl _ (p, k) (range i) = st at h3
    split
    · refine ⟨(1 + u st.2 * (1 / 10 ^ 8)) * t, ?_, ?_, ?_⟩
      · have := (hu st.2).1
        nlinarith
      · have h := hu st.2
        rw [pow_succ, mul_comm]
        exact mul_le_mul h2 (by linarith) (by linarith) (pow_nonneg (by norm_num) _)
      · simp only [h3, mul_smul]
    · refine ⟨t, h1, h2.trans ?_, h3⟩
      rw [pow_succ]
      exact le_mul_of_one_le_right (by positivity) (by norm_num)

theorem shiftRepeated_id (u : ℕ → ℝ) (cen : ℕ → E) (i : ℕ) (p : E) (k : ℕ) (h : ∀ j < i, cen j ≠ p) : shiftRepeated u cen i p k = (p, k) := by
  unfold shiftRepeated
  induction i with
  | zero => rfl
  | succ i ih =>
    rw [range_succ, foldl_append, foldl_cons, foldl_nil, ih fun j hj => h j (by omega), if_neg (h i (by omega))]

/-- After `i` turns of the loop. -/
theorem initRand_fold (u : ℕ → ℝ) (hu : ∀ k, 0 ≤ u k ∧ u k ≤ 1) (cells : List (Cell E)) (h : ∀ c ∈ cells, Fine c) (index : List ℕ) (k : ℕ)
    (hi : ∀ j ∈ index, j < (objsOf cells).length) (i : ℕ) (hl : i ≤ index.length) :
    let cen := ((range i).foldl (initRandStep u cells index) (fun _ => 0, k)).1
    ∀ j (hj : j < i), ∃ (o : Obj E) (t : ℝ), (objsOf cells)[index[j]]? = some o ∧ 1 ≤ t ∧ t ≤ (1 + 1 / 10 ^ 8) ^ j ∧ cen j = t • o.pos ∧
      ((∀ j' < j, cen j' ≠ o.pos) → cen j = o.pos) := by
  induction i with
  | zero => intro cen j hj; omega
  | succ i ih =>
    intro cen j hj
    have ih := ih (by omega)
    simp only at ih
    rw [show cen = (initRandStep u cells index ((range i).foldl (initRandStep u cells index) (fun _ => 0, k)) i).1 by
      simp only [cen]; rw [range_succ, foldl_append, foldl_cons, foldl_nil]]
    generalize (range i).foldl (initRandStep u cells index) (fun _ => (0 : E), k) = st at ih
    unfold initRandStep
    simp only
    rcases Nat.lt_succ_iff_lt_or_eq.1 hj with hj' | rfl
    · obtain ⟨o, t, h1, h2, h3, h4, h5⟩ := ih j hj'
      refine ⟨o, t, h1, h2, h3, by rw [Function.update_of_ne (by omega), h4], fun h' => ?_⟩
      rw [Function.update_of_ne (by omega)]
      refine h5 fun j' hj'' => ?_
      have := h' j' hj''
      rwa [Function.update_of_ne (by omega)] at this
    · have hlt := hi index[j] (getElem_mem _)
      obtain ⟨x, c, f1, -, -, f4, -⟩ := findLeaf_spec cells h 0 index[j] hlt
      rw [getElem?_eq_getElem (l := index) (by omega), Option.bind_some, f1]
      simp only
      obtain ⟨t, h1, h2, h3⟩ := shiftRepeated_spec u hu st.1 j x.2.pos st.2
      refine ⟨(objsOf cells)[index[j]], t, getElem?_eq_getElem hlt, h1, h2, by rw [Function.update_self, h3, f4], fun h' => ?_⟩
      rw [Function.update_self, shiftRepeated_id, f4]
      intro j' hj''
      have := h' j' hj''
      rwa [Function.update_of_ne (by omega), ← f4] at this

/-- Different places of a list. -/
theorem subperm_of_places {α : Type} (l : List α) (index : List ℕ) (hd : index.Nodup) (hi : ∀ j ∈ index, j < l.length) (sel : List α)
    (hs : ∀ j (hj : j < index.length), l[index[j]]? = sel[j]?) (hl : sel.length = index.length) : sel <+~ l := by
  have h1 : index <+~ range l.length := subperm_of_subset hd fun j hj => mem_range.2 (hi j hj)
  have mp : ∀ {β γ : Type} {a b : List β} (f : β → γ), a <+~ b → a.map f <+~ b.map f :=
    fun f ⟨c, hp, hs⟩ => ⟨c.map f, hp.map f, hs.map f⟩
  have h2 := mp (fun j => l[j]?) h1
  have e1 : (range l.length).map (fun j => l[j]?) = l.map some := by
    apply ext_getElem <;> simp +contextual
  have e2 : index.map (fun j => l[j]?) = sel.map some := by
    apply ext_getElem
    · simp [hl]
    · intro n a b
      simp only [length_map] at a b
      simp [hs n a, getElem?_eq_getElem b]
  rw [e1, e2] at h2
  rcases sel with _ | ⟨a, sel⟩
  · exact nil_subperm
  · simpa [Function.comp_def] using mp (Option.getD · a) h2

/-! ### k-means++ -/

theorem minFold (f : ℕ → ℝ) : ∀ (L : List ℕ) (m : ℝ),
    let r := L.foldl (fun m j => if f j < m then f j else m) m
    r ≤ m ∧ (∀ j ∈ L, r ≤ f j) ∧ (r = m ∨ ∃ j ∈ L, r = f j)
  | [], m => by simp
  | a :: L, m => by
    obtain ⟨h1, h2, h3⟩ := minFold f L (if f a < m then f a else m)
    simp only [foldl_cons]
    refine ⟨h1.trans ?_, ?_, ?_⟩
    · split <;> linarith
    · intro j hj
      rcases mem_cons.1 hj with rfl | hj
      · refine h1.trans ?_
        split <;> linarith
      · exact h2 j hj
    · rcases h3 with h3 | ⟨j, hj, h3⟩
      · rw [h3]
        split
        · exact Or.inr ⟨a, mem_cons_self, rfl⟩
        · exact Or.inl rfl
      · exact Or.inr ⟨j, mem_cons_of_mem _ hj, h3⟩

theorem minDsq_nonneg (cen : ℕ → E) (n : ℕ) (p : E) : 0 ≤ minDsq cen n p := by
  unfold minDsq
  obtain ⟨-, -, h | ⟨j, -, h⟩⟩ := minFold (fun j => ‖p - cen j‖ ^ 2) (range' 1 (n - 1)) (‖p - cen 0‖ ^ 2)
  · rw [h]; positivity
  · rw [h]; positivity

theorem minDsq_zero {cen : ℕ → E} {n : ℕ} (hn : 1 ≤ n) {p : E} : minDsq cen n p = 0 ↔ ∃ j < n, p = cen j := by
  have h0 := minDsq_nonneg cen n p
  unfold minDsq at h0 ⊢
  obtain ⟨h1, h2, h3⟩ := minFold (fun j => ‖p - cen j‖ ^ 2) (range' 1 (n - 1)) (‖p - cen 0‖ ^ 2)
  constructor
  · intro h
    rw [h] at h3
    rcases h3 with h3 | ⟨j, hj, h3⟩
    · exact ⟨0, hn, sub_eq_zero.1 (norm_eq_zero.1 (pow_eq_zero_iff (n := 2) (by norm_num) |>.1 h3.symm))⟩
    · refine ⟨j, ?_, sub_eq_zero.1 (norm_eq_zero.1 (pow_eq_zero_iff (n := 2) (by norm_num) |>.1 h3.symm))⟩
      rw [mem_range'_1] at hj
      omega
  · rintro ⟨j, hj, rfl⟩
    refine le_antisymm ?_ h0
    rcases Nat.eq_zero_or_pos j with rfl | h
    · simpa using h1
    · have := h2 j (by rw [mem_range'_1]; omega)
      simpa using this

theorem kmppLeaf_some {cen : ℕ → E} {n : ℕ} {q p : E} (h : kmppLeaf cen n q = some p) : q = p ∧ ∀ j < n, cen j ≠ p := by
  unfold kmppLeaf at h
  split at h
  · cases h
  · rename_i h'
    cases h
    exact ⟨rfl, fun j hj e => h' ⟨j, hj, e.symm⟩⟩

/-- The chosen position is that of a row, and that of none of the centres. -/
theorem kmppCell_some (u : ℕ → ℝ) (cen : ℕ → E) (n : ℕ) : ∀ (c : Cell E), Fine c → ∀ k p, (kmppCell u cen n c k).1 = some p →
    (∃ o ∈ c.objs, o.pos = p) ∧ ∀ j < n, cen j ≠ p
  | .leaf d os, h, k, p, hp => by
    obtain ⟨h1, h2⟩ := kmppLeaf_some hp
    obtain ⟨o, ho⟩ := exists_mem_of_ne_nil _ h.2.1
    exact ⟨⟨o, ho, by rw [← h1]; exact dist_le_zero.1 (h.1 o ho)⟩, h2⟩
  | .node d s l r, h, k, p, hp => by
    have hl : Fine l := ⟨h.1.2.2.1, h.2.2.2.2.1⟩
    have hr : Fine r := ⟨h.1.2.2.2, h.2.2.2.2.2⟩
    have hs : s ≠ 0 := h.1.1.ne'
    have il := kmppCell_some u cen n l hl
    have ir := kmppCell_some u cen n r hr
    have e : (Cell.node d s l r).objs = l.objs ++ r.objs := rfl
    have tl : ∀ k, (kmppCell u cen n l k).1 = some p → (∃ o ∈ (Cell.node d s l r).objs, o.pos = p) ∧ ∀ j < n, cen j ≠ p := by
      intro k hk
      obtain ⟨⟨o, ho, h1⟩, h2⟩ := il k p hk
      exact ⟨⟨o, by rw [e]; exact mem_append_left _ ho, h1⟩, h2⟩
    have tr : ∀ k, (kmppCell u cen n r k).1 = some p → (∃ o ∈ (Cell.node d s l r).objs, o.pos = p) ∧ ∀ j < n, cen j ≠ p := by
      intro k hk
      obtain ⟨⟨o, ho, h1⟩, h2⟩ := ir k p hk
      exact ⟨⟨o, by rw [e]; exact mem_append_right _ ho, h1⟩, h2⟩
    simp only [kmppCell, if_neg hs] at hp
    split at hp
    · cases hp
    · split at hp
      · split at hp
        · rename_i q k' hq
          exact tl (k + 1) (by rw [hq]; exact hp)
        · exact tr _ hp
      · split at hp
        · rename_i q k' hq
          exact tr (k + 1) (by rw [hq]; exact hp)
        · exact tl _ hp

/-- If no cell with a size is at a centre, the search succeeds whenever a row is at none of the centres. -/
theorem kmppCell_isSome (u : ℕ → ℝ) (cen : ℕ → E) (n : ℕ) (hn : 1 ≤ n) : ∀ (c : Cell E), Fine c →
    c.Each (fun c => 0 < c.size → ∀ j < n, c.pos ≠ cen j) → (∃ o ∈ c.objs, ∀ j < n, o.pos ≠ cen j) →
    ∀ k, ∃ p k', kmppCell u cen n c k = (some p, k')
  | .leaf d os, h, _, ⟨o, ho, hj⟩, k => by
    have : o.pos = d.pos := dist_le_zero.1 (h.1 o ho)
    refine ⟨d.pos, k, ?_⟩
    simp only [kmppCell, kmppLeaf]
    rw [if_neg]
    rintro ⟨j, h1, h2⟩
    exact hj j h1 (this.trans h2)
  | .node d s l r, h, he, ⟨o, ho, hj⟩, k => by
    have hl : Fine l := ⟨h.1.2.2.1, h.2.2.2.2.1⟩
    have hr : Fine r := ⟨h.1.2.2.2, h.2.2.2.2.2⟩
    have hs : s ≠ 0 := h.1.1.ne'
    have il := kmppCell_isSome u cen n hn l hl he.2.1
    have ir := kmppCell_isSome u cen n hn r hr he.2.2
    have used : ∀ (c : Cell E), Fine c → c.Each (fun c => 0 < c.size → ∀ j < n, c.pos ≠ cen j) → minDsq cen n c.pos = 0 →
        ∀ o ∈ c.objs, ∃ j < n, o.pos = cen j := by
      intro c hc hec h0 o ho
      obtain ⟨j, hj, e⟩ := (minDsq_zero hn).1 h0
      cases c with
      | leaf d os => exact ⟨j, hj, (dist_le_zero.1 (hc.1 o ho)).trans e⟩
      | node d s l r => exact absurd e (hec.1 hc.1.1 j hj)
    simp only [kmppCell, if_neg hs]
    have n1 := minDsq_nonneg cen n l.pos
    have n2 := minDsq_nonneg cen n r.pos
    have hol : o ∈ l.objs ∨ o ∈ r.objs := mem_append.1 ho
    rw [if_neg]
    · have key : ∀ (a b : Cell E), (∃ o ∈ a.objs, ∀ j < n, o.pos ≠ cen j) ∨ (∃ o ∈ b.objs, ∀ j < n, o.pos ≠ cen j) →
          ((∃ o ∈ a.objs, ∀ j < n, o.pos ≠ cen j) → ∀ k, ∃ p k', kmppCell u cen n a k = (some p, k')) →
          ((∃ o ∈ b.objs, ∀ j < n, o.pos ≠ cen j) → ∀ k, ∃ p k', kmppCell u cen n b k = (some p, k')) →
          ∃ p k', (match kmppCell u cen n a (k + 1) with
            | (some p, k') => (some p, k')
            | (none, k') => kmppCell u cen n b k') = (some p, k') := by
        intro a b hab ha hb
        split
        · exact ⟨_, _, rfl⟩
        · rename_i k' hk
          rcases hab with hab | hab
          · obtain ⟨p, k'', e⟩ := ha hab (k + 1)
            rw [e] at hk
            cases hk
          · exact hb hab k'
      split
      · exact key l r (hol.imp (fun h => ⟨o, h, hj⟩) fun h => ⟨o, h, hj⟩) il ir
      · exact key r l (hol.symm.imp (fun h => ⟨o, h, hj⟩) fun h => ⟨o, h, hj⟩) ir il
    · intro h0
      rcases hol with hol | hol
      · obtain ⟨j, h1, h2⟩ := used l hl he.2.1 (by linarith) o hol
        exact hj j h1 h2
      · obtain ⟨j, h1, h2⟩ := used r hr he.2.2 (by linarith) o hol
        exact hj j h1 h2

theorem kmppChoose_some (sump : ℝ) (hs : 0 < sump) : ∀ (ps : List ℝ) (k : ℕ) (v : ℝ), 0 ≤ v → v < ps.sum / sump →
    ∃ k' p, kmppChoose sump ps k v = some (k + k') ∧ ps[k']? = some p ∧ 0 < p
  | [], k, v, h0, h1 => by simp at h1; linarith
  | p :: ps, k, v, h0, h1 => by
    rw [kmppChoose, if_neg hs.ne']
    split
    · rename_i h
      refine ⟨0, p, by simp, by simp, ?_⟩
      have := h0.trans_lt h
      exact (div_pos_iff_of_pos_right hs).1 this
    · rename_i h
      rw [sum_cons, add_div] at h1
      obtain ⟨k', q, e1, e2, e3⟩ := kmppChoose_some sump hs ps (k + 1) (v - p / sump) (by linarith) (by linarith)
      exact ⟨k' + 1, q, by rw [e1]; congr 1; ring, by simpa using e2, e3⟩

/-- What holds after `i` centres have been chosen; `src j` is the cell that centre `j` comes from. -/
structure KmppInv (cells : List (Cell E)) (i : ℕ) (st : Kmpp E) (src : ℕ → ℕ) : Prop where
  row : ∀ j < i, ∃ c, cells[src j]? = some c ∧ ∃ o ∈ c.objs, o.pos = st.cen j
  diff : ∀ j < i, ∀ j' < j, st.cen j ≠ st.cen j'
  rest : ∀ j ≥ i, st.cen j = 0
  count : ∀ k, st.perCell k = ((Finset.range i).filter fun j => src j = k).card

/-- No two rows at the same position. -/
def DiffRows (cells : List (Cell E)) : Prop := ((objsOf cells).map Obj.pos).Nodup

theorem same_cell {cells : List (Cell E)} (hd : DiffRows cells) {k k' : ℕ} {c c' : Cell E} (hk : cells[k]? = some c) (hk' : cells[k']? = some c')
    {o o' : Obj E} (ho : o ∈ c.objs) (ho' : o' ∈ c'.objs) (e : o.pos = o'.pos) : k = k' := by
  unfold DiffRows objsOf at hd
  rw [map_flatMap, nodup_flatMap] at hd
  have hp := hd.2
  rw [pairwise_iff_getElem] at hp
  obtain ⟨h1, rfl⟩ := List.getElem?_eq_some_iff.1 hk
  obtain ⟨h2, rfl⟩ := List.getElem?_eq_some_iff.1 hk'
  rcases lt_trichotomy k k' with h | h | h
  · exact absurd (mem_map.2 ⟨o', ho', e.symm⟩) (hp k k' h1 h2 h (mem_map.2 ⟨o, ho, rfl⟩))
  · exact h
  · exact absurd (mem_map.2 ⟨o, ho, e⟩) (hp k' k h2 h1 h (mem_map.2 ⟨o', ho', rfl⟩))

theorem cell_nodup {cells : List (Cell E)} (hd : DiffRows cells) {k : ℕ} {c : Cell E} (hk : cells[k]? = some c) : (c.objs.map Obj.pos).Nodup := by
  unfold DiffRows objsOf at hd
  rw [map_flatMap, nodup_flatMap] at hd
  exact hd.1 c (mem_of_getElem? hk)

/-- No cell gives more centres than it has rows. -/
theorem count_le {cells : List (Cell E)} (hf : ∀ c ∈ cells, Fine c) {i : ℕ} {st : Kmpp E} {src : ℕ → ℕ}
    (h : KmppInv cells i st src) {k : ℕ} {c : Cell E} (hk : cells[k]? = some c) : st.perCell k ≤ c.n := by
  rw [h.count, fine_n (hf c (mem_of_getElem? hk)), ← length_map (f := Obj.pos)]
  refine le_trans ?_ (toFinset_card_le _)
  refine Finset.card_le_card_of_injOn st.cen ?_ ?_
  · intro j hj
    simp only [Finset.coe_filter, Finset.mem_range, Set.mem_ofPred_eq] at hj
    obtain ⟨c', h1, o, ho, e⟩ := h.row j hj.1
    rw [hj.2, hk] at h1
    cases h1
    simp only [coe_toFinset, Set.mem_ofPred_eq]
    exact mem_map.2 ⟨o, ho, e⟩
  · intro j hj j' hj' e
    simp only [Finset.coe_filter, Finset.mem_range, Set.mem_ofPred_eq] at hj hj'
    rcases lt_trichotomy j j' with h1 | h1 | h1
    · exact absurd e.symm (h.diff j' hj'.1 j h1)
    · exact h1
    · exact absurd e (h.diff j hj.1 j' h1)

/-- A cell that has given fewer centres than it has rows has a row at no centre. -/
theorem free_row {cells : List (Cell E)} (hf : ∀ c ∈ cells, Fine c) (hd : DiffRows cells) {i : ℕ} {st : Kmpp E} {src : ℕ → ℕ}
    (h : KmppInv cells i st src) {k : ℕ} {c : Cell E} (hk : cells[k]? = some c) (hlt : st.perCell k < c.n) :
    ∃ o ∈ c.objs, ∀ j < i, o.pos ≠ st.cen j := by
  by_contra hno
  push Not at hno
  refine absurd hlt (not_lt.2 ?_)
  rw [h.count, fine_n (hf c (mem_of_getElem? hk)), ← length_map (f := Obj.pos), ← toFinset_card_of_nodup (cell_nodup hd hk)]
  refine (Finset.card_le_card ?_).trans (Finset.card_image_le (f := st.cen))
  intro x hx
  rw [mem_toFinset] at hx
  obtain ⟨o, ho, rfl⟩ := mem_map.1 hx
  obtain ⟨j, hj, e⟩ := hno o ho
  obtain ⟨c', h1, o', ho', e'⟩ := h.row j hj
  rw [Finset.mem_image]
  refine ⟨j, ?_, e.symm⟩
  rw [Finset.mem_filter, Finset.mem_range]
  exact ⟨hj, same_cell hd h1 hk ho' ho (e'.trans e.symm)⟩

/-- As long as there are more rows than centres, some cell has given fewer centres than it has rows. -/
theorem free_cell {cells : List (Cell E)} {i : ℕ} {st : Kmpp E} {src : ℕ → ℕ}
    (h : KmppInv cells i st src) (hi : i < ntot cells) : ∃ k c, cells[k]? = some c ∧ st.perCell k < c.n := by
  by_contra hno
  push Not at hno
  have h1 : ntot cells ≤ ∑ k ∈ Finset.range cells.length, st.perCell k := by
    unfold ntot
    rw [← Fin.sum_univ_fun_getElem, Finset.sum_range]
    exact Finset.sum_le_sum fun k _ => hno k _ (by simp)
  have h2 : ∑ k ∈ Finset.range cells.length, st.perCell k = i := by
    simp only [h.count]
    rw [← Finset.card_eq_sum_card_fiberwise (s := Finset.range i) (t := Finset.range cells.length) (f := src)]
    · simp
    · intro j hj
      obtain ⟨c, h1, -⟩ := h.row j (by simpa using hj)
      have := (List.getElem?_eq_some_iff.1 h1).1
      simpa using this
  omega

theorem mem_probs {coef : ℝ} {st : Kmpp E} {i : ℕ} {cells : List (Cell E)} {k : ℕ} {p : ℝ} :
    (cells.zipIdx.map fun ck => kmppProb coef st i ck.2 ck.1)[k]? = some p ↔ ∃ c, cells[k]? = some c ∧ p = kmppProb coef st i k c := by
  rw [getElem?_map, getElem?_zipIdx, Option.map_map]
  simp only [Option.map_eq_some_iff, Function.comp, zero_add]
  constructor
  · rintro ⟨c, h1, h2⟩; exact ⟨c, h1, h2.symm⟩
  · rintro ⟨c, h1, h2⟩; exact ⟨c, h1, h2.symm⟩

/-- The step always chooses a cell with a row that is not a centre. -/
theorem kmppStep_eq {cells : List (Cell E)} (hf : ∀ c ∈ cells, Fine c) (hd : DiffRows cells) (u : ℕ → ℝ) (hu : ∀ k, 0 ≤ u k ∧ u k < 1)
    {coef : ℝ} (hc : 0 < coef) {i : ℕ} (hi1 : 1 ≤ i) (nc : ℕ) {st : Kmpp E} {src : ℕ → ℕ} (h : KmppInv cells i st src) (hi : i < ntot cells) :
    ∃ k c, cells[k]? = some c ∧ st.perCell k < c.n ∧ kmppStep u coef cells nc st i =
      match kmppCell u st.cen nc c (st.calls + 1) with
      | (none, _) => none
      | (some p, calls) => some ⟨Function.update st.cen i p, Function.update st.perCell k (st.perCell k + 1), calls⟩ := by
  set ps := cells.zipIdx.map fun ck => kmppProb coef st i ck.2 ck.1 with hps
  have hn : ∀ p ∈ ps, 0 ≤ p := by
    intro p hp
    obtain ⟨k, hk⟩ := mem_iff_getElem?.1 hp
    obtain ⟨c, h1, rfl⟩ := mem_probs.1 hk
    have := count_le hf h h1
    have h2 : (st.perCell k : ℝ) ≤ c.n := by exact_mod_cast this
    have := minDsq_nonneg st.cen i c.pos
    unfold kmppProb
    exact mul_nonneg (by linarith) (add_nonneg this (mul_nonneg hc.le (mul_self_nonneg _)))
  have hpos : 0 < ps.sum := by
    obtain ⟨k, c, hk, hlt⟩ := free_cell h hi
    have hk' : ps[k]? = some (kmppProb coef st i k c) := mem_probs.2 ⟨c, hk, rfl⟩
    refine lt_of_lt_of_le ?_ (single_le_sum hn _ (mem_of_getElem? hk'))
    have h2 : (st.perCell k : ℝ) < c.n := by exact_mod_cast hlt
    have h3 := minDsq_nonneg st.cen i c.pos
    unfold kmppProb
    refine mul_pos (by linarith) ?_
    obtain ⟨o, ho, hfree⟩ := free_row hf hd h hk hlt
    have hfc := hf c (mem_of_getElem? hk)
    cases c with
    | leaf d os =>
      refine add_pos_of_pos_of_nonneg (lt_of_le_of_ne h3 fun h0 => ?_) (by simp [Cell.size])
      obtain ⟨j, hj, e⟩ := (minDsq_zero hi1).1 h0.symm
      exact hfree j hj ((dist_le_zero.1 (hfc.1 o ho)).trans e)
    | node d s l r =>
      exact add_pos_of_nonneg_of_pos h3 (mul_pos hc (mul_self_pos.2 hfc.1.1.ne'))
  obtain ⟨k, p, e1, e2, e3⟩ := kmppChoose_some ps.sum hpos ps 0 (u st.calls) (hu _).1 (by rw [div_self hpos.ne']; exact (hu _).2)
  obtain ⟨c, hk, rfl⟩ := mem_probs.1 e2
  refine ⟨k, c, hk, ?_, ?_⟩
  · unfold kmppProb at e3
    have h2 := pos_of_mul_pos_left e3 (add_nonneg (minDsq_nonneg st.cen i c.pos) (mul_nonneg hc.le (mul_self_nonneg _)))
    have : (st.perCell k : ℝ) < c.n := by linarith
    exact_mod_cast this
  · unfold kmppStep
    simp only [← hps, e1, zero_add, hk]
    rfl

theorem kmppStep_inv {cells : List (Cell E)} (hf : ∀ c ∈ cells, Fine c) (hd : DiffRows cells) (u : ℕ → ℝ) (hu : ∀ k, 0 ≤ u k ∧ u k < 1)
    {coef : ℝ} (hc : 0 < coef) {i : ℕ} (hi1 : 1 ≤ i) {nc : ℕ} (hin : i < nc) {st st' : Kmpp E} {src : ℕ → ℕ} (h : KmppInv cells i st src)
    (hi : i < ntot cells) (hst : kmppStep u coef cells nc st i = some st') :
    (∃ src', KmppInv cells (i + 1) st' src') ∧ st'.cen i ≠ 0 ∧ ∀ j < i, st'.cen j = st.cen j := by
  obtain ⟨k, c, hk, hlt, e⟩ := kmppStep_eq hf hd u hu hc hi1 nc h hi
  rw [e] at hst
  split at hst
  · cases hst
  · rename_i p calls hp
    cases hst
    obtain ⟨⟨o, ho, e1⟩, e2⟩ := kmppCell_some u st.cen nc c (hf c (mem_of_getElem? hk)) (st.calls + 1) p (by rw [hp])
    refine ⟨⟨Function.update src i k, ?_, ?_, ?_, ?_⟩, ?_, ?_⟩
    · intro j hj
      rcases Nat.lt_succ_iff_lt_or_eq.1 hj with hj | rfl
      · obtain ⟨c', h1, h2⟩ := h.row j hj
        refine ⟨c', by rw [Function.update_of_ne (by omega)]; exact h1, ?_⟩
        simp only
        rw [Function.update_of_ne (by omega)]
        exact h2
      · refine ⟨c, by rw [Function.update_self]; exact hk, o, ho, ?_⟩
        simp only [Function.update_self, e1]
    · intro j hj j' hj'
      simp only
      rcases Nat.lt_succ_iff_lt_or_eq.1 hj with hj | rfl
      · rw [Function.update_of_ne (by omega), Function.update_of_ne (by omega)]
        exact h.diff j hj j' hj'
      · rw [Function.update_self, Function.update_of_ne (by omega)]
        exact (e2 j' (by omega)).symm
    · intro j hj
      simp only
      rw [Function.update_of_ne (by omega)]
      exact h.rest j (by omega)
    · intro k'
      simp only
      rw [Finset.range_add_one, Finset.filter_insert]
      have e3 : (Finset.range i).filter (fun j => Function.update src i k j = k') = (Finset.range i).filter fun j => src j = k' := by
        refine Finset.filter_congr fun j hj => ?_
        rw [Function.update_of_ne]
        have := Finset.mem_range.1 hj
        omega
      rw [Function.update_self, e3]
      split
      · rename_i e4
        subst e4
        rw [Finset.card_insert_of_notMem (by simp), Function.update_self, h.count]
      · rename_i e4
        rw [Function.update_of_ne (fun e5 => e4 e5.symm), h.count]
    · simp only [Function.update_self]
      have := e2 i hin
      rw [h.rest i le_rfl] at this
      exact this.symm
    · intro j hj
      simp only
      rw [Function.update_of_ne (by omega)]

theorem kmppFirst_inv {cells : List (Cell E)} (hf : ∀ c ∈ cells, Fine c) (u : ℕ → ℝ) (hu : ∀ k, 0 ≤ u k ∧ u k < 1) (hn : 0 < ntot cells) :
    (∃ src, KmppInv cells 1 (kmppFirst u cells) src) ∧
      ∃ h : ⌊u 0 * ntot cells⌋₊ < (objsOf cells).length, (kmppFirst u cells).cen 0 = ((objsOf cells)[⌊u 0 * ntot cells⌋₊]).pos := by
  have hm : ⌊u 0 * ntot cells⌋₊ < (objsOf cells).length := by
    rw [← ntot_eq hf, Nat.floor_lt (mul_nonneg (hu 0).1 (Nat.cast_nonneg _))]
    have : (0 : ℝ) < ntot cells := by exact_mod_cast hn
    nlinarith [(hu 0).2]
  obtain ⟨x, c, h1, -, h3, h4, h5⟩ := findLeaf_spec cells hf 0 _ hm
  rw [Nat.sub_zero] at h3
  have e : kmppFirst u cells = ⟨Function.update (fun _ => 0) 0 x.2.pos, Function.update (fun _ => 0) x.1 1, 1⟩ := by
    unfold kmppFirst
    rw [h1]
  rw [e]
  refine ⟨⟨fun _ => x.1, ?_, ?_, ?_, ?_⟩, hm, by simp only [Function.update_self]; exact h4⟩
  · intro j hj
    obtain rfl : j = 0 := by omega
    exact ⟨c, h3, _, h5, by simp only [Function.update_self]; exact h4.symm⟩
  · intro j hj j' hj'; omega
  · intro j hj
    simp only
    rw [Function.update_of_ne (by omega)]
  · intro k
    simp only [Finset.range_one, Finset.filter_singleton]
    by_cases hk : x.1 = k
    · subst hk; simp
    · rw [Function.update_of_ne (fun h => hk h.symm), if_neg hk]; simp

theorem each_imp {P : Type} {p q : Cell P → Prop} (hpq : ∀ c, p c → q c) : ∀ {c : Cell P}, c.Each p → c.Each q
  | .leaf _ _, h => hpq _ h
  | .node _ _ _ _, h => ⟨hpq _ h.1, each_imp hpq h.2.1, each_imp hpq h.2.2⟩

/-- After the loop. -/
theorem kmpp_loop {cells : List (Cell E)} (hf : ∀ c ∈ cells, Fine c) (hd : DiffRows cells) (u : ℕ → ℝ) (hu : ∀ k, 0 ≤ u k ∧ u k < 1)
    {coef : ℝ} (hc : 0 < coef) {nc : ℕ} (hn : nc ≤ ntot cells) : ∀ (m i : ℕ) (st st' : Kmpp E) (src : ℕ → ℕ), 1 ≤ i → i + m = nc → KmppInv cells i st src →
    (range' i m).foldlM (kmppStep u coef cells nc) st = some st' →
      (∃ src', KmppInv cells nc st' src') ∧ (∀ j < i, st'.cen j = st.cen j) ∧ ∀ j, i ≤ j → j < nc → st'.cen j ≠ 0
  | 0, i, st, st', src, h1, h2, h, he => by
    cases he
    obtain rfl : i = nc := by omega
    exact ⟨⟨src, h⟩, fun _ _ => rfl, fun j _ _ => by omega⟩
  | m + 1, i, st, st', src, h1, h2, h, he => by
    rw [range'_succ, foldlM_cons] at he
    obtain ⟨st1, e1, e2⟩ := Option.bind_eq_some_iff.1 he
    obtain ⟨⟨src1, i1⟩, i2, i3⟩ := kmppStep_inv hf hd u hu hc h1 (by omega) h (by omega) e1
    obtain ⟨k1, k2, k3⟩ := kmpp_loop hf hd u hu hc hn m (i + 1) st1 st' src1 (by omega) (by omega) i1 e2
    refine ⟨k1, fun j hj => (k2 j (by omega)).trans (i3 j hj), fun j hj hj' => ?_⟩
    rcases Nat.eq_or_lt_of_le hj with rfl | hj
    · rw [k2 i (by omega)]; exact i2
    · exact k3 j hj hj'

theorem kmpp_loop_isSome {cells : List (Cell E)} (hf : ∀ c ∈ cells, Fine c) (hd : DiffRows cells) (u : ℕ → ℝ) (hu : ∀ k, 0 ≤ u k ∧ u k < 1)
    {coef : ℝ} (hc : 0 < coef) {nc : ℕ} (hn : nc ≤ ntot cells) (h0 : ∀ o ∈ objsOf cells, o.pos ≠ 0)
    (hg : ∀ c ∈ cells, c.Each fun c => 0 < c.size → c.pos ≠ 0 ∧ ∀ o ∈ objsOf cells, c.pos ≠ o.pos) :
    ∀ (m i : ℕ) (st : Kmpp E) (src : ℕ → ℕ), 1 ≤ i → i + m = nc → KmppInv cells i st src →
    ∃ st', (range' i m).foldlM (kmppStep u coef cells nc) st = some st'
  | 0, i, st, src, h1, h2, h => ⟨st, rfl⟩
  | m + 1, i, st, src, h1, h2, h => by
    rw [range'_succ, foldlM_cons]
    obtain ⟨k, c, hk, hlt, e⟩ := kmppStep_eq hf hd u hu hc h1 nc h (by omega)
    have hmem := mem_of_getElem? hk
    have hcen : ∀ j, st.cen j = 0 ∨ ∃ o ∈ objsOf cells, o.pos = st.cen j := by
      intro j
      by_cases hj : j < i
      · obtain ⟨c', a1, o, ho, a2⟩ := h.row j hj
        exact Or.inr ⟨o, mem_flatMap.2 ⟨c', mem_of_getElem? a1, ho⟩, a2⟩
      · exact Or.inl (h.rest j (by omega))
    obtain ⟨o, ho, hfree⟩ := free_row hf hd h hk hlt
    obtain ⟨p, calls, hp⟩ := kmppCell_isSome u st.cen nc (by omega) c (hf c hmem)
      (each_imp (fun c' hc' hs j _ => by
        rcases hcen j with e0 | ⟨o, ho, e0⟩
        · rw [e0]; exact (hc' hs).1
        · rw [← e0]; exact (hc' hs).2 o ho) (hg c hmem))
      ⟨o, ho, fun j _ => by
        by_cases hj : j < i
        · exact hfree j hj
        · rw [h.rest j (by omega)]; exact h0 o (mem_flatMap.2 ⟨c, hmem, ho⟩)⟩ (st.calls + 1)
    rw [hp] at e
    simp only at e
    obtain ⟨⟨src1, i1⟩, -, -⟩ := kmppStep_inv hf hd u hu hc h1 (by omega) h (by omega) e
    rw [e]
    exact kmpp_loop_isSome hf hd u hu hc hn h0 hg m (i + 1) _ src1 (by omega) (by omega) i1

end
end TreeCorr.KMeans
