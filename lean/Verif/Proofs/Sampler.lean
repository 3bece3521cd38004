import Verif.Model.Sampler
import Verif.Proofs.Select
import Verif.Proofs.AtMostOnce

/-! The sampler keeps different pairs. -/

namespace TreeCorr
open Classical List
variable {P : Type}

namespace Sampler

theorem put_some {n : ℕ} (a : ℕ → Option SampledPair) {j : ℕ} (v : SampledPair) (h : j < n) :
    put n a j v = some (fun i => if i = j then some v else a i) := by
  rw [put, if_pos h]

/-- The arrays hold the entries of `all` with the numbers `f i`. -/
structure Holds (n : ℕ) (all : List SampledPair) (st : Sampler) (f : ℕ → ℕ) : Prop where
  k : st.k = all.length
  entry : ∀ i < min n st.k, st.arr i = all[f i]? ∧ f i < st.k
  inj : ∀ i < min n st.k, ∀ j < min n st.k, f i = f j → i = j
  all : st.k ≤ n → ∀ i < st.k, f i = i

/-- Nothing is in the arrays but pairs that came up. -/
structure Sound (all : List SampledPair) (st : Sampler) : Prop where
  k : st.k = all.length
  mem : ∀ i v, st.arr i = some v → v ∈ all

theorem Sound.put {all : List SampledPair} {st : Sampler} (h : Sound all st) (j : ℕ) (v : SampledPair) (used : ℕ) :
    Sound (all ++ [v]) { arr := fun i => if i = j then some v else st.arr i, k := st.k + 1, used := used } where
  k := by simp [h.k]
  mem := by
    intro i w hw
    simp only at hw
    split at hw
    · cases hw; simp
    · exact List.mem_append_left _ (h.mem i w hw)

theorem Sound.skip {all : List SampledPair} {st : Sampler} (h : Sound all st) (v : SampledPair) (used : ℕ) :
    Sound (all ++ [v]) { arr := st.arr, k := st.k + 1, used := used } where
  k := by simp [h.k]
  mem := fun i w hw => List.mem_append_left _ (h.mem i w hw)

/-- The next entry is written to the end. -/
theorem Holds.push {n : ℕ} {all : List SampledPair} {st : Sampler} {f : ℕ → ℕ} (h : Holds n all st f) (hk : st.k < n) (v : SampledPair)
    (used : ℕ) :
    Holds n (all ++ [v]) { arr := fun i => if i = st.k then some v else st.arr i, k := st.k + 1, used := used } id where
  k := by simp [h.k]
  entry := by
    intro i hi
    simp only [id] at hi ⊢
    have hi' : i < st.k + 1 := lt_of_lt_of_le hi (min_le_right _ _)
    refine ⟨?_, hi'⟩
    by_cases e : i = st.k
    · rw [if_pos e, e, h.k]; simp
    · rw [if_neg e, (h.entry i (by omega)).1, h.all hk.le i (by omega), List.getElem?_append_left (by rw [← h.k]; omega)]
  inj := fun i _ j _ e => e
  all := fun _ _ _ => rfl

/-- The next entry replaces entry `j`. -/
theorem Holds.replace {n : ℕ} {all : List SampledPair} {st : Sampler} {f : ℕ → ℕ} (h : Holds n all st f) (hk : n ≤ st.k) {j : ℕ}
    (v : SampledPair) (used : ℕ) :
    Holds n (all ++ [v]) { arr := fun i => if i = j then some v else st.arr i, k := st.k + 1, used := used }
      (fun i => if i = j then st.k else f i) where
  k := by simp [h.k]
  entry := by
    intro i hi
    simp only at hi ⊢
    have hi' : i < min n st.k := by omega
    by_cases e : i = j
    · rw [if_pos e, if_pos e, h.k]; simp
    · rw [if_neg e, if_neg e]
      obtain ⟨h1, h2⟩ := h.entry i hi'
      exact ⟨by rw [h1, List.getElem?_append_left (by rw [← h.k]; exact h2)], by omega⟩
  inj := by
    intro i hi i' hi' e
    simp only at hi hi' e
    have a1 := (h.entry i (by omega)).2
    have a2 := (h.entry i' (by omega)).2
    split at e <;> split at e
    · omega
    · omega
    · omega
    · exact h.inj i (by omega) i' (by omega) e
  all := fun h' => by simp only at h'; omega

theorem Holds.skip {n : ℕ} {all : List SampledPair} {st : Sampler} {f : ℕ → ℕ} (h : Holds n all st f) (hk : n ≤ st.k)
    (v : SampledPair) (used : ℕ) :
    Holds n (all ++ [v]) { arr := st.arr, k := st.k + 1, used := used } f where
  k := by simp [h.k]
  entry := by
    intro i hi
    simp only at hi ⊢
    obtain ⟨h1, h2⟩ := h.entry i (by omega)
    exact ⟨by rw [h1, List.getElem?_append_left (by rw [← h.k]; exact h2)], by omega⟩
  inj := fun i hi j hj e => h.inj i (by simp only at hi; omega) j (by simp only at hj; omega) e
  all := fun h' => by simp only at h'; omega

theorem takeStep_spec {n : ℕ} {all : List SampledPair} {st : Sampler} (hk : st.k < n) (v : SampledPair) :
    ∃ st', takeStep n st v = some st' ∧ st'.k = st.k + 1 ∧ (Sound all st → Sound (all ++ [v]) st') ∧
      ∀ f, Holds n all st f → ∃ f', Holds n (all ++ [v]) st' f' := by
  refine ⟨_, by rw [takeStep, put_some _ _ hk]; rfl, rfl, fun h => h.put _ _ _, fun f h => ⟨_, h.push hk v _⟩⟩

theorem oneStep_spec (u : ℕ → ℝ) {n : ℕ} {all : List SampledPair} {st : Sampler} (v : SampledPair) :
    ∃ st', oneStep u n st v = some st' ∧ st'.k = st.k + 1 ∧ (Sound all st → Sound (all ++ [v]) st') ∧
      ∀ f, Holds n all st f → ∃ f', Holds n (all ++ [v]) st' f' := by
  unfold oneStep
  by_cases hk : st.k ≥ n
  · simp only [if_pos hk]
    split
    · rename_i hj
      rw [put_some _ _ hj]
      exact ⟨_, rfl, rfl, fun h => h.put _ _ _, fun f h => ⟨_, h.replace hk v _⟩⟩
    · exact ⟨_, rfl, rfl, fun h => h.skip _ _, fun f h => ⟨_, h.skip hk v _⟩⟩
  · have hk' : st.k < n := by omega
    simp only [if_neg hk, if_pos hk', put_some _ _ hk']
    exact ⟨_, rfl, rfl, fun h => h.put _ _ _, fun f h => ⟨_, h.push hk' v _⟩⟩

theorem fold_spec {n : ℕ} (step : Sampler → SampledPair → Option Sampler) (vs : List SampledPair)
    (ok : ℕ → Prop) (hstep : ∀ (all : List SampledPair) (st : Sampler) (v : SampledPair), ok st.k →
      ∃ st', step st v = some st' ∧ st'.k = st.k + 1 ∧ (Sound all st → Sound (all ++ [v]) st') ∧
        ∀ f, Holds n all st f → ∃ f', Holds n (all ++ [v]) st' f')
    (all : List SampledPair) (st : Sampler) (hok : ∀ k, st.k ≤ k → k < st.k + vs.length → ok k) :
    ∃ st', vs.foldlM step st = some st' ∧ (Sound all st → Sound (all ++ vs) st') ∧
      ∀ f, Holds n all st f → ∃ f', Holds n (all ++ vs) st' f' := by
  induction vs generalizing all st with
  | nil => exact ⟨st, rfl, by simp, fun f h => ⟨f, by simpa using h⟩⟩
  | cons v vs ih =>
    obtain ⟨st1, e1, k1, s1, h1⟩ := hstep all st v (hok _ le_rfl (by simp))
    obtain ⟨st2, e2, s2, h2⟩ := ih (all ++ [v]) st1 (fun k ha hb => hok k (by omega) (by simp; omega))
    refine ⟨st2, ?_, ?_, ?_⟩
    · rw [List.foldlM_cons, e1]; exact e2
    · intro h; simpa using s2 (s1 h)
    · intro f h
      obtain ⟨f1, g1⟩ := h1 f h
      obtain ⟨f2, g2⟩ := h2 f1 g1
      exact ⟨f2, by simpa using g2⟩

/-! ### Case 3 -/

theorem fix_spec (n : ℕ) (is : List ℕ) (hi : ∀ i ∈ is, i < n) (sel : List ℕ) (hl : sel.length = n) :
    ∃ sel', is.foldlM (fixStep n) sel = some sel' ∧ sel' ~ sel := by
  induction is generalizing sel with
  | nil => exact ⟨sel, rfl, List.Perm.refl _⟩
  | cons i is ih =>
    have hil : i < sel.length := by rw [hl]; exact hi i (by simp)
    have : ∃ s1, fixStep n sel i = some s1 ∧ s1 ~ sel := by
      unfold fixStep
      rw [List.getElem?_eq_getElem hil, Option.bind_some]
      split
      · rename_i hj
        obtain ⟨s1, e⟩ := swapIdx_some hil (by rw [hl]; exact hj : sel[i] < sel.length)
        exact ⟨s1, e, swapIdx_perm e⟩
      · exact ⟨sel, rfl, List.Perm.refl _⟩
    obtain ⟨s1, e1, p1⟩ := this
    obtain ⟨s2, e2, p2⟩ := ih (fun i h => hi i (by simp [h])) s1 (by rw [p1.length_eq, hl])
    exact ⟨s2, by rw [List.foldlM_cons, e1]; exact e2, p2.trans p1⟩

theorem mem_mapInsert {j i : ℕ} {l : List (ℕ × ℕ)} (h : ∀ x ∈ l, x.1 ≠ j) (x : ℕ × ℕ) :
    x ∈ mapInsert j i l ↔ x = (j, i) ∨ x ∈ l := by
  induction l with
  | nil => simp [mapInsert]
  | cons y l ih =>
    obtain ⟨j', i'⟩ := y
    unfold mapInsert
    split
    · simp
    · rw [if_neg (by have := h (j', i') (by simp); simp only at this; omega)]
      simp only [List.mem_cons, ih (fun x hx => h x (by simp [hx]))]
      tauto

theorem sorted_mapInsert {j i : ℕ} {l : List (ℕ × ℕ)} (hs : l.Pairwise fun x y => x.1 < y.1) (h : ∀ x ∈ l, x.1 ≠ j) :
    (mapInsert j i l).Pairwise fun x y => x.1 < y.1 := by
  induction l with
  | nil => simp [mapInsert]
  | cons y l ih =>
    obtain ⟨j', i'⟩ := y
    have hne : j' ≠ j := h (j', i') (by simp)
    rw [List.pairwise_cons] at hs
    unfold mapInsert
    split
    · rename_i hlt
      rw [List.pairwise_cons]
      refine ⟨?_, List.pairwise_cons.2 hs⟩
      intro x hx
      rcases List.mem_cons.1 hx with rfl | hx
      · exact hlt
      · exact hlt.trans (hs.1 x hx)
    · rename_i hlt
      rw [if_neg (by omega), List.pairwise_cons]
      refine ⟨?_, ih hs.2 (fun x hx => h x (by simp [hx]))⟩
      intro x hx
      rcases (mem_mapInsert (fun x hx => h x (by simp [hx])) x).1 hx with rfl | hx
      · simp only; omega
      · exact hs.1 x hx

theorem placesOf_spec (k n : ℕ) (sel : List ℕ) (hl : sel.length = n) (hd : sel.Nodup) :
    ∃ m, placesOf k n sel = some m ∧ m.Pairwise (fun x y => x.1 < y.1) ∧
      ∀ x : ℕ × ℕ, x ∈ m ↔ x.2 < n ∧ sel[x.2]? = some x.1 ∧ k ≤ x.1 := by
  have key : ∀ c ≤ n, ∃ m, (List.range c).foldlM (fun m i => sel[i]?.map fun j => if j ≥ k then mapInsert j i m else m) []
      = some m ∧ m.Pairwise (fun x y => x.1 < y.1) ∧
      ∀ x : ℕ × ℕ, x ∈ m ↔ x.2 < c ∧ sel[x.2]? = some x.1 ∧ k ≤ x.1 := by
    intro c
    induction c with
    | zero => intro _; exact ⟨[], rfl, by simp, by simp⟩
    | succ c ih =>
      intro hc
      obtain ⟨m, e, hs, hm⟩ := ih (by omega)
      have hcl : c < sel.length := by omega
      have ec : sel[c]? = some sel[c] := List.getElem?_eq_getElem hcl
      rw [List.range_succ, List.foldlM_append, e]
      have hne : ∀ x ∈ m, x.1 ≠ sel[c] := by
        intro x hx he
        obtain ⟨h1, h2, -⟩ := (hm x).1 hx
        obtain ⟨h3, h4⟩ := List.getElem?_eq_some_iff.1 h2
        have := (List.Nodup.getElem_inj_iff hd (hi := h3) (hj := hcl)).1 (by rw [h4, he])
        omega
      by_cases hk : sel[c] ≥ k
      · refine ⟨mapInsert sel[c] c m, ?_, sorted_mapInsert hs hne, ?_⟩
        · simp [ec, hk]
        · rintro ⟨j, p⟩
          rw [mem_mapInsert hne, hm]
          simp only [Prod.mk.injEq]
          constructor
          · rintro (⟨rfl, rfl⟩ | ⟨h1, h2, h3⟩)
            · exact ⟨by omega, ec, hk⟩
            · exact ⟨by omega, h2, h3⟩
          · rintro ⟨h1, h2, h3⟩
            by_cases hp : p = c
            · subst hp
              rw [ec] at h2
              exact Or.inl ⟨(Option.some.inj h2).symm, rfl⟩
            · exact Or.inr ⟨by omega, h2, h3⟩
      · refine ⟨m, ?_, hs, ?_⟩
        · simp [ec, hk]
        · rintro ⟨j, p⟩
          rw [hm]
          simp only
          constructor
          · rintro ⟨h1, h2, h3⟩; exact ⟨by omega, h2, h3⟩
          · rintro ⟨h1, h2, h3⟩
            by_cases hp : p = c
            · subst hp
              rw [ec] at h2
              have := Option.some.inj h2
              omega
            · exact ⟨by omega, h2, h3⟩
  exact key n le_rfl

/-- The arrays after the writes of the new pairs `vs`, of which the first has number `i`, to the places `ps`. -/
def WroteAll (vs : List SampledPair) (i : ℕ) (ps : List (ℕ × ℕ)) (a a' : ℕ → Option SampledPair) : Prop :=
  (∀ x ∈ ps, i ≤ x.1 ∧ a' x.2 = vs[x.1 - i]?) ∧ ∀ p, p ∉ ps.map Prod.snd → a' p = a p

theorem walkRow_spec (n : ℕ) (vs : List SampledPair) (i : ℕ) (next : List (ℕ × ℕ)) (a : ℕ → Option SampledPair) (hne : next ≠ [])
    (hs : next.Pairwise fun x y => x.1 < y.1) (hi : ∀ x ∈ next, i ≤ x.1) (hp : ∀ x ∈ next, x.2 < n)
    (hd : (next.map Prod.snd).Nodup) :
    ∃ i' done next' a', walkRow n vs i next a = some (i', next', a') ∧ next = done ++ next' ∧
      (next' ≠ [] → i' = i + vs.length) ∧ (∀ x ∈ done, x.1 < i + vs.length) ∧ (∀ x ∈ next', i + vs.length ≤ x.1) ∧
      WroteAll vs i done a a' := by
  induction vs generalizing i next a with
  | nil => exact ⟨i, [], next, a, by cases next <;> rfl, rfl, fun _ => rfl, by simp, by simpa using hi, by simp [WroteAll]⟩
  | cons v vs ih =>
    obtain ⟨⟨j, p⟩, rest, rfl⟩ := List.exists_cons_of_ne_nil hne
    have hij : i ≤ j := hi (j, p) (by simp)
    rw [List.pairwise_cons] at hs
    rw [List.map_cons, List.nodup_cons] at hd
    unfold walkRow
    by_cases e : i = j
    · subst e
      have hpn : p < n := hp (i, p) (by simp)
      rw [if_pos rfl, put_some _ _ hpn, Option.bind_some]
      have hrest : ∀ x ∈ rest, i + 1 ≤ x.1 := fun x hx => hs.1 x hx
      by_cases hr : rest = []
      · subst hr
        refine ⟨i, [(i, p)], [], _, by rw [if_pos rfl], by simp, by simp, by simp, by simp, ?_⟩
        constructor
        · intro x hx
          simp only [List.mem_singleton] at hx
          subst hx
          simp
        · intro q hq
          simp only [List.map_cons, List.map_nil, List.mem_singleton] at hq
          simp [hq]
      · rw [if_neg hr]
        obtain ⟨i', dn, next', a', e', hsplit, h1, h2, h3, h4, h5⟩ := ih (i + 1) rest _ hr hs.2 hrest
          (fun x hx => hp x (by simp [hx])) hd.2
        refine ⟨i', (i, p) :: dn, next', a', e', by rw [hsplit]; rfl, ?_, ?_, ?_, ?_, ?_⟩
        · intro h; rw [h1 h]; simp; omega
        · intro x hx
          rcases List.mem_cons.1 hx with rfl | hx
          · simp
          · have := h2 x hx; simp; omega
        · intro x hx; have := h3 x hx; simp; omega
        · intro x hx
          rcases List.mem_cons.1 hx with rfl | hx
          · refine ⟨le_rfl, ?_⟩
            have hpd : p ∉ dn.map Prod.snd := by
              intro hh
              apply hd.1
              rw [hsplit, List.map_append]
              exact List.mem_append_left _ hh
            rw [h5 p hpd]
            simp
          · obtain ⟨h6, h7⟩ := h4 x hx
            refine ⟨by omega, ?_⟩
            rw [h7, show x.1 - i = (x.1 - (i + 1)) + 1 by omega, List.getElem?_cons_succ]
        · intro q hq
          simp only [List.map_cons, List.mem_cons, not_or] at hq
          rw [h5 q hq.2, if_neg hq.1]
    · rw [if_neg e]
      obtain ⟨i', dn, next', a', e', hsplit, h1, h2, h3, h4, h5⟩ := ih (i + 1) ((j, p) :: rest) a (by simp)
        (List.pairwise_cons.2 hs) (by
          intro x hx
          rcases List.mem_cons.1 hx with rfl | hx
          · simp only; omega
          · have := hs.1 x hx; simp only at this; omega) hp (List.nodup_cons.2 hd)
      refine ⟨i', dn, next', a', e', hsplit, ?_, ?_, ?_, ?_, h5⟩
      · intro h; rw [h1 h]; simp; omega
      · intro x hx; have := h2 x hx; simp; omega
      · intro x hx; have := h3 x hx; simp; omega
      · intro x hx
        obtain ⟨h6, h7⟩ := h4 x hx
        refine ⟨by omega, ?_⟩
        rw [h7, show x.1 - i = (x.1 - (i + 1)) + 1 by omega, List.getElem?_cons_succ]

theorem walk_spec (n n2 : ℕ) (rows : List (List SampledPair)) (hr : ∀ r ∈ rows, r.length = n2) (i : ℕ) (next : List (ℕ × ℕ))
    (a : ℕ → Option SampledPair) (hne : next ≠ [])
    (hs : next.Pairwise fun x y => x.1 < y.1) (hi : ∀ x ∈ next, i ≤ x.1 ∧ x.1 < i + rows.flatten.length)
    (hp : ∀ x ∈ next, x.2 < n) (hd : (next.map Prod.snd).Nodup) :
    ∃ a', walk n n2 rows i next a = some a' ∧ WroteAll rows.flatten i next a a' := by
  induction rows generalizing i next a with
  | nil =>
    obtain ⟨x, rest, rfl⟩ := List.exists_cons_of_ne_nil hne
    have := hi x (by simp)
    simp only [List.flatten_nil, List.length_nil] at this
    omega
  | cons row rows ih =>
    have hlen : row.length = n2 := hr row (by simp)
    obtain ⟨⟨j, p⟩, rest, rfl⟩ := List.exists_cons_of_ne_nil hne
    have hij := (hi (j, p) (by simp)).1
    unfold walk
    rw [if_pos hij]
    by_cases hskip : j > i + n2
    · rw [if_pos hskip]
      have hge : ∀ x ∈ (j, p) :: rest, i + n2 ≤ x.1 := by
        intro x hx
        rcases List.mem_cons.1 hx with rfl | hx
        · simp only; omega
        · have := (List.pairwise_cons.1 hs).1 x hx; simp only at this; omega
      obtain ⟨a', e', h1, h2⟩ := ih (fun r h => hr r (by simp [h])) (i + n2) ((j, p) :: rest) a (by simp) hs
        (fun x hx => ⟨hge x hx, by
          have := (hi x hx).2
          rw [List.flatten_cons, List.length_append, hlen] at this
          omega⟩) hp hd
      refine ⟨a', e', ?_, h2⟩
      intro x hx
      obtain ⟨h3, h4⟩ := h1 x hx
      refine ⟨by omega, ?_⟩
      rw [h4, List.flatten_cons, List.getElem?_append_right (by omega), hlen]
      congr 1
      omega
    · rw [if_neg hskip]
      obtain ⟨i', dn, next', a1, e1, hsplit, h1, h2, h3, h4, h5⟩ := walkRow_spec n row i ((j, p) :: rest) a (by simp) hs
        (fun x hx => (hi x hx).1) hp hd
      rw [e1, Option.bind_some]
      simp only
      by_cases hn : next' = []
      · subst hn
        rw [List.append_nil] at hsplit
        rw [if_pos rfl, hsplit]
        refine ⟨a1, rfl, ?_, h5⟩
        intro x hx
        obtain ⟨h6, h7⟩ := h4 x hx
        refine ⟨h6, ?_⟩
        rw [h7, List.flatten_cons, List.getElem?_append_left (by have := h2 x hx; omega)]
      · rw [if_neg hn, h1 hn]
        rw [hsplit] at hs hi hp hd
        obtain ⟨a', e', h6, h7⟩ := ih (fun r h => hr r (by simp [h])) (i + row.length) next' a1 hn
          (List.pairwise_append.1 hs).2.1 (fun x hx => ⟨h3 x hx, by
            have := (hi x (by simp [hx])).2
            rw [List.flatten_cons, List.length_append] at this
            omega⟩) (fun x hx => hp x (by simp [hx])) (by
            rw [List.map_append] at hd
            exact (List.nodup_append.1 hd).2.1)
        rw [List.map_append] at hd
        refine ⟨a', e', ?_, ?_⟩
        · intro x hx
          rw [hsplit] at hx
          rcases List.mem_append.1 hx with hx | hx
          · obtain ⟨h8, h9⟩ := h4 x hx
            refine ⟨h8, ?_⟩
            have hnd : x.2 ∉ next'.map Prod.snd := by
              intro hh
              exact (List.nodup_append.1 hd).2.2 x.2 (List.mem_map_of_mem hx) x.2 hh rfl
            rw [h7 x.2 hnd, h9, List.flatten_cons, List.getElem?_append_left (by have := h2 x hx; omega)]
          · obtain ⟨h8, h9⟩ := h6 x hx
            refine ⟨by omega, ?_⟩
            rw [h9, List.flatten_cons, List.getElem?_append_right (by omega)]
            congr 1
            omega
        · intro q hq
          rw [hsplit, List.map_append, List.mem_append, not_or] at hq
          rw [h7 q hq.2, h5 q hq.1]

/-- The pairs of rows of two cells. -/
noncomputable def pairList (e : Emit P) : List SampledPair := (rowsOf e).flatten

theorem length_pairList (e : Emit P) (h1 : e.c1.n = e.c1.objs.length) (h2 : e.c2.n = e.c2.objs.length) :
    (pairList e).length = e.c1.n * e.c2.n := by
  unfold pairList rowsOf
  rw [List.length_flatten, List.map_map, h1, h2]
  rw [List.map_congr_left (g := fun _ => e.c2.objs.length) (by simp)]
  simp

/-- Selecting pairs without replacement. -/
theorem select_spec (u : ℕ → ℝ) (hu : ∀ k, 0 ≤ u k ∧ u k ≤ 1) (fuel n : ℕ) (st : Sampler) (e : Emit P)
    (h1 : e.c1.n = e.c1.objs.length) (h2 : e.c2.n = e.c2.objs.length) (hm : n < e.c1.n * e.c2.n)
    {su : List ℕ × ℕ} (hsu : selectRandomFrom u fuel (st.k + e.c1.n * e.c2.n) n st.used = some su) :
    ∃ (sel : List ℕ) (st' : Sampler), finish u fuel n st e = some st' ∧ sel.length = n ∧ sel.Nodup ∧
      (∀ j ∈ sel, j < st.k + e.c1.n * e.c2.n) ∧ st'.k = st.k + e.c1.n * e.c2.n ∧
      (∀ i (h : i < sel.length), st'.arr i = if st.k ≤ sel[i] then (pairList e)[sel[i] - st.k]? else st.arr i) ∧
      (∀ i, n ≤ i → st'.arr i = st.arr i) := by
  obtain ⟨l1, d1, b1⟩ := selectRandomFrom_spec u hu fuel _ n _ (by omega) su hsu
  obtain ⟨sel, es, ps⟩ := fix_spec n (List.range' st.k (n - st.k)) (fun i hi => by
    rw [List.mem_range'_1] at hi; omega) su.1 l1
  have l2 : sel.length = n := by rw [ps.length_eq, l1]
  have d2 : sel.Nodup := ps.nodup_iff.2 d1
  have b2 : ∀ j ∈ sel, j < st.k + e.c1.n * e.c2.n := fun j hj => b1 j (ps.mem_iff.1 hj)
  obtain ⟨places, ep, sp, mp⟩ := placesOf_spec st.k n sel l2 d2
  have hfin : finish u fuel n st e = if places = [] then some { st with k := st.k + e.c1.n * e.c2.n, used := su.2 }
      else (walk n e.c2.n (rowsOf e) st.k places st.arr).map fun a =>
        { arr := a, k := st.k + e.c1.n * e.c2.n, used := su.2 } := by
    unfold finish
    simp only
    rw [if_neg (by omega), if_neg (by omega), hsu, Option.bind_some, es, Option.bind_some, ep, Option.bind_some]
  by_cases hpl : places = []
  · refine ⟨sel, { st with k := st.k + e.c1.n * e.c2.n, used := su.2 }, by rw [hfin, if_pos hpl], l2, d2, b2, rfl, ?_,
      fun _ _ => rfl⟩
    intro i hi
    rw [if_neg]
    intro hk
    have := (mp (sel[i], i)).2 ⟨by simp only; omega, List.getElem?_eq_getElem hi, hk⟩
    rw [hpl] at this
    simp at this
  · obtain ⟨a', ea, w1, w2⟩ := walk_spec n e.c2.n (rowsOf e) (by
        intro r hr
        unfold rowsOf at hr
        obtain ⟨o, _, rfl⟩ := List.mem_map.1 hr
        simp [h2]) st.k places st.arr hpl sp (by
        intro x hx
        obtain ⟨_, hb, hc⟩ := (mp x).1 hx
        refine ⟨hc, ?_⟩
        have := b2 x.1 (List.mem_of_getElem? hb)
        have hl := length_pairList e h1 h2
        unfold pairList at hl
        rw [hl]
        exact this) (fun x hx => ((mp x).1 hx).1) (by
        rw [List.nodup_map_iff_inj_on]
        · intro x hx y hy hxy
          have e1 := ((mp x).1 hx).2.1
          have e2 := ((mp y).1 hy).2.1
          rw [hxy, e2] at e1
          exact Prod.ext (Option.some.inj e1).symm hxy
        · exact sp.imp (fun {a b} h hab => by rw [hab] at h; exact lt_irrefl _ h))
    refine ⟨sel, _, by rw [hfin, if_neg hpl, ea]; rfl, l2, d2, b2, rfl, ?_, ?_⟩
    · intro i hi
      by_cases hk : st.k ≤ sel[i]
      · rw [if_pos hk]
        exact (w1 (sel[i], i) ((mp (sel[i], i)).2 ⟨by simp only; omega, List.getElem?_eq_getElem hi, hk⟩)).2
      · rw [if_neg hk]
        apply w2
        intro hh
        obtain ⟨⟨j, p⟩, hx, hp⟩ := List.mem_map.1 hh
        simp only at hp
        subst hp
        obtain ⟨_, hb, hc⟩ := (mp (j, p)).1 hx
        simp only [List.getElem?_eq_getElem hi, Option.some.injEq] at hb
        simp only at hc
        omega
    · intro i hi
      apply w2
      intro hh
      obtain ⟨x, hx, rfl⟩ := List.mem_map.1 hh
      have := ((mp x).1 hx).1
      omega

/-- One call of `finishProcess`. -/
theorem finish_spec (u : ℕ → ℝ) (hu : ∀ k, 0 ≤ u k ∧ u k ≤ 1) (fuel n : ℕ) (st : Sampler) (e : Emit P)
    (h1 : e.c1.n = e.c1.objs.length) (h2 : e.c2.n = e.c2.objs.length) (all : List SampledPair) (hk : st.k = all.length) :
    (st.k + e.c1.n * e.c2.n ≤ 3 * n → ∃ st', finish u fuel n st e = some st') ∧
    ∀ st', finish u fuel n st e = some st' →
      (Sound all st → Sound (all ++ pairList e) st') ∧
      ((st.k = 0 ∨ n ≤ st.k ∨ e.c1.n * e.c2.n ≤ n) → ∀ f, Holds n all st f → ∃ f', Holds n (all ++ pairList e) st' f') := by
  have hl := length_pairList e h1 h2
  by_cases c1 : st.k + e.c1.n * e.c2.n ≤ n
  · obtain ⟨st', e', s', h'⟩ := fold_spec (n := n) (takeStep n) (pairList e) (fun k => k < n)
      (fun all st v hk => takeStep_spec hk v) all st (fun k _ hb => by omega)
    have e'' : finish u fuel n st e = some st' := by
      unfold finish
      simp only
      rw [if_pos c1]
      exact e'
    refine ⟨fun _ => ⟨st', e''⟩, fun st2 h => ?_⟩
    rw [e''] at h
    cases h
    exact ⟨s', fun _ => h'⟩
  by_cases c2 : e.c1.n * e.c2.n ≤ n
  · obtain ⟨st', e', s', h'⟩ := fold_spec (n := n) (oneStep u n) (pairList e) (fun _ => True)
      (fun all st v _ => oneStep_spec u v) all st (fun _ _ _ => trivial)
    have e'' : finish u fuel n st e = some st' := by
      unfold finish
      simp only
      rw [if_neg c1, if_pos c2]
      exact e'
    refine ⟨fun _ => ⟨st', e''⟩, fun st2 h => ?_⟩
    rw [e''] at h
    cases h
    exact ⟨s', fun _ => h'⟩
  have hm : n < e.c1.n * e.c2.n := by omega
  constructor
  · intro h3
    have : ∃ su, selectRandomFrom u fuel (st.k + e.c1.n * e.c2.n) n st.used = some su := by
      unfold selectRandomFrom
      rw [if_neg (by omega)]
      obtain ⟨g, h1, hp⟩ := fisherYates_spec u hu (st.k + e.c1.n * e.c2.n) st.used (List.range n)
        (fun i hi => by simp at hi; omega) (List.range (st.k + e.c1.n * e.c2.n)) (by simp)
      rw [h1, Option.bind_some, if_pos (by rw [hp.length_eq]; simp; omega)]
      exact ⟨_, rfl⟩
    obtain ⟨su, hsu⟩ := this
    obtain ⟨sel, st', hf, -⟩ := select_spec u hu fuel n st e h1 h2 hm hsu
    exact ⟨st', hf⟩
  · intro st' hst
    have : ∃ su, selectRandomFrom u fuel (st.k + e.c1.n * e.c2.n) n st.used = some su := by
      unfold finish at hst
      simp only at hst
      rw [if_neg c1, if_neg c2] at hst
      obtain ⟨su, hsu, -⟩ := Option.bind_eq_some_iff.1 hst
      exact ⟨su, hsu⟩
    obtain ⟨su, hsu⟩ := this
    obtain ⟨sel, st2, hf, hsl, hsd, hsb, hk', harr, hout⟩ := select_spec u hu fuel n st e h1 h2 hm hsu
    rw [hf] at hst
    cases hst
    constructor
    · intro hS
      refine ⟨by rw [hk', hk, List.length_append, hl], ?_⟩
      intro i v hv
      by_cases hi : i < n
      · rw [harr i (by omega)] at hv
        split at hv
        · exact List.mem_append_right _ (List.mem_of_getElem? hv)
        · exact List.mem_append_left _ (hS.mem i v hv)
      · rw [hout i (by omega)] at hv
        exact List.mem_append_left _ (hS.mem i v hv)
    · intro hcond f hH
      have hmin : min n st'.k = n := by omega
      have hold : ∀ i (h : i < sel.length), ¬ st.k ≤ sel[i] → i < min n st.k := by
        intro i h hk2
        rcases hcond with h0 | h0 | h0 <;> omega
      refine ⟨fun i => match sel[i]? with
        | some j => if st.k ≤ j then j else f i
        | none => 0, by rw [hk', hk, List.length_append, hl], ?_, ?_, fun h => by omega⟩
      · intro i hi
        have hi' : i < sel.length := by omega
        rw [harr i hi', List.getElem?_eq_getElem hi']
        simp only
        have hb := hsb _ (List.getElem_mem hi')
        split
        · rename_i hle
          refine ⟨?_, by omega⟩
          rw [List.getElem?_append_right (by omega), hk]
        · rename_i hle
          obtain ⟨g1, g2⟩ := hH.entry i (hold i hi' hle)
          exact ⟨by rw [g1, List.getElem?_append_left (by omega)], by omega⟩
      · intro i hi j hj hij
        have hi' : i < sel.length := by omega
        have hj' : j < sel.length := by omega
        rw [List.getElem?_eq_getElem hi', List.getElem?_eq_getElem hj'] at hij
        simp only at hij
        split at hij <;> split at hij
        · exact (List.Nodup.getElem_inj_iff hsd).1 hij
        · rename_i a b
          have := (hH.entry j (hold j hj' b)).2
          omega
        · rename_i a b
          have := (hH.entry i (hold i hi' a)).2
          omega
        · rename_i a b
          exact hH.inj i (hold i hi' a) j (hold j hj' b) hij

/-- All pairs handed to the sampler. -/
noncomputable def allPairs (es : List (Emit P)) : List SampledPair := es.flatMap pairList

/-- No call of the sampler selects without replacement while its arrays are partly filled. -/
def NeverPartly (n : ℕ) (es : List (Emit P)) : Prop :=
  ∀ pre e post, es = pre ++ e :: post →
    (allPairs pre).length = 0 ∨ n ≤ (allPairs pre).length ∨ e.c1.n * e.c2.n ≤ n

theorem run_spec (u : ℕ → ℝ) (hu : ∀ k, 0 ≤ u k ∧ u k ≤ 1) (fuel n : ℕ) (es : List (Emit P))
    (hes : ∀ e ∈ es, e.c1.SumsOK ∧ e.c2.SumsOK) :
    ((allPairs es).length ≤ 3 * n → ∃ st, run u fuel n es = some st) ∧
    ∀ st, run u fuel n es = some st → Sound (allPairs es) st ∧ (NeverPartly n es → ∃ f, Holds n (allPairs es) st f) := by
  have key : ∀ (post pre : List (Emit P)) (st0 : Sampler), (∀ e ∈ post, e.c1.SumsOK ∧ e.c2.SumsOK) → Sound (allPairs pre) st0 →
      ((allPairs (pre ++ post)).length ≤ 3 * n → ∃ st, post.foldlM (finish u fuel n) st0 = some st) ∧
      ∀ st, post.foldlM (finish u fuel n) st0 = some st → Sound (allPairs (pre ++ post)) st ∧
        (NeverPartly n (pre ++ post) → (∃ f, Holds n (allPairs pre) st0 f) → ∃ f, Holds n (allPairs (pre ++ post)) st f) := by
    intro post
    induction post with
    | nil =>
      intro pre st0 _ hS
      refine ⟨fun _ => ⟨st0, rfl⟩, fun st h => ?_⟩
      cases h
      rw [List.append_nil]
      exact ⟨hS, fun _ h => h⟩
    | cons e post ih =>
      intro pre st0 hp hS
      obtain ⟨q1, q2⟩ := hp e (by simp)
      obtain ⟨f1, f2⟩ := finish_spec u hu fuel n st0 e q1.n_eq q2.n_eq (allPairs pre) hS.k
      have eap : pre ++ e :: post = (pre ++ [e]) ++ post := by simp
      have epl : allPairs (pre ++ [e]) = allPairs pre ++ pairList e := by simp [allPairs]
      have hlen : st0.k + e.c1.n * e.c2.n ≤ (allPairs (pre ++ e :: post)).length := by
        rw [eap]
        unfold allPairs
        rw [List.flatMap_append, List.length_append]
        change _ ≤ (allPairs (pre ++ [e])).length + _
        rw [epl, List.length_append, length_pairList e q1.n_eq q2.n_eq, hS.k]
        omega
      rw [eap]
      constructor
      · intro h3
        rw [← eap] at h3
        obtain ⟨st1, e1⟩ := f1 (by omega)
        obtain ⟨g1, -⟩ := f2 st1 e1
        rw [eap] at h3
        obtain ⟨st, e2⟩ := (ih (pre ++ [e]) st1 (fun e h => hp e (by simp [h])) (by rw [epl]; exact g1 hS)).1 h3
        exact ⟨st, by rw [List.foldlM_cons, e1]; exact e2⟩
      · intro st hst
        rw [List.foldlM_cons] at hst
        obtain ⟨st1, e1, hst⟩ := Option.bind_eq_some_iff.1 hst
        obtain ⟨g1, g2⟩ := f2 st1 e1
        obtain ⟨i1, i2⟩ := (ih (pre ++ [e]) st1 (fun e h => hp e (by simp [h])) (by rw [epl]; exact g1 hS)).2 st hst
        refine ⟨i1, fun hN ⟨f, hf⟩ => i2 hN ?_⟩
        rw [epl]
        refine g2 ?_ f hf
        rw [hS.k]
        exact hN pre e post eap.symm
  have h0 := key es [] { arr := fun _ => none, k := 0, used := 0 } hes ⟨rfl, by simp⟩
  rw [List.nil_append] at h0
  refine ⟨h0.1, fun st hst => ?_⟩
  obtain ⟨a, b⟩ := h0.2 st hst
  exact ⟨a, fun hN => b hN ⟨id, rfl, by simp, by simp, by simp⟩⟩

end Sampler
end TreeCorr
