import Verif.Proofs.Cov3
import Verif.Props.Cov
import Verif.Props.Patch3Cases

/-!
C64: the triples of patches that enter each row of the covariance design matrices of the three-point classes.
`keys` are the patch triples stored in `results`, `n1`, `n2` and `n3` the numbers of patches of the three catalogues.
-/

namespace TreeCorr
open Classical
noncomputable section

/-- Each catalogue is either undivided or in `n` patches, and not all are undivided. -/
structure Divided (n n1 n2 n3 : ℕ) : Prop where
  ne : n ≠ 1
  first : n1 = 1 ∨ n1 = n
  second : n2 = 1 ∨ n2 = n
  third : n3 = 1 ∨ n3 = n
  some : ¬ (n1 = 1 ∧ n2 = 1 ∧ n3 = 1)

/-- Whether a triple of patches remains when patch `i` is left out of the divided catalogues. -/
def keepsTriple (n1 n2 n3 i : ℕ) (t : Triple) : Prop :=
  (n1 = 1 ∨ t.1 ≠ i) ∧ (n2 = 1 ∨ t.2.1 ≠ i) ∧ (n3 = 1 ∨ t.2.2 ≠ i)

/-- The patch of the first divided catalogue. -/
def firstPatch (n1 n2 : ℕ) (t : Triple) : ℕ := if n1 ≠ 1 then t.1 else if n2 ≠ 1 then t.2.1 else t.2.2

/-- The different patches of the divided catalogues. -/
def patchesOf (n1 n2 n3 : ℕ) (t : Triple) : Finset ℕ :=
  (if n1 = 1 then ∅ else {t.1}) ∪ (if n2 = 1 then ∅ else {t.2.1}) ∪ (if n3 = 1 then ∅ else {t.2.2})

/-- The keys are those of a run with these numbers of patches: the patch number of an undivided catalogue is 0. -/
def KeysOf (n1 n2 n3 : ℕ) (keys : List Triple) : Prop := ∀ t ∈ keys, t.1 < n1 ∧ t.2.1 < n2 ∧ t.2.2 < n3

theorem Divided.cases {n n1 n2 n3 : ℕ} (h : Divided n n1 n2 n3) :
    (n1 = n ∧ n2 = n ∧ n3 = n) ∨ (n1 = 1 ∧ n2 = n ∧ n3 = n) ∨ (n1 = n ∧ n2 = 1 ∧ n3 = n) ∨ (n1 = n ∧ n2 = n ∧ n3 = 1) ∨
      (n1 = n ∧ n2 = 1 ∧ n3 = 1) ∨ (n1 = 1 ∧ n2 = n ∧ n3 = 1) ∨ (n1 = 1 ∧ n2 = 1 ∧ n3 = n) := by
  have := h.some
  rcases h.first with a | a <;> rcases h.second with b | b <;> rcases h.third with c | c <;> simp [a, b, c] at this ⊢

theorem jackknifeTriples_eq {n n1 n2 n3 : ℕ} (h : Divided n n1 n2 n3) (keys : List Triple) (i : ℕ) :
    jackknifeTriples n1 n2 n3 keys i = some (keys.filter fun t => decide (keepsTriple n1 n2 n3 i t)) := by
  have hn := h.ne
  unfold jackknifeTriples keepsTriple
  rcases h.cases with ⟨rfl, rfl, rfl⟩ | ⟨rfl, rfl, rfl⟩ | ⟨rfl, rfl, rfl⟩ | ⟨rfl, rfl, rfl⟩ | ⟨rfl, rfl, rfl⟩ | ⟨rfl, rfl, rfl⟩ |
    ⟨rfl, rfl, rfl⟩ <;> simp [hn]

/-- **C64, jackknife.** Row `i` uses every stored triple that remains exactly once, and no other triple. -/
theorem jackknife3_uses {n n1 n2 n3 : ℕ} (h : Divided n n1 n2 n3) {keys : List Triple} (hnd : keys.Nodup) (i : ℕ) :
    ∃ l, jackknifeTriples n1 n2 n3 keys i = some l ∧
      ∀ t, l.count t = if t ∈ keys ∧ keepsTriple n1 n2 n3 i t then 1 else 0 := by
  refine ⟨_, jackknifeTriples_eq h keys i, fun t => ?_⟩
  rw [count_filter_nodup hnd]
  simp

/-- **C64, sample.** Row `i` uses every stored triple whose patch of the first divided catalogue is `i` once. -/
theorem sample3_uses {n n1 n2 n3 : ℕ} (h : Divided n n1 n2 n3) {keys : List Triple} (hnd : keys.Nodup) (i : ℕ) :
    ∃ l, sampleTriples n1 n2 n3 keys i = some l ∧
      ∀ t, l.count t = if t ∈ keys ∧ firstPatch n1 n2 t = i then 1 else 0 := by
  have hn := h.ne
  unfold sampleTriples firstPatch
  rcases h.cases with ⟨rfl, rfl, rfl⟩ | ⟨rfl, rfl, rfl⟩ | ⟨rfl, rfl, rfl⟩ | ⟨rfl, rfl, rfl⟩ | ⟨rfl, rfl, rfl⟩ | ⟨rfl, rfl, rfl⟩ |
    ⟨rfl, rfl, rfl⟩ <;>
  · simp only [hn, if_true, if_false, and_self, ne_eq, not_true, not_false_eq_true]
    refine ⟨_, rfl, fun t => ?_⟩
    rw [count_filter_nodup hnd]
    simp

/-- **C64, sample.** Every stored triple is in exactly one row. -/
theorem sample3_rows_divide {n n1 n2 n3 : ℕ} (h : Divided n n1 n2 n3) {keys : List Triple} (hnd : keys.Nodup)
    (hk : KeysOf n1 n2 n3 keys) (t : Triple) (ht : t ∈ keys) :
    ∃! i, i < n ∧ ∃ l, sampleTriples n1 n2 n3 keys i = some l ∧ t ∈ l := by
  have lt : firstPatch n1 n2 t < n := by
    obtain ⟨h1, h2, h3⟩ := hk t ht
    unfold firstPatch
    rcases h.cases with ⟨a, b, c⟩ | ⟨a, b, c⟩ | ⟨a, b, c⟩ | ⟨a, b, c⟩ | ⟨a, b, c⟩ | ⟨a, b, c⟩ | ⟨a, b, c⟩ <;> split_ifs <;> omega
  have mem : ∀ i l, sampleTriples n1 n2 n3 keys i = some l → (t ∈ l ↔ firstPatch n1 n2 t = i) := by
    intro i l hl
    obtain ⟨l', hl', hc⟩ := sample3_uses h hnd i
    rw [hl] at hl'
    obtain rfl := Option.some.inj hl'
    rw [← List.count_pos_iff, hc t]
    by_cases hi : firstPatch n1 n2 t = i <;> simp [hi, ht]
  obtain ⟨l, hl, _⟩ := sample3_uses h hnd (firstPatch n1 n2 t)
  refine ⟨_, ⟨lt, l, hl, (mem _ l hl).2 rfl⟩, ?_⟩
  rintro i ⟨_, l, hl, hm⟩
  exact ((mem i l hl).1 hm).symm

theorem count_map_inj {α : Type} [BEq α] [LawfulBEq α] (index : List ℕ) (f : ℕ → α) (hf : Function.Injective f) (i : ℕ) :
    (index.map f).count (f i) = index.count i := List.count_map_of_injective _ _ hf _

/-- A loop over the draws whose body yields a triple at most once and only for its own draw. -/
theorem count_draws (index : List ℕ) (f : ℕ → List Triple) (t : Triple) (i c : ℕ) (h1 : (f i).count t = c)
    (h2 : ∀ j, j ≠ i → (f j).count t = 0) : (index.flatMap f).count t = index.count i * c := by
  induction index with
  | nil => simp
  | cons a l ih =>
    rw [List.flatMap_cons, List.count_append, ih, List.count_cons]
    by_cases h : a = i
    · subst h; simp [h1]; ring
    · simp [h2 a h, h]

/-- **C64, marked bootstrap.** Each stored triple as many times as its patch of the first divided catalogue was drawn. -/
theorem marked3_uses {n n1 n2 n3 : ℕ} (h : Divided n n1 n2 n3) {keys : List Triple} (hk : KeysOf n1 n2 n3 keys) (index : List ℕ) :
    ∃ l, markedTriples n1 n2 n3 keys index = some l ∧
      ∀ t, l.count t = if t ∈ keys then index.count (firstPatch n1 n2 t) else 0 := by
  have hn := h.ne
  unfold markedTriples firstPatch
  have row : ∀ (f : ℕ → Triple) (g : Triple → ℕ), (∀ i, g (f i) = i) → (∀ t ∈ keys, f (g t) = t) →
      ∀ t, ((index.map f).filter (okTriple keys)).count t = if t ∈ keys then index.count (g t) else 0 := by
    intro f g hg hf t
    rw [count_map_filter]
    by_cases ht : t ∈ keys
    · rw [if_pos (by simpa [okTriple] using ht), if_pos ht]
      conv_lhs => rw [← hf t ht]
      exact count_map_inj index f (Function.LeftInverse.injective hg) _
    · rw [if_neg (by simpa [okTriple] using ht), if_neg ht]
  have rows : ∀ (f : ℕ → ℕ → Triple) (g g' : Triple → ℕ), (∀ i j, g (f i j) = i ∧ g' (f i j) = j) →
      (∀ t ∈ keys, f (g t) (g' t) = t ∧ g' t < n) → ∀ t, (index.flatMap fun i => ((List.range n).map fun j => f i j).filter
        (okTriple keys)).count t = if t ∈ keys then index.count (g t) else 0 := by
    intro f g g' hg hf t
    by_cases ht : t ∈ keys
    · rw [count_draws index _ t (g t) 1, if_pos ht, mul_one]
      · rw [count_map_filter, if_pos (by simpa [okTriple] using ht)]
        conv_lhs => rw [← (hf t ht).1]
        rw [(hg _ _).1, count_map_inj _ (fun j => f (g t) j)]
        · exact List.count_eq_one_of_mem List.nodup_range (List.mem_range.2 (hf t ht).2)
        · intro a b hab
          rw [← (hg (g t) a).2, ← (hg (g t) b).2]
          exact congrArg g' hab
      · intro j hj
        rw [List.count_eq_zero]
        intro hm
        obtain ⟨k, _, rfl⟩ := List.mem_map.1 (List.mem_filter.1 hm).1
        exact hj (hg j k).1.symm
    · rw [if_neg ht, List.count_eq_zero]
      intro hm
      obtain ⟨i, _, hm⟩ := List.mem_flatMap.1 hm
      exact ht (by simpa [okTriple] using (List.mem_filter.1 hm).2)
  rcases h.cases with ⟨rfl, rfl, rfl⟩ | ⟨rfl, rfl, rfl⟩ | ⟨rfl, rfl, rfl⟩ | ⟨rfl, rfl, rfl⟩ | ⟨rfl, rfl, rfl⟩ | ⟨rfl, rfl, rfl⟩ |
    ⟨rfl, rfl, rfl⟩ <;>
  simp only [hn, if_true, if_false, and_self, ne_eq, not_true, not_false_eq_true] <;>
  refine ⟨_, rfl, ?_⟩
  · intro t
    by_cases ht : t ∈ keys
    · rw [count_draws index _ t t.1 1, if_pos ht, mul_one]
      · rw [count_draws (List.range _) _ t t.2.1 1, mul_one]
        · exact List.count_eq_one_of_mem List.nodup_range (List.mem_range.2 (hk t ht).2.1)
        · rw [count_map_filter, if_pos (by simpa [okTriple] using ht)]
          have := count_map_inj (List.range n3) (fun k => ((t.1, t.2.1, k) : Triple)) (fun a b hab => by simpa using hab) t.2.2
          refine Eq.trans this ?_
          exact List.count_eq_one_of_mem List.nodup_range (List.mem_range.2 (hk t ht).2.2)
        · intro j hj
          rw [List.count_eq_zero]
          intro hm
          obtain ⟨k, _, e⟩ := List.mem_map.1 (List.mem_filter.1 hm).1
          exact hj (by rw [← e])
      · intro j hj
        rw [List.count_eq_zero]
        intro hm
        obtain ⟨k, _, hm⟩ := List.mem_flatMap.1 hm
        obtain ⟨m, _, rfl⟩ := List.mem_map.1 (List.mem_filter.1 hm).1
        exact hj rfl
    · rw [if_neg ht, List.count_eq_zero]
      intro hm
      obtain ⟨i, _, hm⟩ := List.mem_flatMap.1 hm
      obtain ⟨k, _, hm⟩ := List.mem_flatMap.1 hm
      exact ht (by simpa [okTriple] using (List.mem_filter.1 hm).2)
  · refine rows (fun i j => (0, i, j)) (fun t => t.2.1) (fun t => t.2.2) (by simp) fun t ht => ⟨?_, (hk t ht).2.2⟩
    have : t.1 = 0 := by have := (hk t ht).1; omega
    simp [← this]
  · refine rows (fun i j => (i, 0, j)) (fun t => t.1) (fun t => t.2.2) (by simp) fun t ht => ⟨?_, (hk t ht).2.2⟩
    have : t.2.1 = 0 := by have := (hk t ht).2.1; omega
    simp [← this]
  · refine rows (fun i j => (i, j, 0)) (fun t => t.1) (fun t => t.2.1) (by simp) fun t ht => ⟨?_, (hk t ht).2.1⟩
    have : t.2.2 = 0 := by have := (hk t ht).2.2; omega
    simp [← this]
  · refine row (fun i => (i, 0, 0)) (fun t => t.1) (by simp) fun t ht => ?_
    have h1 : t.2.1 = 0 := by have := (hk t ht).2.1; omega
    have h2 : t.2.2 = 0 := by have := (hk t ht).2.2; omega
    exact Prod.ext rfl (Prod.ext h1.symm h2.symm)
  · refine row (fun i => (0, i, 0)) (fun t => t.2.1) (by simp) fun t ht => ?_
    have h1 : t.1 = 0 := by have := (hk t ht).1; omega
    have h2 : t.2.2 = 0 := by have := (hk t ht).2.2; omega
    exact Prod.ext h1.symm (Prod.ext rfl h2.symm)
  · refine row (fun i => (0, 0, i)) (fun t => t.2.2) (by simp) fun t ht => ?_
    have h1 : t.1 = 0 := by have := (hk t ht).1; omega
    have h2 : t.2.1 = 0 := by have := (hk t ht).2.1; omega
    exact Prod.ext h1.symm (Prod.ext h2.symm rfl)

/-- The triple loop of the bootstrap. -/
theorem count_tripleLoop (keys : List Triple) (index : List ℕ) (a b c : ℕ) :
    (index.flatMap fun i => (index.filter fun j => i ≠ j).flatMap fun j =>
          (index.filter fun k => okTriple keys (i, j, k) && (decide (i ≠ k) && decide (j ≠ k))).map fun k => (i, j, k)).count (a, b, c)
      = if (a, b, c) ∈ keys ∧ a ≠ b ∧ a ≠ c ∧ b ≠ c then index.count a * (index.count b * index.count c) else 0 := by
  by_cases h : (a, b, c) ∈ keys ∧ a ≠ b ∧ a ≠ c ∧ b ≠ c
  · obtain ⟨hk, hab, hac, hbc⟩ := h
    rw [if_pos ⟨hk, hab, hac, hbc⟩]
    apply count_draws
    · rw [count_draws _ _ (a, b, c) b (index.count c)]
      · rw [List.count_filter (by simpa using hab)]
      · have := count_map_inj (index.filter fun k => okTriple keys (a, b, k) && (decide (a ≠ k) && decide (b ≠ k)))
          (fun k => ((a, b, k) : Triple)) (fun x y hxy => by simpa using hxy) c
        refine Eq.trans this ?_
        rw [List.count_filter (by simp [okTriple, hk, hac, hbc])]
      · intro j hj
        rw [List.count_eq_zero]
        intro hm
        obtain ⟨k, _, hm⟩ := List.mem_map.1 hm
        simp only [Prod.mk.injEq] at hm
        exact hj hm.2.1
    · intro i hi
      rw [List.count_eq_zero]
      intro hm
      obtain ⟨j, _, hm⟩ := List.mem_flatMap.1 hm
      obtain ⟨k, _, hm⟩ := List.mem_map.1 hm
      simp only [Prod.mk.injEq] at hm
      exact hi hm.1
  · rw [if_neg h, List.count_eq_zero]
    intro hm
    obtain ⟨i, _, hm⟩ := List.mem_flatMap.1 hm
    obtain ⟨j, hj, hm⟩ := List.mem_flatMap.1 hm
    obtain ⟨k, hk, hm⟩ := List.mem_map.1 hm
    simp only [Prod.mk.injEq] at hm
    obtain ⟨rfl, rfl, rfl⟩ := hm
    have h1 : i ≠ j := by simpa using (List.mem_filter.1 hj).2
    have h2 := (List.mem_filter.1 hk).2
    simp only [okTriple, Bool.and_eq_true, decide_eq_true_eq] at h2
    exact h ⟨h2.1, h1, h2.2.1, h2.2.2⟩

theorem count_off_absent (keys : List Triple) (index : List ℕ) (f : ℕ → ℕ → Triple) {t : Triple} (h : t ∉ keys) :
    (offDiagonal keys index f).count t = 0 := by
  rw [List.count_eq_zero]
  intro hm
  obtain ⟨i, _, hm⟩ := List.mem_flatMap.1 hm
  obtain ⟨j, hj, e⟩ := List.mem_map.1 hm
  have := (Bool.and_eq_true_iff.1 (List.mem_filter.1 hj).2).1
  rw [e] at this
  exact h (by simpa [okTriple] using this)

theorem count_off1 (keys : List Triple) (index : List ℕ) {a b c : ℕ} (hm : (a, b, c) ∈ keys) :
    (offDiagonal keys index fun i j => (i, i, j)).count (a, b, c) = if a = b ∧ a ≠ c then index.count a * index.count c else 0 := by
  rw [count_offDiagonal keys index (fun i j => (i, i, j)) (a, b, c) (if a = b ∧ a ≠ c then index.count a * index.count c else 0),
    if_pos hm]
  by_cases h : a = b ∧ a ≠ c
  · obtain ⟨rfl, hc⟩ := h
    left
    exact ⟨a, c, hc, rfl, fun i j e => by simp only [Prod.mk.injEq] at e; exact ⟨e.1, e.2.2⟩, by simp [hc]⟩
  · right
    refine ⟨fun i j hij e => ?_, by simp only [h, if_false]⟩
    simp only [Prod.mk.injEq] at e
    obtain ⟨rfl, rfl, rfl⟩ := e
    exact h ⟨rfl, hij⟩

theorem count_off2 (keys : List Triple) (index : List ℕ) {a b c : ℕ} (hm : (a, b, c) ∈ keys) :
    (offDiagonal keys index fun i j => (i, j, i)).count (a, b, c) = if a = c ∧ a ≠ b then index.count a * index.count b else 0 := by
  rw [count_offDiagonal keys index (fun i j => (i, j, i)) (a, b, c) (if a = c ∧ a ≠ b then index.count a * index.count b else 0),
    if_pos hm]
  by_cases h : a = c ∧ a ≠ b
  · obtain ⟨rfl, hc⟩ := h
    left
    exact ⟨a, b, hc, rfl, fun i j e => by simp only [Prod.mk.injEq] at e; exact ⟨e.1, e.2.1⟩, by simp [hc]⟩
  · right
    refine ⟨fun i j hij e => ?_, by simp only [h, if_false]⟩
    simp only [Prod.mk.injEq] at e
    obtain ⟨rfl, rfl, rfl⟩ := e
    exact h ⟨rfl, hij⟩

theorem count_off3 (keys : List Triple) (index : List ℕ) {a b c : ℕ} (hm : (a, b, c) ∈ keys) :
    (offDiagonal keys index fun i j => (j, i, i)).count (a, b, c) = if b = c ∧ b ≠ a then index.count b * index.count a else 0 := by
  rw [count_offDiagonal keys index (fun i j => (j, i, i)) (a, b, c) (if b = c ∧ b ≠ a then index.count b * index.count a else 0),
    if_pos hm]
  by_cases h : b = c ∧ b ≠ a
  · obtain ⟨rfl, hc⟩ := h
    left
    exact ⟨b, a, hc, rfl, fun i j e => by simp only [Prod.mk.injEq] at e; exact ⟨e.2.1, e.1⟩, by simp [hc]⟩
  · right
    refine ⟨fun i j hij e => ?_, by simp only [h, if_false]⟩
    simp only [Prod.mk.injEq] at e
    obtain ⟨rfl, rfl, rfl⟩ := e
    exact h ⟨rfl, hij⟩

theorem count_diag3 (index : List ℕ) (a b c : ℕ) :
    (index.map fun i => ((i, i, i) : Triple)).count (a, b, c) = if a = b ∧ b = c then index.count a else 0 := by
  by_cases h : a = b ∧ b = c
  · obtain ⟨rfl, rfl⟩ := h
    simpa using count_map_inj index (fun i => ((i, i, i) : Triple)) (fun x y hxy => (Prod.mk.inj hxy).1) a
  · rw [if_neg h, List.count_eq_zero]
    intro hm
    obtain ⟨i, _, hi⟩ := List.mem_map.1 hm
    simp only [Prod.mk.injEq] at hi
    obtain ⟨rfl, rfl, rfl⟩ := hi
    exact h ⟨rfl, rfl⟩

/-- The loops for two divided catalogues. -/
theorem count_two (keys : List Triple) (index : List ℕ) (f : ℕ → ℕ → Triple) (g g' : Triple → ℕ)
    (hg : ∀ i j, g (f i j) = i ∧ g' (f i j) = j) (hf : ∀ t ∈ keys, f (g t) (g' t) = t) (t : Triple) :
    ((index.map fun i => f i i).filter (okTriple keys) ++ offDiagonal keys index f).count t
      = if t ∈ keys then ∏ i ∈ ({g t} ∪ {g' t} : Finset ℕ), index.count i else 0 := by
  rw [List.count_append, count_map_filter]
  by_cases hm : t ∈ keys
  · have inj : Function.Injective fun i => f i i := fun x y hxy => by rw [← (hg x x).1, ← (hg y y).1]; exact congrArg g hxy
    have ok : okTriple keys t = true := by simpa [okTriple] using hm
    rw [if_pos ok, if_pos hm]
    by_cases he : g t = g' t
    · have e := hf t hm
      rw [← he] at e
      rw [count_offDiagonal keys index f t 0, if_pos hm, ← he]
      · conv_lhs => rw [← e]
        rw [count_map_inj index (fun i => f i i) inj]
        simp
      · right
        refine ⟨fun i j hij h' => hij ?_, rfl⟩
        exact (hg i j).1.symm.trans ((congrArg g h').trans (he.trans ((congrArg g' h').symm.trans (hg i j).2)))
    · rw [count_offDiagonal keys index f t (index.count (g t) * index.count (g' t)), if_pos hm]
      · have : (index.map fun i => f i i).count t = 0 := by
          rw [List.count_eq_zero]
          intro h'
          obtain ⟨i, _, rfl⟩ := List.mem_map.1 h'
          exact he (by rw [(hg i i).1, (hg i i).2])
        have e2 : ({g t} ∪ {g' t} : Finset ℕ) = {g t, g' t} := rfl
        rw [this, e2, Finset.prod_pair he, zero_add]
      · left
        refine ⟨g t, g' t, he, (hf t hm).symm, fun i j h' => ?_, rfl⟩
        rw [← h', (hg i j).1, (hg i j).2]
        exact ⟨rfl, rfl⟩
  · have ok : ¬ okTriple keys t = true := by simpa [okTriple] using hm
    rw [if_neg ok, if_neg hm, count_off_absent keys index f hm]

/-- The loop for one divided catalogue. -/
theorem count_one (keys : List Triple) (index : List ℕ) (f : ℕ → Triple) (g : Triple → ℕ) (hg : ∀ i, g (f i) = i)
    (hf : ∀ t ∈ keys, f (g t) = t) (t : Triple) :
    ((index.map f).filter (okTriple keys)).count t = if t ∈ keys then index.count (g t) else 0 := by
  rw [count_map_filter]
  by_cases ht : t ∈ keys
  · rw [if_pos (by simpa [okTriple] using ht), if_pos ht]
    conv_lhs => rw [← hf t ht]
    exact count_map_inj index f (Function.LeftInverse.injective hg) _
  · rw [if_neg (by simpa [okTriple] using ht), if_neg ht]

/-- **C64, bootstrap.** Each stored triple as many times as the product of the numbers of draws of its different patches. -/
theorem bootstrap3_uses {n n1 n2 n3 : ℕ} (h : Divided n n1 n2 n3) {keys : List Triple} (hk : KeysOf n1 n2 n3 keys) (index : List ℕ) :
    ∃ l, bootstrapTriples n1 n2 n3 keys index = some l ∧
      ∀ t, l.count t = if t ∈ keys then ∏ i ∈ patchesOf n1 n2 n3 t, index.count i else 0 := by
  have hn := h.ne
  have e0 : ∀ s : Finset ℕ, ∅ ∪ s = s := Finset.empty_union
  have e1 : ∀ s : Finset ℕ, s ∪ ∅ = s := Finset.union_empty
  unfold bootstrapTriples patchesOf
  rcases h.cases with ⟨rfl, rfl, rfl⟩ | ⟨rfl, rfl, rfl⟩ | ⟨rfl, rfl, rfl⟩ | ⟨rfl, rfl, rfl⟩ | ⟨rfl, rfl, rfl⟩ | ⟨rfl, rfl, rfl⟩ |
    ⟨rfl, rfl, rfl⟩ <;>
  simp only [hn, if_true, if_false, and_self, e0, e1] <;>
  refine ⟨_, rfl, ?_⟩
  · rintro ⟨a, b, c⟩
    simp only [List.count_append]
    rw [count_map_filter, count_tripleLoop, count_diag3]
    by_cases hm : (a, b, c) ∈ keys
    · rw [count_off1 keys index hm, count_off2 keys index hm, count_off3 keys index hm]
      have ok : okTriple keys (a, b, c) = true := by simpa [okTriple] using hm
      simp only [hm, ok, true_and, if_true]
      by_cases hab : a = b
      · subst hab
        by_cases hac : a = c
        · subst hac; simp
        · have : ({a} ∪ {a} ∪ {c} : Finset ℕ) = {a, c} := by ext; simp
          simp [hac, this, Finset.prod_pair hac]
      · by_cases hac : a = c
        · subst hac
          have : ({a} ∪ {b} ∪ {a} : Finset ℕ) = {a, b} := by ext; simp; tauto
          simp [hab, Ne.symm hab, this, Finset.prod_pair hab, mul_comm]
        · by_cases hbc : b = c
          · subst hbc
            have : ({a} ∪ {b} ∪ {b} : Finset ℕ) = {a, b} := by ext; simp
            simp [hab, Ne.symm hab, this, Finset.prod_pair hab, mul_comm]
          · have : ({a} ∪ {b} ∪ {c} : Finset ℕ) = insert a {b, c} := by ext; simp
            rw [this, Finset.prod_insert (by simp [hab, hac]), Finset.prod_pair hbc]
            simp [hab, hac, hbc]
    · have ok : ¬ okTriple keys (a, b, c) = true := by simpa [okTriple] using hm
      rw [count_off_absent keys index _ hm, count_off_absent keys index _ hm, count_off_absent keys index _ hm]
      simp [hm, ok]
  · exact count_two keys index (fun i j => (0, i, j)) (fun t => t.2.1) (fun t => t.2.2) (by simp) fun t ht =>
      Prod.ext (by have := (hk t ht).1; simp; omega) rfl
  · exact count_two keys index (fun i j => (i, 0, j)) (fun t => t.1) (fun t => t.2.2) (by simp) fun t ht =>
      Prod.ext rfl (Prod.ext (by have := (hk t ht).2.1; simp; omega) rfl)
  · exact count_two keys index (fun i j => (i, j, 0)) (fun t => t.1) (fun t => t.2.1) (by simp) fun t ht =>
      Prod.ext rfl (Prod.ext rfl (by have := (hk t ht).2.2; simp; omega))
  · simp only [Finset.prod_singleton]
    exact count_one keys index (fun i => (i, 0, 0)) (fun t => t.1) (by simp) fun t ht =>
      Prod.ext rfl (Prod.ext (by have := (hk t ht).2.1; simp; omega) (by have := (hk t ht).2.2; simp; omega))
  · simp only [Finset.prod_singleton]
    exact count_one keys index (fun i => (0, i, 0)) (fun t => t.2.1) (by simp) fun t ht =>
      Prod.ext (by have := (hk t ht).1; simp; omega) (Prod.ext rfl (by have := (hk t ht).2.2; simp; omega))
  · simp only [Finset.prod_singleton]
    exact count_one keys index (fun i => (0, 0, i)) (fun t => t.2.2) (by simp) fun t ht =>
      Prod.ext (by have := (hk t ht).1; simp; omega) (Prod.ext (by have := (hk t ht).2.1; simp; omega) rfl)

/-! ### Recomputation without a patch -/

variable {V C : Type} [AddCommMonoid V] {K : Kit3 V C} {G : V → Prop}

/-- The catalogue without patch `i`; an undivided catalogue stays as it is. -/
def leaveOut (i : ℕ) (cats : List (ℕ × C)) : List (ℕ × C) :=
  if cats.length = 1 then cats else cats.filter fun c => decide (c.1 ≠ i)

/-- Undivided, or in the patches with the numbers `ids`. -/
def InPatches (ids : List ℕ) (cats : List (ℕ × C)) : Prop := cats.map Prod.fst = ids ∨ ∃ c, cats = [(0, c)]

theorem leaveOut_eq (i : ℕ) (cats : List (ℕ × C)) :
    leaveOut i cats = cats.filter fun c => decide (cats.length = 1 ∨ c.1 ≠ i) := by
  unfold leaveOut
  by_cases h : cats.length = 1
  · rw [if_pos h, List.filter_eq_self.2]
    intro c _
    simp [h]
  · simp [h]

theorem InPatches.length {ids : List ℕ} {cats : List (ℕ × C)} (h : InPatches ids cats) :
    cats.length = 1 ∨ cats.length = ids.length := by
  rcases h with rfl | ⟨c, rfl⟩
  · right; simp
  · left; rfl

theorem InPatches.nodup {ids : List ℕ} (hid : ids.Nodup) {cats : List (ℕ × C)} (h : InPatches ids cats) :
    (cats.map Prod.fst).Nodup := by
  rcases h with rfl | ⟨c, rfl⟩
  · exact hid
  · simp

theorem leaveOut_nodup (i : ℕ) {cats : List (ℕ × C)} (h : (cats.map Prod.fst).Nodup) : ((leaveOut i cats).map Prod.fst).Nodup := by
  rw [leaveOut_eq]
  exact h.sublist (List.filter_sublist.map _)

theorem leaveOut_single (i : ℕ) {cats : List (ℕ × C)} (h : cats.length = 1) : (leaveOut i cats).length = 1 := by
  rw [leaveOut, if_pos h, h]

/-- In a divided catalogue the patch numbers that remain are those that are not `i`. -/
theorem leaveOut_ids {ids : List ℕ} (i : ℕ) {cats : List (ℕ × C)} (h : InPatches ids cats) (h1 : cats.length ≠ 1) :
    (leaveOut i cats).map Prod.fst = ids.filter fun k => decide (k ≠ i) := by
  rcases h with rfl | ⟨c, rfl⟩
  · rw [leaveOut, if_neg h1, List.filter_map]; rfl
  · simp at h1

/-- Of divided catalogues of which one patch remains, the patch is the same one. -/
theorem leaveOut_one {ids : List ℕ} {i : ℕ} {cats : List (ℕ × C)} (h : InPatches ids cats) (h1 : cats.length ≠ 1) {k : ℕ}
    (hk : (ids.filter fun k => decide (k ≠ i)) = [k]) {c : ℕ × C} (hc : c ∈ leaveOut i cats) : c.1 = k := by
  have := List.mem_map_of_mem (f := Prod.fst) hc
  rw [leaveOut_ids i h h1, hk] at this
  simpa using this

/-- Whether a result is stored although empty is decided in the same way when patch `i` is left out. -/
theorem force_same {ids : List ℕ} {i : ℕ} {cats1 cats2 cats3 : List (ℕ × C)} (h1 : InPatches ids cats1) (h2 : InPatches ids cats2)
    (h3 : InPatches ids cats3) {c1 c2 c3 : ℕ × C} (m1 : c1 ∈ leaveOut i cats1) (m2 : c2 ∈ leaveOut i cats2)
    (m3 : c3 ∈ leaveOut i cats3) :
    ((decide (c1.1 = c2.1) && decide (c2.1 = c3.1)) || decide (cats1.length = 1) || decide (cats2.length = 1) || decide (cats3.length = 1))
      = ((decide (c1.1 = c2.1) && decide (c2.1 = c3.1)) || decide ((leaveOut i cats1).length = 1) ||
        decide ((leaveOut i cats2).length = 1) || decide ((leaveOut i cats3).length = 1)) := by
  by_cases e1 : cats1.length = 1
  · simp [e1, leaveOut_single i e1]
  by_cases e2 : cats2.length = 1
  · simp [e2, leaveOut_single i e2]
  by_cases e3 : cats3.length = 1
  · simp [e3, leaveOut_single i e3]
  have l1 := congrArg List.length (leaveOut_ids i h1 e1)
  have l2 := congrArg List.length (leaveOut_ids i h2 e2)
  have l3 := congrArg List.length (leaveOut_ids i h3 e3)
  rw [List.length_map] at l1 l2 l3
  by_cases hl : (ids.filter fun k => decide (k ≠ i)).length = 1
  · obtain ⟨k, hk⟩ := List.length_eq_one_iff.1 hl
    have a1 := leaveOut_one h1 e1 hk m1
    have a2 := leaveOut_one h2 e2 hk m2
    have a3 := leaveOut_one h3 e3 hk m3
    simp [a1, a2, a3]
  · simp only [e1, e2, e3, l1, l2, l3, hl]

/-- **C64, auto.** Row `i` of an auto-correlation sums the stored results to what processing the catalogue without patch `i` gives:
arrays and `tot`. -/
theorem jackknife3_auto_recomputed (hK : K.Good G) (cats : List (ℕ × C)) (hid : (cats.map Prod.fst).Nodup) (S : TriCorr V)
    (hn : cats.length ≠ 1) (i : ℕ) :
    ∃ l rs, jackknifeTriples cats.length cats.length cats.length ((K.processAuto true cats S).results.map Prod.fst) i = some l ∧
      fetch3 (K.processAuto true cats S).results l = some rs ∧
      K.sumOthers rs = (K.processAuto true (leaveOut i cats) S).self := by
  rw [processAuto3_jobs hK hid, processAuto3_jobs hK (leaveOut_nodup i hid)]
  have hd : Divided cats.length cats.length cats.length cats.length := ⟨hn, .inr rfl, .inr rfl, .inr rfl, fun h => hn h.1⟩
  obtain ⟨rs, h1, h2⟩ := row_sum3 hK (autoJobs3 K cats) (autoJobs3_good hK cats) (autoJobs3_plain cats) (autoJobs3_nodup K hid)
    (fun t => decide (keepsTriple cats.length cats.length cats.length i t))
  refine ⟨_, rs, jackknifeTriples_eq hd _ i, h1, ?_⟩
  rw [h2]
  show _ = ((autoJobs3 K (leaveOut i cats)).map (Job3.val K)).sum
  rw [leaveOut_eq, ← autoJobs3_filter cats fun k => decide (cats.length = 1 ∨ k ≠ i)]
  congr 2
  apply List.filter_congr
  intro J _
  rw [Bool.eq_iff_iff, decide_eq_true_iff]
  simp [keepsTriple]

/-- **C64, one catalogue against another twice.** -/
theorem jackknife3_cross12_recomputed (hK : K.Good G) (o : Bool) {ids : List ℕ} (hid : ids.Nodup) (hn : ids.length ≠ 1)
    {cats1 cats2 : List (ℕ × C)} (h1 : InPatches ids cats1) (h2 : InPatches ids cats2) (hd : cats1.length ≠ 1 ∨ cats2.length ≠ 1)
    (S : TriCorr V) (i : ℕ) :
    ∃ l rs, jackknifeTriples cats1.length cats2.length cats2.length
        ((K.processCross12 true o cats1 cats2 S).results.map Prod.fst) i = some l ∧
      fetch3 (K.processCross12 true o cats1 cats2 S).results l = some rs ∧
      K.sumOthers rs = (K.processCross12 true o (leaveOut i cats1) (leaveOut i cats2) S).self := by
  rw [processCross12_jobs hK o (h1.nodup hid) (h2.nodup hid),
    processCross12_jobs hK o (leaveOut_nodup i (h1.nodup hid)) (leaveOut_nodup i (h2.nodup hid))]
  have hd : Divided ids.length cats1.length cats2.length cats2.length :=
    ⟨hn, h1.length, h2.length, h2.length, fun h => by omega⟩
  obtain ⟨rs, e1, e2⟩ := row_sum3 hK (cross12Jobs K o cats1.length cats2.length cats1 cats2)
    (cross12Jobs_good hK _ _ _ _ _) (cross12Jobs_plain _ _ _ _ _) (cross12Jobs_nodup K _ _ _ (h1.nodup hid) (h2.nodup hid))
    (fun t => decide (keepsTriple cats1.length cats2.length cats2.length i t))
  refine ⟨_, rs, jackknifeTriples_eq hd _ i, e1, ?_⟩
  rw [e2]
  show _ = ((cross12Jobs K o (leaveOut i cats1).length (leaveOut i cats2).length (leaveOut i cats1) (leaveOut i cats2)).map
    (Job3.val K)).sum
  have same : cross12Jobs K o (leaveOut i cats1).length (leaveOut i cats2).length (leaveOut i cats1) (leaveOut i cats2)
      = cross12Jobs K o cats1.length cats2.length (leaveOut i cats1) (leaveOut i cats2) := by
    unfold cross12Jobs
    apply List.flatMap_congr
    intro c1 m1
    apply List.flatMap_congr
    intro c2 m2
    unfold cross12Row
    have := force_same h1 h2 h2 m1 m2 m2
    simp only [decide_true, Bool.and_true] at this
    rw [Bool.or_assoc, Bool.or_self, Bool.or_assoc (decide (c1.1 = c2.1) || _), Bool.or_self] at this
    rw [this]
  rw [same, leaveOut_eq i cats1, leaveOut_eq i cats2,
    ← cross12Jobs_filter o _ _ cats1 cats2 (fun k => decide (cats1.length = 1 ∨ k ≠ i)) (fun k => decide (cats2.length = 1 ∨ k ≠ i))]
  congr 2
  apply List.filter_congr
  intro J _
  rw [Bool.eq_iff_iff, decide_eq_true_iff]
  simp [keepsTriple]

/-- **C64, three catalogues.** -/
theorem jackknife3_cross_recomputed (hK : K.Good G) (o : Bool) {ids : List ℕ} (hid : ids.Nodup) (hn : ids.length ≠ 1)
    {cats1 cats2 cats3 : List (ℕ × C)} (h1 : InPatches ids cats1) (h2 : InPatches ids cats2) (h3 : InPatches ids cats3)
    (hd : cats1.length ≠ 1 ∨ cats2.length ≠ 1 ∨ cats3.length ≠ 1) (S : TriCorr V) (i : ℕ) :
    ∃ l rs, jackknifeTriples cats1.length cats2.length cats3.length
        ((K.processCross true o cats1 cats2 cats3 S).results.map Prod.fst) i = some l ∧
      fetch3 (K.processCross true o cats1 cats2 cats3 S).results l = some rs ∧
      K.sumOthers rs = (K.processCross true o (leaveOut i cats1) (leaveOut i cats2) (leaveOut i cats3) S).self := by
  rw [processCross123_jobs hK o (h1.nodup hid) (h2.nodup hid) (h3.nodup hid),
    processCross123_jobs hK o (leaveOut_nodup i (h1.nodup hid)) (leaveOut_nodup i (h2.nodup hid)) (leaveOut_nodup i (h3.nodup hid))]
  have hd : Divided ids.length cats1.length cats2.length cats3.length :=
    ⟨hn, h1.length, h2.length, h3.length, fun h => by omega⟩
  obtain ⟨rs, e1, e2⟩ := row_sum3 hK (cross123Jobs K o cats1.length cats2.length cats3.length cats1 cats2 cats3)
    (cross123Jobs_good hK _ _ _ _ _ _ _) (cross123Jobs_plain _ _ _ _ _ _ _)
    (cross123Jobs_nodup K _ _ _ _ (h1.nodup hid) (h2.nodup hid) (h3.nodup hid))
    (fun t => decide (keepsTriple cats1.length cats2.length cats3.length i t))
  refine ⟨_, rs, jackknifeTriples_eq hd _ i, e1, ?_⟩
  rw [e2]
  show _ = ((cross123Jobs K o (leaveOut i cats1).length (leaveOut i cats2).length (leaveOut i cats3).length (leaveOut i cats1)
    (leaveOut i cats2) (leaveOut i cats3)).map (Job3.val K)).sum
  have same : cross123Jobs K o (leaveOut i cats1).length (leaveOut i cats2).length (leaveOut i cats3).length (leaveOut i cats1)
      (leaveOut i cats2) (leaveOut i cats3)
      = cross123Jobs K o cats1.length cats2.length cats3.length (leaveOut i cats1) (leaveOut i cats2) (leaveOut i cats3) := by
    unfold cross123Jobs
    apply List.flatMap_congr
    intro c1 m1
    apply List.flatMap_congr
    intro c2 m2
    apply List.map_congr_left
    intro c3 m3
    rw [force_same h1 h2 h3 m1 m2 m3]
  rw [same, leaveOut_eq i cats1, leaveOut_eq i cats2, leaveOut_eq i cats3,
    ← cross123Jobs_filter o _ _ _ cats1 cats2 cats3 (fun k => decide (cats1.length = 1 ∨ k ≠ i))
      (fun k => decide (cats2.length = 1 ∨ k ≠ i)) (fun k => decide (cats3.length = 1 ∨ k ≠ i))]
  congr 2
  apply List.filter_congr
  intro J _
  rw [Bool.eq_iff_iff, decide_eq_true_iff]
  simp [keepsTriple]

/-! ### Sums of bootstrap rows -/

/-- What a run leaves in `results`: each key once, sound arrays, and a `tot` only for counts. -/
structure Stored (K : Kit3 V C) (G : V → Prop) (d : Dict3 V) : Prop where
  keys : (d.map Prod.fst).Nodup
  good : ∀ x ∈ d, G x.2.acc
  plain : K.nn = false → ∀ x ∈ d, x.2.tot = 0

theorem jobs_stored {js : List (Job3 V)} (hg : ∀ J ∈ js, J.Good G) (hp : ∀ J ∈ js, J.Plain K)
    (hnd : (js.map Job3.key).Nodup) : Stored K G (js.flatMap (Job3.stored K)) := by
  refine ⟨stored_keys_nodup3 K js hnd, ?_, ?_⟩
  · intro x hx
    obtain ⟨J, hJ, hx⟩ := List.mem_flatMap.1 hx
    rw [Job3.stored_keys K J x hx, Job3.val_acc]
    exact hg J hJ
  · intro hn x hx
    obtain ⟨J, hJ, hx⟩ := List.mem_flatMap.1 hx
    rw [Job3.stored_keys K J x hx]
    unfold Job3.val
    split
    · exact hp J hJ hn
    · simp [hn]

/-- Every run leaves such results. -/
theorem run_stored (hK : K.Good G) (o : Bool) {cats1 cats2 cats3 : List (ℕ × C)} (h1 : (cats1.map Prod.fst).Nodup)
    (h2 : (cats2.map Prod.fst).Nodup) (h3 : (cats3.map Prod.fst).Nodup) (S : TriCorr V) :
    Stored K G (K.processAuto true cats1 S).results ∧ Stored K G (K.processCross12 true o cats1 cats2 S).results ∧
      Stored K G (K.processCross true o cats1 cats2 cats3 S).results := by
  rw [processAuto3_jobs hK h1, processCross12_jobs hK o h1 h2, processCross123_jobs hK o h1 h2 h3]
  exact ⟨jobs_stored (autoJobs3_good hK _) (autoJobs3_plain _) (autoJobs3_nodup K h1),
    jobs_stored (cross12Jobs_good hK _ _ _ _ _) (cross12Jobs_plain _ _ _ _ _) (cross12Jobs_nodup K _ _ _ h1 h2),
    jobs_stored (cross123Jobs_good hK _ _ _ _ _ _ _) (cross123Jobs_plain _ _ _ _ _ _ _) (cross123Jobs_nodup K _ _ _ _ h1 h2 h3)⟩

theorem weighted_row (hK : K.Good G) {d : Dict3 V} (hd : Stored K G d) {l : List Triple} (w : Triple → ℕ)
    (hl : ∀ t, l.count t = if t ∈ d.map Prod.fst then w t else 0) :
    ∃ rs, fetch3 d l = some rs ∧ K.sumOthers rs = (d.map fun x => w x.1 • x.2).sum := by
  obtain ⟨rs, e1, e2, e3⟩ := fetch3_weighted d hd.keys l (by
    intro t ht
    by_contra hn
    have := hl t
    rw [if_neg hn, List.count_eq_zero] at this
    exact this ht)
  refine ⟨rs, e1, ?_⟩
  rw [sumOthers3_eq hK, e3]
  · apply congrArg
    apply List.map_congr_left
    intro x hx
    rw [hl, if_pos (List.mem_map_of_mem hx)]
  · intro r hr
    obtain ⟨x, hx, rfl⟩ := List.mem_map.1 (e2 r hr)
    exact hd.good x hx
  · intro hn r hr
    obtain ⟨x, hx, rfl⟩ := List.mem_map.1 (e2 r hr)
    exact hd.plain hn x hx

/-- **C64, bootstrap rows.** The row is the sum of all stored results, each times the product of the numbers of draws of its different
patches: arrays and `tot`. -/
theorem bootstrap3_sum (hK : K.Good G) {d : Dict3 V} (hd : Stored K G d) {n n1 n2 n3 : ℕ} (h : Divided n n1 n2 n3)
    (hk : KeysOf n1 n2 n3 (d.map Prod.fst)) (index : List ℕ) :
    ∃ l rs, bootstrapTriples n1 n2 n3 (d.map Prod.fst) index = some l ∧ fetch3 d l = some rs ∧
      K.sumOthers rs = (d.map fun x => (∏ i ∈ patchesOf n1 n2 n3 x.1, index.count i) • x.2).sum := by
  obtain ⟨l, hl, hc⟩ := bootstrap3_uses h hk index
  obtain ⟨rs, e1, e2⟩ := weighted_row hK hd (fun t => ∏ i ∈ patchesOf n1 n2 n3 t, index.count i) hc
  exact ⟨l, rs, hl, e1, e2⟩

/-- **C64, marked bootstrap rows.** Each stored result times the number of draws of its patch of the first divided catalogue. -/
theorem marked3_sum (hK : K.Good G) {d : Dict3 V} (hd : Stored K G d) {n n1 n2 n3 : ℕ} (h : Divided n n1 n2 n3)
    (hk : KeysOf n1 n2 n3 (d.map Prod.fst)) (index : List ℕ) :
    ∃ l rs, markedTriples n1 n2 n3 (d.map Prod.fst) index = some l ∧ fetch3 d l = some rs ∧
      K.sumOthers rs = (d.map fun x => index.count (firstPatch n1 n2 x.1) • x.2).sum := by
  obtain ⟨l, hl, hc⟩ := marked3_uses h hk index
  obtain ⟨rs, e1, e2⟩ := weighted_row hK hd (fun t => index.count (firstPatch n1 n2 t)) hc
  exact ⟨l, rs, hl, e1, e2⟩

/-- **C64, sample rows.** -/
theorem sample3_sum (hK : K.Good G) {d : Dict3 V} (hd : Stored K G d) {n n1 n2 n3 : ℕ} (h : Divided n n1 n2 n3) (i : ℕ) :
    ∃ l rs, sampleTriples n1 n2 n3 (d.map Prod.fst) i = some l ∧ fetch3 d l = some rs ∧
      K.sumOthers rs = (d.map fun x => if firstPatch n1 n2 x.1 = i then x.2 else 0).sum := by
  obtain ⟨l, hl, hc⟩ := sample3_uses h hd.keys i
  obtain ⟨rs, e1, e2⟩ := weighted_row hK hd (fun t => if firstPatch n1 n2 t = i then 1 else 0) (l := l) (by
    intro t
    rw [hc]
    by_cases a : t ∈ d.map Prod.fst <;> simp [a])
  refine ⟨l, rs, hl, e1, e2.trans ?_⟩
  apply congrArg
  apply List.map_congr_left
  intro x _
  split <;> simp

/-! ### Cases -/

example (S : TriCorr Acc3) : Stored (triEx true) Acc3.Good ((triEx true).processAuto true threePatches S).results :=
  (run_stored (triEx_good true) true (cats2 := threePatches) (cats3 := threePatches) (by simp [threePatches]) (by simp [threePatches])
    (by simp [threePatches]) S).1

example : KeysOf 3 3 3 [(0, 0, 0), (0, 1, 2)] := by simp [KeysOf]


/-- The tree code over three patches with one row each meets the hypotheses: leaving out patch 2 leaves no triangle. -/
example (S : TriCorr Acc3) : ∃ l rs, jackknifeTriples 3 3 3 (((triEx true).processAuto true threePatches S).results.map Prod.fst) 2 = some l ∧
    fetch3 ((triEx true).processAuto true threePatches S).results l = some rs ∧
    (triEx true).sumOthers rs = ((triEx true).processAuto true [(0, [ob 0 0 0]), (1, [ob 0 3 1])] S).self :=
  jackknife3_auto_recomputed (triEx_good true) threePatches (by simp [threePatches]) S (by simp [threePatches]) 2

example (S : TriCorr Acc3) : ∃ l rs, jackknifeTriples 1 3 3
      (((triEx true).processCross12 true true [(0, [ob 9 9 9])] threePatches S).results.map Prod.fst) 2 = some l ∧
    fetch3 ((triEx true).processCross12 true true [(0, [ob 9 9 9])] threePatches S).results l = some rs ∧
    (triEx true).sumOthers rs = ((triEx true).processCross12 true true [(0, [ob 9 9 9])] [(0, [ob 0 0 0]), (1, [ob 0 3 1])] S).self :=
  jackknife3_cross12_recomputed (triEx_good true) true (ids := [0, 1, 2]) (cats1 := [(0, [ob 9 9 9])]) (cats2 := threePatches)
    (by simp) (by simp) (.inr ⟨_, rfl⟩)
    (.inl (by simp [threePatches])) (.inr (by simp [threePatches])) S 2

example : jackknifeTriples 3 3 3 [(0, 0, 0), (0, 1, 2), (0, 2, 2), (1, 1, 2), (2, 2, 2)] 1 = some [(0, 0, 0), (0, 2, 2), (2, 2, 2)] := by
  simp [jackknifeTriples]

example : ∃ l, bootstrapTriples 3 3 3 [(0, 0, 0), (0, 1, 2), (0, 2, 2), (2, 2, 2)] [2, 0, 2, 1] = some l ∧ l.count (0, 1, 2) = 2 ∧
    l.count (0, 2, 2) = 2 ∧ l.count (2, 2, 2) = 2 ∧ l.count (1, 1, 1) = 0 := by
  obtain ⟨l, h, hc⟩ := bootstrap3_uses (n := 3) (n1 := 3) (n2 := 3) (n3 := 3) ⟨by norm_num, .inr rfl, .inr rfl, .inr rfl, by norm_num⟩
    (keys := [(0, 0, 0), (0, 1, 2), (0, 2, 2), (2, 2, 2)]) (by simp [KeysOf]) [2, 0, 2, 1]
  refine ⟨l, h, ?_, ?_, ?_, ?_⟩ <;> rw [hc] <;> simp [patchesOf]

/-! ### Where it fails -/

/-- **C64, negation.** An undivided first catalogue with two others in 2 and in 3 patches is accepted by `process`, but no
covariance can be made. -/
theorem cov3_unequal_wrong : crossAccepts 1 2 3 = true ∧ ∀ keys i index, jackknifeTriples 1 2 3 keys i = none ∧
    sampleTriples 1 2 3 keys i = none ∧ markedTriples 1 2 3 keys index = none ∧ bootstrapTriples 1 2 3 keys index = none := by
  constructor
  · simp [crossAccepts]
  · intro keys i index
    simp [jackknifeTriples, sampleTriples, markedTriples, bootstrapTriples]

theorem autoJobs3_sorted (cats : List (ℕ × C)) : ∀ J ∈ autoJobs3 K cats, J.key.1 ≤ J.key.2.1 ∧ J.key.2.1 ≤ J.key.2.2 := by
  intro J hJ
  obtain ⟨c1, _, h2⟩ := List.mem_flatMap.1 hJ
  rcases List.mem_cons.1 h2 with rfl | h2
  · exact ⟨le_rfl, le_rfl⟩
  · obtain ⟨c2, h3, h2⟩ := List.mem_flatMap.1 h2
    have lt : c1.1 < c2.1 := by simpa using (List.mem_filter.1 h3).2
    rcases List.mem_cons.1 h2 with rfl | h2
    · exact ⟨lt.le, le_rfl⟩
    · rcases List.mem_cons.1 h2 with rfl | h2
      · exact ⟨le_rfl, lt.le⟩
      · obtain ⟨c3, h4, rfl⟩ := List.mem_map.1 h2
        have lt' : c2.1 < c3.1 := by simpa using (List.mem_filter.1 h4).2
        exact ⟨lt.le, lt'.le⟩

/-- **C64, negation.** A row of the `sample` method, said to be "the data vector using only a single patch for the first catalog",
does not use that patch with all of the catalogue in an auto-correlation: row `i` has no triple with a patch numbered below `i`, and
the row of the last patch is that patch alone. -/
theorem sample3_auto_wrong (hK : K.Good G) (cats : List (ℕ × C)) (hid : (cats.map Prod.fst).Nodup) (S : TriCorr V)
    (hn : cats.length ≠ 1) (i : ℕ) :
    ∃ l, sampleTriples cats.length cats.length cats.length ((K.processAuto true cats S).results.map Prod.fst) i = some l ∧
      ∀ t ∈ l, i ≤ t.1 ∧ i ≤ t.2.1 ∧ i ≤ t.2.2 := by
  rw [processAuto3_jobs hK hid]
  refine ⟨_, by simp only [sampleTriples, hn, if_false, and_self, if_true]; rfl, ?_⟩
  intro t ht
  obtain ⟨h1, h2⟩ := List.mem_filter.1 ht
  obtain ⟨x, hx, rfl⟩ := List.mem_map.1 h1
  obtain ⟨J, hJ, hx⟩ := List.mem_flatMap.1 hx
  have e : x.1.1 = i := by simpa using h2
  have := autoJobs3_sorted cats J hJ
  rw [Job3.stored_keys K J x hx] at e ⊢
  simp only at e ⊢
  omega

/-- **C64, negation.** The same for the marked bootstrap: if all draws are patch `i`, no triple with a patch numbered below `i` is
used. -/
theorem marked3_auto_wrong (hK : K.Good G) (cats : List (ℕ × C)) (hid : (cats.map Prod.fst).Nodup) (S : TriCorr V)
    (hn : cats.length ≠ 1) (i : ℕ) (index : List ℕ) (hi : ∀ a ∈ index, a = i) :
    ∃ l, markedTriples cats.length cats.length cats.length ((K.processAuto true cats S).results.map Prod.fst) index = some l ∧
      ∀ t ∈ l, i ≤ t.1 ∧ i ≤ t.2.1 ∧ i ≤ t.2.2 := by
  rw [processAuto3_jobs hK hid]
  refine ⟨_, by simp only [markedTriples, hn, if_false, and_self, if_true]; rfl, ?_⟩
  intro t ht
  obtain ⟨a, ha, ht⟩ := List.mem_flatMap.1 ht
  obtain ⟨b, _, ht⟩ := List.mem_flatMap.1 ht
  obtain ⟨h1, h2⟩ := List.mem_filter.1 ht
  obtain ⟨c, _, rfl⟩ := List.mem_map.1 h1
  obtain rfl := hi a ha
  have h2 : (a, b, c) ∈ ((autoJobs3 K cats).flatMap (Job3.stored K)).map Prod.fst := by simpa [okTriple] using h2
  obtain ⟨x, hx, e⟩ := List.mem_map.1 h2
  obtain ⟨J, hJ, hx⟩ := List.mem_flatMap.1 hx
  have := autoJobs3_sorted cats J hJ
  rw [Job3.stored_keys K J x hx] at e
  simp only at e
  rw [e] at this
  simp only at this ⊢
  omega

end
end TreeCorr
