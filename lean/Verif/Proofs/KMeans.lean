import Mathlib.Data.List.Range
import Verif.Proofs.Tree
import Verif.Proofs.Select
import Verif.Model.KMeans

/-!
Lemmas about the k-means code.
-/

namespace TreeCorr.KMeans
open Classical List
noncomputable section
variable {P : Type}

/-- The candidates held in the first `n` entries. -/
def cands (ps : ℕ → ℕ) (n : ℕ) : Set ℕ := {q | ∃ i < n, ps i = q}

theorem cands_swapF (ps : ℕ → ℕ) {i j m : ℕ} (hi : i < m) (hj : j < m) : cands (swapF ps i j) m = cands ps m := by
  ext q
  constructor
  · rintro ⟨k, hk, h⟩
    unfold swapF at h
    split_ifs at h
    · exact ⟨j, hj, h⟩
    · exact ⟨i, hi, h⟩
    · exact ⟨k, hk, h⟩
  · rintro ⟨k, hk, h⟩
    by_cases h1 : k = i
    · by_cases h2 : j = i
      · exact ⟨i, hi, by simp [swapF, h2, ← h1, h]⟩
      · subst h1
        exact ⟨j, hj, by simp [swapF, h2, h]⟩
    · by_cases h2 : k = j
      · exact ⟨i, hi, by simp [swapF, ← h2, h]⟩
      · exact ⟨k, hk, by simp [swapF, h1, h2, h]⟩

theorem scan_spec (cd : ℕ → ℝ) (I : Option (ℕ → ℝ)) (ps : ℕ → ℕ) (t : ℕ) :
    let st := (List.range' 1 t).foldl (scanStep cd I) (scanInit cd I ps)
    (∀ m, t < m → cands st.ps m = cands ps m) ∧ (∀ i ≤ t, st.saved i = cd (st.ps i)) ∧
    st.min = modDsq I (cd (st.ps 0)) (st.ps 0) ∧ ∀ i ≤ t, st.min ≤ modDsq I (cd (st.ps i)) (st.ps i) := by
  induction t with
  | zero =>
    intro st
    refine ⟨fun _ _ => rfl, ?_, rfl, ?_⟩
    · intro i hi; rw [Nat.le_zero.1 hi]; rfl
    · intro i hi; rw [Nat.le_zero.1 hi]; exact le_rfl
  | succ t ih =>
    simp only at ih
    simp only [List.range'_1_concat, List.foldl_append, List.foldl_cons, List.foldl_nil]
    obtain ⟨h1, h2, h3, h4⟩ := ih
    generalize (List.range' 1 t).foldl (scanStep cd I) (scanInit cd I ps) = st at h1 h2 h3 h4
    have hs : ∀ i ≤ t + 1, Function.update st.saved (1 + t) (cd (st.ps (1 + t))) i = cd (st.ps i) := by
      intro i hi
      by_cases e : i = 1 + t
      · subst e; simp
      · rw [Function.update_of_ne e]; exact h2 i (by omega)
    unfold scanStep
    simp only
    split
    · rename_i hlt
      refine ⟨?_, ?_, ?_, ?_⟩
      · intro m hm
        simp only
        rw [cands_swapF _ (by omega) (by omega)]
        exact h1 m (by omega)
      · intro i hi
        simp only [swapF]
        split_ifs
        · exact hs _ (by omega)
        · exact hs _ (by omega)
        · exact hs _ hi
      · simp [swapF]
      · intro i hi
        simp only [swapF]
        split_ifs
        · exact le_rfl
        · rw [← h3]; exact hlt.le
        · exact hlt.le.trans (h4 i (by omega))
    · rename_i hge
      refine ⟨fun m hm => h1 m (by omega), hs, h3, ?_⟩
      intro i hi
      by_cases e : i = 1 + t
      · subst e; exact not_lt.1 hge
      · exact h4 i (by omega)

theorem scan_spec' (cd : ℕ → ℝ) (I : Option (ℕ → ℝ)) (ps : ℕ → ℕ) (n : ℕ) :
    (∀ m, n - 1 < m → cands (scan cd I ps n).ps m = cands ps m) ∧
    (∀ i ≤ n - 1, (scan cd I ps n).saved i = cd ((scan cd I ps n).ps i)) ∧
    (scan cd I ps n).min = modDsq I (cd ((scan cd I ps n).ps 0)) ((scan cd I ps n).ps 0) ∧
    ∀ i ≤ n - 1, (scan cd I ps n).min ≤ modDsq I (cd ((scan cd I ps n).ps i)) ((scan cd I ps n).ps i) :=
  scan_spec cd I ps (n - 1)

theorem prune_spec (I : Option (ℕ → ℝ)) (s th : ℝ) (cd saved : ℕ → ℝ) (j : ℕ) (ps : ℕ → ℕ) (n : ℕ) (hj : j < n)
    (hs : ∀ i ≤ j, saved i = cd (ps i)) :
    let y := prune I s th saved j (ps, n)
    (∀ m, n ≤ m → cands y.1 m = cands ps m) ∧ 1 ≤ y.2 ∧ y.2 ≤ n ∧ y.1 0 = ps 0 ∧
    (cands y.1 y.2 ⊆ cands ps n) ∧
    ∀ q ∈ cands ps n, q ∈ cands y.1 y.2 ∨ pruneDsq I s (cd q) q > th := by
  induction j generalizing ps n with
  | zero =>
    exact ⟨fun _ _ => rfl, hj, le_rfl, rfl, subset_rfl, fun q hq => Or.inl hq⟩
  | succ j ih =>
    simp only [prune]
    split
    · rename_i hbad
      have hs' : ∀ i ≤ j, saved i = cd (swapF ps (j + 1) (n - 1) i) := by
        intro i hi
        rw [hs i (by omega)]
        unfold swapF
        rw [if_neg (by omega), if_neg (by omega)]
      obtain ⟨h1, h2, h3, h4, h5, h6⟩ := ih (swapF ps (j + 1) (n - 1)) (n - 1) (by omega) hs'
      have hsub : cands (swapF ps (j + 1) (n - 1)) (n - 1) ⊆ cands ps n := by
        rw [← cands_swapF ps (i := j + 1) (j := n - 1) (m := n) (by omega) (by omega)]
        rintro q ⟨i, hi, h⟩
        exact ⟨i, by omega, h⟩
      refine ⟨?_, h2, by omega, ?_, ?_, ?_⟩
      · intro m hm
        rw [h1 m (by omega), cands_swapF _ (by omega) (by omega)]
      · rw [h4]
        unfold swapF
        rw [if_neg (by omega), if_neg (by omega)]
      · exact h5.trans hsub
      · rintro q ⟨i, hi, h⟩
        by_cases e1 : i = j + 1
        · subst e1
          right
          rw [← h, ← hs _ le_rfl]
          exact hbad
        · apply h6
          by_cases e2 : i = n - 1
          · refine ⟨j + 1, by omega, ?_⟩
            simp [swapF, ← e2, h]
          · exact ⟨i, by omega, by simp [swapF, e1, e2, h]⟩
    · exact ih ps n (by omega) (fun i hi => hs i (by omega))

variable [PseudoMetricSpace P]

/-- The quantity minimised by the search: squared distance, plus the inertia of the patch for `alt`. -/
def score (cen : ℕ → P) (I : Option (ℕ → ℝ)) (p : P) (q : ℕ) : ℝ := modDsq I (dist p (cen q) ^ 2) q

/-- A removed candidate is at least as far as the closest one from everything in the cell. -/
theorem prune_sound (cen : ℕ → P) (I : Option (ℕ → ℝ)) (hI : ∀ f, I = some f → ∀ q, 0 ≤ f q) (p o : P) (s : ℝ)
    (ho : dist o p ≤ s) (st : Scan) (h0 : st.saved 0 = dist p (cen (st.ps 0)) ^ 2) (q : ℕ)
    (h : pruneDsq I s (dist p (cen q) ^ 2) q > thresh I s st) :
    score cen I o (st.ps 0) ≤ score cen I o q := by
  have t1 : dist o (cen (st.ps 0)) ≤ dist p (cen (st.ps 0)) + s := by
    have := dist_triangle o p (cen (st.ps 0)); linarith
  have t2 : dist p (cen q) ≤ dist o (cen q) + s := by
    have := dist_triangle p o (cen q); rw [dist_comm p o] at this; linarith
  have hs : 0 ≤ s := dist_nonneg.trans ho
  cases I with
  | none =>
    simp only [pruneDsq, thresh, h0, Real.sqrt_sq dist_nonneg] at h
    simp only [score, modDsq]
    have : dist p (cen (st.ps 0)) + 2 * s < dist p (cen q) :=
      lt_of_pow_lt_pow_left₀ 2 dist_nonneg h
    have h3 : dist o (cen (st.ps 0)) ≤ dist o (cen q) := by linarith
    exact pow_le_pow_left₀ dist_nonneg h3 2
  | some f =>
    simp only [pruneDsq, thresh, h0, Real.sqrt_sq dist_nonneg] at h
    simp only [score, modDsq]
    have hf := hI f rfl (st.ps 0)
    split at h
    · have : 0 ≤ (dist p (cen (st.ps 0)) + s) ^ 2 := sq_nonneg _
      linarith
    · rename_i hle
      have h1 : dist o (cen (st.ps 0)) ^ 2 ≤ (dist p (cen (st.ps 0)) + s) ^ 2 := pow_le_pow_left₀ dist_nonneg t1 2
      have h2 : (dist p (cen q) - s) ^ 2 ≤ dist o (cen q) ^ 2 := by
        apply pow_le_pow_left₀ _ (by linarith) 2
        linarith
      linarith

/-- What is needed of a relation "`q` is as good as `q'` for the object" for the search to respect it. -/
structure Respects (cen : ℕ → P) (I : Option (ℕ → ℝ)) (δ : ℝ) (L : Obj P → ℕ → ℕ → Prop) : Prop where
  leaf : ∀ (o : Obj P) (p : P) (q q' : ℕ), dist o.pos p ≤ δ → score cen I p q ≤ score cen I p q' → L o q q'
  refl : ∀ o q, L o q q
  trans : ∀ o q q' q'', L o q q' → score cen I o.pos q' ≤ score cen I o.pos q'' → L o q q''

theorem bounded_objs {δ : ℝ} {d : CellData P} {s : ℝ} {l r : Cell P} (h : (Cell.node d s l r).Bounded δ) :
    ∀ o ∈ (Cell.node d s l r).objs, dist o.pos d.pos ≤ s := by
  exact h.2.1

theorem findCells_spec (cen : ℕ → P) (I : Option (ℕ → ℝ)) (hI : ∀ f, I = some f → ∀ q, 0 ≤ f q) {δ : ℝ}
    {L : Obj P → ℕ → ℕ → Prop} (hL : Respects cen I δ L) (c : Cell P) (hb : c.Bounded δ) (ps : ℕ → ℕ) (n : ℕ) (hn : 1 ≤ n) :
    (∀ m, n ≤ m → cands (findCells cen I c ps n).2 m = cands ps m) ∧
    (findCells cen I c ps n).1.flatMap (fun x => x.2.objs) = c.objs ∧
    ∀ x ∈ (findCells cen I c ps n).1, x.1 ∈ cands ps n ∧ ∀ o ∈ x.2.objs, ∀ q ∈ cands ps n, L o x.1 q := by
  induction c generalizing ps n with
  | leaf d os =>
    simp only [findCells]
    obtain ⟨h1, h2, h3, h4⟩ := scan_spec' (fun i => dist d.pos (cen i) ^ 2) I ps n
    generalize scan (fun i => dist d.pos (cen i) ^ 2) I ps n = st at h1 h2 h3 h4
    obtain ⟨p1, -⟩ := prune_spec I 0 (thresh I 0 st) (fun i => dist d.pos (cen i) ^ 2) st.saved (n - 1) st.ps n
      (by omega) h2
    refine ⟨?_, by simp, ?_⟩
    · intro m hm
      rw [p1 m hm, h1 m (by omega)]
    · intro x hx
      simp only [List.mem_singleton] at hx
      subst hx
      simp only [Cell.objs]
      rw [← h1 n (by omega)]
      refine ⟨⟨0, by omega, rfl⟩, ?_⟩
      rintro o ho q ⟨i, hi, rfl⟩
      refine hL.leaf o d.pos _ _ (hb o ho) ?_
      unfold score
      rw [← h3]
      exact h4 i (by omega)
  | node d s l r ihl ihr =>
    have hob := bounded_objs hb
    simp only [findCells]
    obtain ⟨h1, h2, h3, h4⟩ := scan_spec' (fun i => dist d.pos (cen i) ^ 2) I ps n
    generalize scan (fun i => dist d.pos (cen i) ^ 2) I ps n = st at h1 h2 h3 h4
    obtain ⟨p1, p2, p3, p4, p5, p6⟩ :=
      prune_spec I s (thresh I s st) (fun i => dist d.pos (cen i) ^ 2) st.saved (n - 1) st.ps n (by omega) h2
    generalize prune I s (thresh I s st) st.saved (n - 1) (st.ps, n) = y at p1 p2 p3 p4 p5 p6
    have hc : cands st.ps n = cands ps n := h1 n (by omega)
    have hrem : ∀ o ∈ (Cell.node d s l r).objs, ∀ q ∈ cands ps n, q ∉ cands y.1 y.2 →
        score cen I o.pos (st.ps 0) ≤ score cen I o.pos q := by
      intro o ho q hq hq'
      rcases p6 q (hc ▸ hq) with h | h
      · exact absurd h hq'
      · exact prune_sound cen I hI d.pos o.pos s (hob o ho) st (h2 0 (by omega)) q h
    have h0 : st.ps 0 ∈ cands y.1 y.2 := ⟨0, by omega, p4⟩
    split
    · rename_i hstop
      refine ⟨?_, by simp, ?_⟩
      · intro m hm
        rw [p1 m hm, h1 m (by omega)]
      · intro x hx
        simp only [List.mem_singleton] at hx
        subst hx
        refine ⟨hc ▸ p5 h0, ?_⟩
        intro o ho q hq
        refine hL.trans o _ (st.ps 0) _ (hL.refl o _) ?_
        by_cases hq' : q ∈ cands y.1 y.2
        · rcases hstop with h1 | h1
          · obtain ⟨i, hi, rfl⟩ := hq'
            have : i = 0 := by omega
            subst this
            rw [p4]
          · rw [← hc] at hq
            obtain ⟨i, hi, rfl⟩ := hq
            have e : ∀ x : P, dist o.pos x = dist d.pos x := by
              have hd : dist o.pos d.pos = 0 := le_antisymm (h1 ▸ hob o ho) dist_nonneg
              intro x
              have a := dist_triangle o.pos d.pos x
              have b := dist_triangle d.pos o.pos x
              rw [dist_comm d.pos o.pos] at b
              linarith
            unfold score
            rw [e, e, ← h3]
            exact h4 i (by omega)
        · exact hrem o ho q hq hq'
    · simp only [Cell.Bounded] at hb
      obtain ⟨a1, a2, a3⟩ := ihl hb.2.2.1 y.1 y.2 p2
      obtain ⟨b1, b2, b3⟩ := ihr hb.2.2.2 (findCells cen I l y.1 y.2).2 y.2 p2
      have hcc : cands (findCells cen I l y.1 y.2).2 y.2 = cands y.1 y.2 := a1 _ le_rfl
      refine ⟨?_, ?_, ?_⟩
      · intro m hm
        rw [b1 m (by omega), a1 m (by omega), p1 m hm, h1 m (by omega)]
      · rw [List.flatMap_append, a2, b2]; rfl
      · have key : ∀ x : ℕ × Cell P, (x.1 ∈ cands y.1 y.2 ∧ ∀ o ∈ x.2.objs, ∀ q ∈ cands y.1 y.2, L o x.1 q) →
            (∀ o ∈ x.2.objs, o ∈ (Cell.node d s l r).objs) →
            x.1 ∈ cands ps n ∧ ∀ o ∈ x.2.objs, ∀ q ∈ cands ps n, L o x.1 q := by
          intro x hx hxo
          refine ⟨hc ▸ p5 hx.1, ?_⟩
          intro o ho q hq
          by_cases hq' : q ∈ cands y.1 y.2
          · exact hx.2 o ho q hq'
          · exact hL.trans o _ (st.ps 0) _ (hx.2 o ho _ h0) (hrem o (hxo o ho) q hq hq')
        intro x hx
        rcases List.mem_append.1 hx with hx | hx
        · refine key x (a3 x hx) (fun o ho => ?_)
          rw [Cell.objs, List.mem_append, ← a2]
          exact Or.inl (List.mem_flatMap.2 ⟨x, hx, ho⟩)
        · refine key x ?_ (fun o ho => ?_)
          · have := b3 x hx
            rw [hcc] at this
            exact this
          · rw [Cell.objs, List.mem_append, ← b2]
            exact Or.inr (List.mem_flatMap.2 ⟨x, hx, ho⟩)

theorem cands_id (n : ℕ) : cands id n = {q | q < n} := by
  ext q
  constructor
  · rintro ⟨i, hi, h⟩; simp only [id] at h; subst h; exact hi
  · intro h; exact ⟨q, h, rfl⟩

theorem findThread_spec (cen : ℕ → P) (I : Option (ℕ → ℝ)) (hI : ∀ f, I = some f → ∀ q, 0 ≤ f q) {δ : ℝ}
    {L : Obj P → ℕ → ℕ → Prop} (hL : Respects cen I δ L) (cells : List (Cell P)) (hb : ∀ c ∈ cells, c.Bounded δ)
    (n : ℕ) (hn : 1 ≤ n) :
    (findThread cen I n cells).flatMap (fun x => x.2.objs) = objsOf cells ∧
    ∀ x ∈ findThread cen I n cells, x.1 < n ∧ ∀ o ∈ x.2.objs, ∀ q < n, L o x.1 q := by
  have key : ∀ (cells : List (Cell P)), (∀ c ∈ cells, c.Bounded δ) → ∀ (acc : List (ℕ × Cell P)) (ps : ℕ → ℕ),
      cands ps n = {q | q < n} → (∀ x ∈ acc, x.1 < n ∧ ∀ o ∈ x.2.objs, ∀ q < n, L o x.1 q) →
      ((cells.foldl (fun (acc : List (ℕ × Cell P) × (ℕ → ℕ)) c =>
        ((acc.1 ++ (findCells cen I c acc.2 n).1), (findCells cen I c acc.2 n).2)) (acc, ps)).1.flatMap (fun x => x.2.objs)
          = acc.flatMap (fun x => x.2.objs) ++ objsOf cells) ∧
      ∀ x ∈ (cells.foldl (fun (acc : List (ℕ × Cell P) × (ℕ → ℕ)) c =>
        ((acc.1 ++ (findCells cen I c acc.2 n).1), (findCells cen I c acc.2 n).2)) (acc, ps)).1,
        x.1 < n ∧ ∀ o ∈ x.2.objs, ∀ q < n, L o x.1 q := by
    intro cells
    induction cells with
    | nil => intro _ acc ps _ hacc; exact ⟨by simp [objsOf], hacc⟩
    | cons c cells ih =>
      intro hb acc ps hps hacc
      obtain ⟨a1, a2, a3⟩ := findCells_spec cen I hI hL c (hb c (by simp)) ps n hn
      rw [List.foldl_cons]
      simp only
      obtain ⟨b1, b2⟩ := ih (fun c hc => hb c (by simp [hc])) (acc ++ (findCells cen I c ps n).1) (findCells cen I c ps n).2
        ((a1 n le_rfl).trans hps) (by
          intro x hx
          rcases List.mem_append.1 hx with hx | hx
          · exact hacc x hx
          · have := a3 x hx
            rw [hps] at this
            exact this)
      refine ⟨?_, b2⟩
      rw [b1, List.flatMap_append, a2]
      simp [objsOf]
  obtain ⟨h1, h2⟩ := key cells hb [] id (cands_id n) (by simp)
  exact ⟨h1.trans (by simp), h2⟩

theorem range_filterMap {α : Type} (l : List α) : (List.range l.length).filterMap (fun i => l[i]?) = l := by
  induction l with
  | nil => rfl
  | cons a l ih =>
    rw [List.length_cons, List.range_succ_eq_map, List.filterMap_cons]
    simp only [List.getElem?_cons_zero, List.filterMap_map]
    congr 1

theorem sched_cells {sched : Schedule} {cells : List (Cell P)} (h : sched.Of cells.length) :
    (sched.flatMap fun is => is.filterMap fun i => cells[i]?) ~ cells := by
  have : (sched.flatMap fun is => is.filterMap fun i => cells[i]?) = sched.flatten.filterMap (fun i => cells[i]?) := by
    clear h
    induction sched with
    | nil => rfl
    | cons a s ih => rw [List.flatMap_cons, ih, List.flatten_cons, List.filterMap_append]
  rw [this]
  refine (h.filterMap _).trans ?_
  rw [range_filterMap]

theorem assignWrites_eq (q : ℕ) (c : Cell P) : assignWrites q c = c.objs.map fun o => (o.idx, q) := by
  induction c with
  | leaf d os => rfl
  | node d s l r ihl ihr => simp [assignWrites, ihl, ihr, Cell.objs]

/-- The calls made by all threads together. -/
theorem findAll_spec (cen : ℕ → P) (I : Option (ℕ → ℝ)) (hI : ∀ f, I = some f → ∀ q, 0 ≤ f q) {δ : ℝ}
    {L : Obj P → ℕ → ℕ → Prop} (hL : Respects cen I δ L) (cells : List (Cell P)) (hb : ∀ c ∈ cells, c.Bounded δ)
    (n : ℕ) (hn : 1 ≤ n) (sched : Schedule) (hs : sched.Of cells.length) :
    (findAll cen I n cells sched).flatten.flatMap (fun x => x.2.objs) ~ objsOf cells ∧
    ∀ x ∈ (findAll cen I n cells sched).flatten, x.1 < n ∧ ∀ o ∈ x.2.objs, ∀ q < n, L o x.1 q := by
  have hmem : ∀ is ∈ sched, ∀ c ∈ is.filterMap (fun i => cells[i]?), c.Bounded δ := by
    intro is _ c hc
    obtain ⟨i, _, h⟩ := List.mem_filterMap.1 hc
    exact hb c (List.mem_of_getElem? h)
  constructor
  · have e : (findAll cen I n cells sched).flatten.flatMap (fun x => x.2.objs)
        = objsOf (sched.flatMap fun is => is.filterMap fun i => cells[i]?) := by
      clear hs
      unfold findAll
      induction sched with
      | nil => rfl
      | cons is s ih =>
        rw [List.map_cons, List.flatten_cons, List.flatMap_append, ih (fun is h => hmem is (by simp [h])),
          (findThread_spec cen I hI hL _ (hmem is (by simp)) n hn).1, List.flatMap_cons]
        simp [objsOf]
    rw [e]
    exact (sched_cells hs).flatMap_right _
  · intro x hx
    obtain ⟨t, ht, hx⟩ := List.mem_flatten.1 hx
    obtain ⟨is, his, rfl⟩ := List.mem_map.1 ht
    exact (findThread_spec cen I hI hL _ (hmem is his) n hn).2 x hx

omit [PseudoMetricSpace P] in
theorem written_eq (ws : List (ℕ × ℕ)) (hd : (ws.map Prod.fst).Nodup) {i q : ℕ} (h : (i, q) ∈ ws) :
    written ws i = some q := by
  have key : ∀ (ws : List (ℕ × ℕ)) (a : ℕ → Option ℕ), i ∉ ws.map Prod.fst →
      (ws.foldl write a) i = a i := by
    intro ws
    induction ws with
    | nil => intro a _; rfl
    | cons w ws ih =>
      intro a hi
      rw [List.map_cons, List.mem_cons, not_or] at hi
      rw [List.foldl_cons, ih _ hi.2, write, Function.update_of_ne hi.1]
  have key2 : ∀ (ws : List (ℕ × ℕ)) (a : ℕ → Option ℕ), (ws.map Prod.fst).Nodup → (i, q) ∈ ws →
      (ws.foldl write a) i = some q := by
    intro ws
    induction ws with
    | nil => intro a _ h; simp at h
    | cons w ws ih =>
      intro a hd h
      rw [List.map_cons, List.nodup_cons] at hd
      rw [List.foldl_cons]
      rcases List.mem_cons.1 h with h | h
      · subst h
        rw [key ws _ hd.1]
        simp [write]
      · exact ih _ hd.2 h
  exact key2 ws _ hd h

theorem score_none_le {cen : ℕ → P} {p : P} {q q' : ℕ} :
    score cen none p q ≤ score cen none p q' ↔ dist p (cen q) ≤ dist p (cen q') := by
  unfold score modDsq
  constructor
  · intro h; exact (abs_le_of_sq_le_sq' h dist_nonneg).2
  · intro h; exact pow_le_pow_left₀ dist_nonneg h 2

theorem respects_dist (cen : ℕ → P) {δ : ℝ} (hδ : 0 ≤ δ) :
    Respects cen none δ (fun o q q' => dist o.pos (cen q) ≤ dist o.pos (cen q') + 2 * δ) where
  leaf := by
    intro o p q q' hd h
    rw [score_none_le] at h
    have a := dist_triangle o.pos p (cen q)
    have b := dist_triangle p o.pos (cen q')
    rw [dist_comm p o.pos] at b
    linarith
  refl := by intro o q; linarith
  trans := by
    intro o q q' q'' h1 h2
    rw [score_none_le] at h2
    linarith

theorem respects_score (cen : ℕ → P) (I : Option (ℕ → ℝ)) :
    Respects cen I 0 (fun o q q' => score cen I o.pos q ≤ score cen I o.pos q') where
  leaf := by
    intro o p q q' hd h
    have hd0 : dist o.pos p = 0 := le_antisymm hd dist_nonneg
    have e : ∀ x : P, dist o.pos x = dist p x := by
      intro x
      have a := dist_triangle o.pos p x
      have b := dist_triangle p o.pos x
      rw [dist_comm p o.pos] at b
      linarith
    unfold score at h ⊢
    rw [e, e]
    exact h
  refl := by intro o q; exact le_rfl
  trans := by intro o q q' q'' h1 h2; exact h1.trans h2

/-- First index of a smallest value, as found by a strict comparison. -/
theorem quick_spec (f : ℕ → ℝ) (t : ℕ) :
    let st := (List.range' 1 t).foldl (fun (st : ℕ × ℝ) k => if f k < st.2 then (k, f k) else st) (0, f 0)
    st.1 ≤ t ∧ st.2 = f st.1 ∧ (∀ k ≤ t, f st.1 ≤ f k) ∧ ∀ k < st.1, f st.1 < f k := by
  induction t with
  | zero =>
    intro st
    refine ⟨le_rfl, rfl, ?_, ?_⟩
    · intro k hk; rw [Nat.le_zero.1 hk]; exact le_rfl
    · intro k hk; exact absurd hk (by change ¬ k < 0; omega)
  | succ t ih =>
    simp only at ih
    simp only [List.range'_1_concat, List.foldl_append, List.foldl_cons, List.foldl_nil]
    obtain ⟨h1, h2, h3, h4⟩ := ih
    generalize (List.range' 1 t).foldl (fun (st : ℕ × ℝ) k => if f k < st.2 then (k, f k) else st) (0, f 0) = st at h1 h2 h3 h4
    split
    · rename_i hlt
      rw [h2] at hlt
      refine ⟨by simp only; omega, rfl, ?_, ?_⟩
      · intro k hk
        simp only
        by_cases e : k = 1 + t
        · rw [e]
        · exact hlt.le.trans (h3 k (by omega))
      · intro k hk
        exact hlt.trans_le (h3 k (by simp only at hk; omega))
    · rename_i hge
      rw [h2] at hge
      refine ⟨by omega, h2, ?_, h4⟩
      intro k hk
      by_cases e : k = 1 + t
      · rw [e]; exact not_lt.1 hge
      · exact h3 k (by omega)

omit [PseudoMetricSpace P]

theorem initTreeCell_slots (u : ℕ → ℝ) (jit : ℝ → P → P) (c : Cell P) (first nc k : ℕ) :
    (initTreeCell u jit c first nc k).1.map Prod.fst = List.range' first nc := by
  induction c generalizing first nc k with
  | leaf d os =>
    simp only [initTreeCell]
    split
    · rename_i h; subst h; rfl
    · simp only [List.map_map]
      rw [List.range'_eq_map_range]
      rfl
  | node d s l r ihl ihr =>
    simp only [initTreeCell]
    split
    · rename_i h; subst h; rfl
    · simp only [List.map_append, ihl, ihr]
      split
      · rw [List.range'_append_1]; congr 1; omega
      · rw [List.range'_append_1]; congr 1; omega

theorem initCells_slots (u : ℕ → ℝ) (jit : ℝ → P → P) (l : List (Cell P × ℕ)) (first k : ℕ) :
    (initCells u jit l first k).map Prod.fst = List.range' first (l.map Prod.snd).sum := by
  induction l generalizing first k with
  | nil => rfl
  | cons x l ih =>
    obtain ⟨c, nv⟩ := x
    simp only [initCells, List.map_append, List.map_cons, List.sum_cons]
    rw [initTreeCell_slots, ih, List.range'_append_1]

theorem shuffle_perm (u : ℕ → ℝ) (hu : ∀ k, 0 ≤ u k ∧ u k < 1) (kk k : ℕ) (v : List ℕ) (h : kk ≤ v.length) :
    ∃ v' k', shuffle u kk k v = some (v', k') ∧ v' ~ v := by
  induction kk using Nat.strong_induction_on generalizing k v with
  | _ kk ih =>
    match kk with
    | 0 => exact ⟨v, k, rfl, List.Perm.refl _⟩
    | 1 => exact ⟨v, k, rfl, List.Perm.refl _⟩
    | kk + 2 =>
      have hj : ⌊u k * ((kk : ℝ) + 2)⌋₊ < kk + 2 := by
        rw [Nat.floor_lt' (by omega)]
        push_cast
        have := (hu k).2
        have h0 : (0 : ℝ) ≤ kk := Nat.cast_nonneg kk
        nlinarith
      obtain ⟨v1, h1, hp⟩ : ∃ v1, (if ⌊u k * ((kk : ℝ) + 2)⌋₊ ≠ kk + 1 then swapIdx v ⌊u k * ((kk : ℝ) + 2)⌋₊ (kk + 1)
          else some v) = some v1 ∧ v1 ~ v := by
        split
        · obtain ⟨v1, h1⟩ := swapIdx_some (v := v) (i := ⌊u k * ((kk : ℝ) + 2)⌋₊) (j := kk + 1) (by omega) (by omega)
          exact ⟨v1, h1, swapIdx_perm h1⟩
        · exact ⟨v, rfl, List.Perm.refl _⟩
      obtain ⟨v2, k2, h2, hp2⟩ := ih (kk + 1) (by omega) (k + 1) v1 (by rw [hp.length_eq]; omega)
      refine ⟨v2, k2, ?_, hp2.trans hp⟩
      simp only [shuffle]
      rw [h1]
      exact h2

end
end TreeCorr.KMeans
