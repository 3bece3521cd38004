import Verif.Model.LRU
import Verif.Spec.LRU
import Mathlib.Data.List.Nodup
import Mathlib.Data.List.Perm.Basic
import Mathlib.Tactic.Ring
import Mathlib.Tactic.Linarith

/-! Helper lemmas on the linked ring of `LRU_Cache`. -/

namespace TreeCorr
namespace LRU
variable {K V : Type}

/-- The links from `a` through `l` to `b`, in both directions. -/
def Path (h : ℕ → Link K V) : ℕ → List ℕ → ℕ → Prop
  | a, [], b => (h a).next = some b ∧ (h b).prev = some a
  | a, x :: l, b => (h a).next = some x ∧ (h x).prev = some a ∧ Path h x l b

theorem path_append (h : ℕ → Link K V) (a x b : ℕ) (l l' : List ℕ) :
    Path h a (l ++ x :: l') b ↔ Path h a l x ∧ Path h x l' b := by
  induction l generalizing a with
  | nil => simp [Path, and_assoc]
  | cons y l ih => simp [Path, ih, and_assoc]

theorem path_congr {h h' : ℕ → Link K V} {a b : ℕ} {l : List ℕ}
    (hn : ∀ i ∈ a :: l, (h' i).next = (h i).next) (hp : ∀ i ∈ l ++ [b], (h' i).prev = (h i).prev)
    (H : Path h a l b) : Path h' a l b := by
  induction l generalizing a with
  | nil => exact ⟨(hn a (by simp)).trans H.1, (hp b (by simp)).trans H.2⟩
  | cons x l ih =>
    exact ⟨(hn a (by simp)).trans H.1, (hp x (by simp)).trans H.2.1,
      ih (fun i hi => hn i (List.mem_cons_of_mem _ hi)) (fun i hi => hp i (by simp at hi ⊢; tauto)) H.2.2⟩

section fields
variable (h : ℕ → Link K V) (i j : ℕ) (x : Option ℕ) (k : Option (Slot K)) (r : Option V)

@[simp] theorem setNext_next : (setNext h i x j).next = if j = i then x else (h j).next := by
  unfold setNext; by_cases e : j = i <;> simp [e, Function.update]
@[simp] theorem setNext_prev : (setNext h i x j).prev = (h j).prev := by
  unfold setNext; by_cases e : j = i <;> simp [e, Function.update]
@[simp] theorem setNext_key : (setNext h i x j).key = (h j).key := by
  unfold setNext; by_cases e : j = i <;> simp [e, Function.update]
@[simp] theorem setNext_result : (setNext h i x j).result = (h j).result := by
  unfold setNext; by_cases e : j = i <;> simp [e, Function.update]
@[simp] theorem setPrev_prev : (setPrev h i x j).prev = if j = i then x else (h j).prev := by
  unfold setPrev; by_cases e : j = i <;> simp [e, Function.update]
@[simp] theorem setPrev_next : (setPrev h i x j).next = (h j).next := by
  unfold setPrev; by_cases e : j = i <;> simp [e, Function.update]
@[simp] theorem setPrev_key : (setPrev h i x j).key = (h j).key := by
  unfold setPrev; by_cases e : j = i <;> simp [e, Function.update]
@[simp] theorem setPrev_result : (setPrev h i x j).result = (h j).result := by
  unfold setPrev; by_cases e : j = i <;> simp [e, Function.update]
@[simp] theorem setKR_next : (setKR h i k r j).next = (h j).next := by
  unfold setKR; by_cases e : j = i <;> simp [e, Function.update]
@[simp] theorem setKR_prev : (setKR h i k r j).prev = (h j).prev := by
  unfold setKR; by_cases e : j = i <;> simp [e, Function.update]
@[simp] theorem setKR_key : (setKR h i k r j).key = if j = i then k else (h j).key := by
  unfold setKR; by_cases e : j = i <;> simp [e, Function.update]
@[simp] theorem setKR_result : (setKR h i k r j).result = if j = i then r else (h j).result := by
  unfold setKR; by_cases e : j = i <;> simp [e, Function.update]
@[simp] theorem clearResult_next : (clearResult h i j).next = (h j).next := by
  unfold clearResult; by_cases e : j = i <;> simp [e, Function.update]
@[simp] theorem clearResult_prev : (clearResult h i j).prev = (h j).prev := by
  unfold clearResult; by_cases e : j = i <;> simp [e, Function.update]
@[simp] theorem clearResult_key : (clearResult h i j).key = (h j).key := by
  unfold clearResult; by_cases e : j = i <;> simp [e, Function.update]
@[simp] theorem clearResult_result : (clearResult h i j).result = if j = i then none else (h j).result := by
  unfold clearResult; by_cases e : j = i <;> simp [e, Function.update]
end fields

theorem update_ne' (h : ℕ → Link K V) {i j : ℕ} (L : Link K V) (e : j ≠ i) : Function.update h i L j = h j := by
  simp [Function.update, e]

/-- Removing a link of the ring. -/
theorem unlink {h : ℕ → Link K V} {r x : ℕ} {l1 l2 : List ℕ}
    (H : Path h r (l1 ++ x :: l2) r) (nd : (r :: (l1 ++ x :: l2)).Nodup) :
    ∃ p n, (h x).prev = some p ∧ (h x).next = some n ∧
      Path (setPrev (setNext h p (some n)) n (some p)) r (l1 ++ l2) r := by
  rw [path_append] at H
  obtain ⟨H1, H2⟩ := H
  have key : ∃ p, (h x).prev = some p ∧ ((l1 = [] ∧ p = r) ∨ ∃ m, l1 = m ++ [p] ∧ Path h r m p) := by
    rcases List.eq_nil_or_concat l1 with e | ⟨m, p, e⟩
    · subst e; exact ⟨r, H1.2, .inl ⟨rfl, rfl⟩⟩
    · rw [List.concat_eq_append] at e
      subst e
      rw [path_append] at H1
      exact ⟨p, H1.2.2, .inr ⟨m, rfl, H1.1⟩⟩
  have key2 : ∃ n, (h x).next = some n ∧ ((l2 = [] ∧ n = r) ∨ ∃ m, l2 = n :: m ∧ Path h n m r) := by
    cases l2 with
    | nil => exact ⟨r, H2.1, .inl ⟨rfl, rfl⟩⟩
    | cons n m => exact ⟨n, H2.1, .inr ⟨m, rfl, H2.2.2⟩⟩
  obtain ⟨p, hp, hl1⟩ := key
  obtain ⟨n, hn, hl2⟩ := key2
  refine ⟨p, n, hp, hn, ?_⟩
  rcases hl1 with ⟨rfl, rfl⟩ | ⟨m, rfl, P1⟩ <;> rcases hl2 with ⟨rfl, rfl⟩ | ⟨m', rfl, P2⟩
  · simp [Path]
  · have hpn : p ≠ n := by intro e; subst e; simp at nd
    refine ⟨by simp, by simp, path_congr (fun i hi => ?_) (fun i hi => ?_) P2⟩
    · have : i ≠ p := by rintro rfl; simp at nd hi; tauto
      simp [this]
    · have : i ≠ n := by rintro rfl; simp at nd hi; grind
      simp [this]
  · rw [List.append_nil, path_append]
    refine ⟨path_congr (fun i hi => ?_) (fun i hi => ?_) P1, by simp [Path]⟩
    · have : i ≠ p := by rintro rfl; simp at nd hi; grind
      simp [this]
    · have : i ≠ n := by rintro rfl; simp at nd hi; grind
      simp [this]
  · rw [List.append_assoc, List.singleton_append, path_append]
    refine ⟨path_congr (fun i hi => ?_) (fun i hi => ?_) P1, by simp, by simp,
      path_congr (fun i hi => ?_) (fun i hi => ?_) P2⟩
    · have : i ≠ p := by rintro rfl; simp at nd hi; grind
      simp [this]
    · have : i ≠ n := by rintro rfl; simp at nd hi; grind
      simp [this]
    · have : i ≠ p := by rintro rfl; simp at nd hi; grind
      simp [this]
    · have : i ≠ n := by rintro rfl; simp at nd hi; grind
      simp [this]

/-- The last link of the ring. -/
theorem path_last {h : ℕ → Link K V} {r : ℕ} {l : List ℕ} (H : Path h r l r) :
    ∃ last, (h r).prev = some last ∧ ((l = [] ∧ last = r) ∨ ∃ m, l = m ++ [last] ∧ Path h r m last) := by
  rcases List.eq_nil_or_concat l with e | ⟨m, p, e⟩
  · subst e; exact ⟨r, H.2, .inl ⟨rfl, rfl⟩⟩
  · rw [List.concat_eq_append] at e
    subst e
    rw [path_append] at H
    exact ⟨p, H.2.2, .inr ⟨m, rfl, H.1⟩⟩

/-- Appending a link to the ring, with any heap that has the new pointers. -/
theorem insert_last {h h' : ℕ → Link K V} {r x last : ℕ} {l : List ℕ} (H : Path h r l r)
    (nd : (r :: l).Nodup) (hx : x ∉ r :: l) (hl : (h r).prev = some last)
    (n1 : (h' last).next = some x) (n2 : (h' x).next = some r)
    (n3 : ∀ i ∈ r :: l, i ≠ last → (h' i).next = (h i).next)
    (p1 : (h' r).prev = some x) (p2 : (h' x).prev = some last)
    (p3 : ∀ i ∈ l, (h' i).prev = (h i).prev) : Path h' r (l ++ [x]) r := by
  obtain ⟨last', hl', h2⟩ := path_last H
  rw [hl] at hl'; cases hl'
  rcases h2 with ⟨rfl, rfl⟩ | ⟨m, rfl, P⟩
  · exact ⟨n1, p2, n2, p1⟩
  · rw [List.append_assoc, List.singleton_append, path_append]
    refine ⟨path_congr (fun i hi => n3 i ?_ ?_) (fun i hi => p3 i hi) P, n1, p2, n2, p1⟩
    · simp at hi ⊢; tauto
    · rintro rfl; simp at nd hi; grind

/-- Inserting a link before the first one. -/
theorem insert_first {h h' : ℕ → Link K V} {r x nx : ℕ} {l : List ℕ} (H : Path h r l r)
    (nd : (r :: l).Nodup) (hx : x ∉ r :: l) (hl : (h r).next = some nx)
    (n1 : (h' r).next = some x) (n2 : (h' x).next = some nx)
    (n3 : ∀ i ∈ l, (h' i).next = (h i).next)
    (p1 : (h' nx).prev = some x) (p2 : (h' x).prev = some r)
    (p3 : ∀ i ∈ r :: l, i ≠ nx → (h' i).prev = (h i).prev) : Path h' r (x :: l) r := by
  cases l with
  | nil =>
    have := H.1; rw [hl] at this; cases this
    exact ⟨n1, p2, n2, p1⟩
  | cons y m =>
    have := H.1; rw [hl] at this; cases this
    refine ⟨n1, p2, n2, p1, path_congr (fun i hi => n3 i hi) (fun i hi => p3 i ?_ ?_) H.2.2⟩
    · simp at hi ⊢; tauto
    · rintro rfl; simp at nd hi; grind


/-- An entry of the ring. -/
structure Ent (K V : Type) where
  id : ℕ
  key : Slot K
  result : Option V

/-- `es` are the entries of the ring after the root, the least recently used first. -/
structure Rep (s : State K V) (es : List (Ent K V)) : Prop where
  path : Path s.heap s.root (es.map Ent.id) s.root
  nodup : (s.root :: es.map Ent.id).Nodup
  fresh : ∀ i ∈ s.root :: es.map Ent.id, i < s.fresh
  ents : ∀ e ∈ es, (s.heap e.id).key = some e.key ∧ (s.heap e.id).result = e.result
  keys : (es.map Ent.key).Nodup
  dums : ∀ e ∈ es, ∀ n, e.key = .dummy n → n < s.fresh
  cache : s.cache.Perm (es.map fun e => (e.key, e.id))

variable [DecidableEq K]

theorem Rep.length {s : State K V} {es : List (Ent K V)} (H : Rep s es) : s.cache.length = es.length := by
  simpa using H.cache.length_eq

theorem Rep.mem_keys {s : State K V} {es : List (Ent K V)} (H : Rep s es) (k : Slot K) :
    k ∈ s.cache.map Prod.fst ↔ k ∈ es.map Ent.key := by
  have := (H.cache.map Prod.fst).mem_iff (a := k)
  simpa [Function.comp_def] using this

theorem Rep.cache_nodup {s : State K V} {es : List (Ent K V)} (H : Rep s es) :
    (s.cache.map Prod.fst).Nodup := by
  have := (H.cache.map Prod.fst).nodup_iff
  rw [this]
  simpa [Function.comp_def] using H.keys

theorem lookup_of_mem {c : List (Slot K × ℕ)} (nd : (c.map Prod.fst).Nodup) {k : Slot K} {i : ℕ}
    (h : (k, i) ∈ c) : c.lookup k = some i := by
  induction c with
  | nil => simp at h
  | cons x c ih =>
    obtain ⟨k', i'⟩ := x
    simp only [List.map_cons, List.nodup_cons] at nd
    rw [List.lookup_cons]
    rcases List.mem_cons.1 h with e | e
    · cases e; simp
    · have : k ≠ k' := by
        rintro rfl
        exact nd.1 (List.mem_map.2 ⟨_, e, rfl⟩)
      have : (k == k') = false := by simpa using this
      rw [this]
      exact ih nd.2 e

theorem lookup_none {c : List (Slot K × ℕ)} {k : Slot K} : c.lookup k = none ↔ k ∉ c.map Prod.fst := by
  induction c with
  | nil => simp
  | cons x c ih =>
    obtain ⟨k', i'⟩ := x
    rw [List.lookup_cons]
    by_cases e : k = k'
    · simp [e]
    · have : (k == k') = false := by simpa using e
      rw [this]
      simp only [List.map_cons, List.mem_cons, not_or]
      exact ⟨fun h => ⟨e, ih.1 h⟩, fun h => ih.2 h.2⟩

theorem cset_new {c : List (Slot K × ℕ)} {k : Slot K} {i : ℕ} (h : k ∉ c.map Prod.fst) :
    cset c k i = c ++ [(k, i)] := if_neg h

theorem cdel_perm {c : List (Slot K × ℕ)} {k : Slot K} {i : ℕ} {d : List (Slot K × ℕ)}
    (h : c.Perm ((k, i) :: d)) (hk : k ∉ d.map Prod.fst) :
    ∃ c', cdel c k = some c' ∧ c'.Perm d := by
  refine ⟨_, if_pos ?_, ?_⟩
  · rw [(h.map Prod.fst).mem_iff]; simp
  · have := h.filter (fun x => decide (x.1 ≠ k))
    refine this.trans ?_
    rw [List.filter_cons_of_neg (by simp), List.filter_eq_self.2]
    intro x hx
    simp only [ne_eq, decide_not, Bool.not_eq_eq_eq_not, Bool.not_true, decide_eq_false_iff_not]
    rintro rfl
    exact hk (List.mem_map.2 ⟨_, hx, rfl⟩)

/-- A hit moves the entry to the end. -/
theorem touch_rep {s : State K V} {l1 l2 : List (Ent K V)} {e : Ent K V} {v : V}
    (H : Rep s (l1 ++ e :: l2)) (hv : e.result = some v) :
    ∃ s', touch s e.id = some (s', v) ∧ Rep s' (l1 ++ l2 ++ [e]) ∧ s'.count = s.count := by
  have P := H.path
  have nd := H.nodup
  rw [List.map_append, List.map_cons] at P nd
  obtain ⟨p, n, hp, hn, U⟩ := unlink P nd
  obtain ⟨last, hl, -⟩ := path_last U
  have hr : (s.heap e.id).result = some v := (H.ents e (by simp)).2.trans hv
  have nd' : (s.root :: (l1.map Ent.id ++ l2.map Ent.id)).Nodup := by
    simp only [List.nodup_cons, List.nodup_append, List.mem_append, List.mem_cons] at nd ⊢
    grind
  have hx : e.id ∉ s.root :: (l1.map Ent.id ++ l2.map Ent.id) := by
    simp only [List.nodup_cons, List.nodup_append, List.mem_append, List.mem_cons] at nd ⊢
    grind
  have hxr : e.id ≠ s.root := fun h => hx (by simp [h])
  have hlast : last ≠ e.id := by
    rintro rfl
    obtain ⟨l', hl', h2⟩ := path_last U
    rw [hl] at hl'; cases hl'
    rcases h2 with ⟨_, h⟩ | ⟨m, h, _⟩
    · exact hxr h
    · exact hx (by rw [h]; simp)
  unfold touch
  rw [hp, hn, hr]
  simp only [Option.bind_eq_bind, Option.bind_some, hl, Option.pure_def]
  refine ⟨_, rfl, ?_, rfl⟩
  have nodup2 : (s.root :: (List.map Ent.id (l1 ++ l2 ++ [e]))).Nodup := by
    have : (l1 ++ l2 ++ [e]).Perm (l1 ++ e :: l2) := by
      rw [List.append_assoc]
      exact (List.perm_append_singleton e l2).append_left l1
    exact ((this.map Ent.id).cons s.root).nodup_iff.2 H.nodup
  have perm : (l1 ++ l2 ++ [e]).Perm (l1 ++ e :: l2) := by
    rw [List.append_assoc]
    exact (List.perm_append_singleton e l2).append_left l1
  constructor
  · rw [List.map_append, List.map_append, List.map_cons, List.map_nil]
    refine insert_last U nd' hx hl ?_ ?_ ?_ ?_ ?_ ?_
    · simp [hlast]
    · simp
    · intro i hi hne
      have : i ≠ e.id := by rintro rfl; exact hx hi
      simp [this, hne]
    · simp [Ne.symm hxr]
    · simp
    · intro i hi
      have h1 : i ≠ e.id := by rintro rfl; exact hx (List.mem_cons_of_mem _ hi)
      have h2 : i ≠ s.root := by rintro rfl; exact (List.nodup_cons.1 nd').1 hi
      simp [h1, h2]
  · exact nodup2
  · intro i hi
    refine H.fresh i ?_
    rcases List.mem_cons.1 hi with h | h
    · simp [h]
    · exact List.mem_cons_of_mem _ ((perm.map Ent.id).mem_iff.1 h)
  · intro e' he'
    have := H.ents e' (perm.mem_iff.1 he')
    simpa using this
  · exact (perm.map Ent.key).nodup_iff.2 H.keys
  · intro e' he'
    exact H.dums e' (perm.mem_iff.1 he')
  · exact H.cache.trans (perm.map _).symm

/-- A miss with at least one entry: the oldest entry goes, the new one becomes the last. -/
theorem insert_rep {s : State K V} {e : Ent K V} {l : List (Ent K V)} {k : K} (v : V)
    (H : Rep s (e :: l)) (hk : Slot.user k ∉ (e :: l).map Ent.key) :
    ∃ s', insert s k v = some s' ∧ Rep s' (l ++ [⟨s.root, .user k, some v⟩]) ∧
      s'.count = if s.count < (e :: l).length then s.count + 1 else s.count := by
  have P := H.path
  have nd := H.nodup
  rw [List.map_cons] at P nd
  obtain ⟨h1, h2, P'⟩ := P
  have hre : e.id ≠ s.root := by rintro h; simp [h] at nd
  have hkey : (s.heap e.id).key = some e.key := (H.ents e (by simp)).1
  have hkc : Slot.user k ∉ s.cache.map Prod.fst := by rw [H.mem_keys]; exact hk
  have hkeys := H.keys
  rw [List.map_cons, List.nodup_cons] at hkeys
  obtain ⟨c', hc', pc⟩ := cdel_perm (c := cset s.cache (.user k) s.root) (k := e.key) (i := e.id)
    (d := (l.map fun e => (e.key, e.id)) ++ [(Slot.user k, s.root)])
    (by rw [cset_new hkc]; simpa using H.cache.append_right [(Slot.user k, s.root)])
    (by
      simp only [List.map_append, List.map_map, List.map_cons, List.map_nil, List.mem_append, List.mem_singleton]
      rintro (h | h)
      · exact hkeys.1 (by simpa [Function.comp_def] using h)
      · exact hk (by rw [← h]; simp))
  have hlen : c'.length = (e :: l).length := by simpa using pc.length_eq
  unfold insert
  simp only [setKR_next, h1, Option.bind_eq_bind, Option.bind_some, setKR_key, if_neg hre, hkey, hc', Option.pure_def]
  refine ⟨_, rfl, ?_, ?_⟩
  · constructor
    · show Path _ e.id _ e.id
      rw [List.map_append, List.map_cons, List.map_nil, path_append]
      refine ⟨path_congr (fun i hi => by simp) (fun i hi => by simp) P', ?_, ?_⟩
      · simpa using h1
      · simpa using h2
    · show (e.id :: _).Nodup
      have : (e.id :: List.map Ent.id (l ++ [⟨s.root, .user k, some v⟩])).Perm
          (s.root :: List.map Ent.id (e :: l)) := by
        rw [List.map_append, List.map_cons, List.map_nil, ← List.cons_append]
        exact List.perm_append_singleton _ _
      exact this.nodup_iff.2 H.nodup
    · intro i hi
      refine H.fresh i ?_
      simp at hi ⊢; tauto
    · intro e' he'
      rcases List.mem_append.1 he' with h | h
      · have h3 := H.ents e' (List.mem_cons_of_mem _ h)
        have m : e'.id ∈ l.map Ent.id := List.mem_map.2 ⟨_, h, rfl⟩
        have h4 : e'.id ≠ e.id := by intro h'; rw [h'] at m; simp at nd m; grind
        have h5 : e'.id ≠ s.root := by intro h'; rw [h'] at m; simp at nd m; grind
        simpa [h4, h5] using h3
      · rw [List.mem_singleton] at h
        subst h
        simp [Ne.symm hre]
    · rw [List.map_append, List.map_cons, List.map_nil]
      refine List.nodup_append.2 ⟨hkeys.2, by simp, ?_⟩
      intro a ha b hb
      rw [List.mem_singleton] at hb
      rintro rfl
      subst hb
      exact hk (by rw [List.map_cons]; exact List.mem_cons_of_mem _ ha)
    · intro e' he' n hn
      rcases List.mem_append.1 he' with h | h
      · exact H.dums e' (List.mem_cons_of_mem _ h) n hn
      · rw [List.mem_singleton] at h
        subst h
        cases hn
    · simpa using pc
  · show (if s.count < c'.length then _ else _) = _
    rw [hlen]

/-- A miss with no entries leaves an empty ring. -/
theorem insert_rep_nil {s : State K V} {k : K} (v : V) (H : Rep s []) :
    ∃ s', insert s k v = some s' ∧ Rep s' [] ∧ s'.count = s.count := by
  have P := H.path
  have hc : s.cache = [] := by simpa using H.cache
  obtain ⟨h1, h2⟩ := P
  unfold insert
  simp only [setKR_next, h1, Option.bind_eq_bind, Option.bind_some, setKR_key, if_true, hc, cset, cdel,
      List.map_nil, List.not_mem_nil, if_false, List.nil_append, List.map_cons, List.mem_singleton, Option.pure_def]
  refine ⟨_, rfl, ?_, ?_⟩
  · constructor
    · exact ⟨by simpa using h1, by simpa using h2⟩
    · exact H.nodup
    · exact H.fresh
    · simp
    · simp
    · simp
    · simp
  · simp

/-- Shrinking drops the oldest entry. -/
theorem shrink_rep {s : State K V} {e : Ent K V} {l : List (Ent K V)} (H : Rep s (e :: l)) :
    ∃ s', shrinkStep s = some s' ∧ Rep s' l ∧ s'.count = s.count := by
  have P := H.path
  have nd := H.nodup
  rw [List.map_cons] at P nd
  obtain ⟨p, n, hp, hn, U⟩ := unlink (l1 := []) P nd
  have h1 := P.1
  have h2 := P.2.1
  rw [h2] at hp
  cases hp
  have hkey : (s.heap e.id).key = some e.key := (H.ents e (by simp)).1
  have hkeys := H.keys
  rw [List.map_cons, List.nodup_cons] at hkeys
  obtain ⟨c', hc', pc⟩ := cdel_perm (c := s.cache) (k := e.key) (i := e.id)
    (d := (l.map fun e : Ent K V => (e.key, e.id))) H.cache
    (by
      rw [List.map_map]
      intro h
      exact hkeys.1 (by simpa [Function.comp_def] using h))
  unfold shrinkStep
  simp only [h1, hn, hkey, hc', Option.bind_eq_bind, Option.bind_some, Option.pure_def]
  refine ⟨_, rfl, ?_, ?_⟩
  · constructor
    · exact U
    · exact nd.sublist (by simp)
    · intro i hi
      refine H.fresh i ?_
      simp at hi ⊢; tauto
    · intro e' he'
      simpa using H.ents e' (List.mem_cons_of_mem _ he')
    · exact hkeys.2
    · exact fun e' he' => H.dums e' (List.mem_cons_of_mem _ he')
    · exact pc
  · rfl

/-- Growing puts an empty entry before the oldest one. -/
theorem grow_rep {s : State K V} {l : List (Ent K V)} (H : Rep s l) :
    ∃ s', growStep s = some s' ∧ Rep s' (⟨s.fresh, .dummy s.fresh, none⟩ :: l) ∧ s'.count = s.count := by
  have P := H.path
  have nd := H.nodup
  have hx : s.fresh ∉ s.root :: l.map Ent.id := fun h => lt_irrefl _ (H.fresh _ h)
  have hxr : s.fresh ≠ s.root := fun h => hx (by simp [h])
  obtain ⟨nx, hnx, hnx'⟩ : ∃ nx, (s.heap s.root).next = some nx ∧ nx ∈ s.root :: l.map Ent.id := by
    cases l with
    | nil => exact ⟨_, P.1, by simp⟩
    | cons a l => exact ⟨_, P.1, by simp⟩
  have hnxx : nx ≠ s.fresh := fun h => hx (h ▸ hnx')
  have hk : Slot.dummy s.fresh ∉ s.cache.map Prod.fst := by
    rw [H.mem_keys]
    intro h
    obtain ⟨e, he, h'⟩ := List.mem_map.1 h
    exact lt_irrefl _ (H.dums e he _ h')
  unfold growStep
  simp only [hnx, Option.bind_eq_bind, Option.bind_some, Option.pure_def]
  refine ⟨_, rfl, ?_, ?_⟩
  · constructor
    · show Path _ s.root (s.fresh :: l.map Ent.id) s.root
      refine insert_first P nd hx hnx ?_ ?_ ?_ ?_ ?_ ?_
      · simp
      · simp [hxr]
      · intro i hi
        have h1 : i ≠ s.root := by rintro rfl; exact (List.nodup_cons.1 nd).1 hi
        have h2 : i ≠ s.fresh := by rintro rfl; exact hx (List.mem_cons_of_mem _ hi)
        simp [h1, h2]
      · simp
      · simp [Ne.symm hnxx]
      · intro i hi hne
        have h2 : i ≠ s.fresh := by rintro rfl; exact hx hi
        simp [h2, hne]
    · show (s.root :: s.fresh :: l.map Ent.id).Nodup
      simp only [List.nodup_cons, List.mem_cons] at nd hx ⊢
      grind
    · intro i hi
      show i < s.fresh + 1
      have : i = s.fresh ∨ i ∈ s.root :: l.map Ent.id := by simp at hi ⊢; tauto
      rcases this with h | h
      · omega
      · have := H.fresh i h; omega
    · intro e he
      rcases List.mem_cons.1 he with h | h
      · subst h; simp
      · have m : e.id ≠ s.fresh := by
          intro h'; exact hx (List.mem_cons_of_mem _ (List.mem_map.2 ⟨e, h, h'⟩))
        simpa [m] using H.ents e h
    · rw [List.map_cons, List.nodup_cons]
      exact ⟨by rw [H.mem_keys] at hk; exact hk, H.keys⟩
    · intro e he n hn
      show n < s.fresh + 1
      rcases List.mem_cons.1 he with h | h
      · subst h; cases hn; omega
      · have := H.dums e h n hn; omega
    · show (cset s.cache _ _).Perm _
      rw [cset_new hk, List.map_cons]
      exact (List.perm_append_singleton _ _).trans (H.cache.cons _)
  · rfl

/-- The state of the filling loop of `__init__` and `clear`. -/
structure FillInv (x : State K V × ℕ) (es : List (Ent K V)) : Prop where
  path : Path (setPrev x.1.heap x.1.root (some x.2)) x.1.root (es.map Ent.id) x.1.root ∨ es = []
  last : x.2 ∈ x.1.root :: es.map Ent.id
  lastNil : es = [] → x.2 = x.1.root
  nodup : (x.1.root :: es.map Ent.id).Nodup
  fresh : ∀ i ∈ x.1.root :: es.map Ent.id, i < x.1.fresh
  ents : ∀ e ∈ es, (x.1.heap e.id).key = some e.key ∧ (x.1.heap e.id).result = e.result
  keys : (es.map Ent.key).Nodup
  dums : ∀ e ∈ es, (∃ n, e.key = .dummy n ∧ n < x.1.fresh) ∧ e.result = none
  cache : x.1.cache.Perm (es.map fun e => (e.key, e.id))

theorem fill_step {x : State K V × ℕ} {es : List (Ent K V)} (w : Bool) (H : FillInv x es) :
    FillInv (fillStep w x) (es ++ [⟨x.1.fresh, .dummy x.1.fresh, none⟩]) ∧ (fillStep w x).1.root = x.1.root := by
  obtain ⟨s, last⟩ := x
  have nd := H.nodup
  have hlm := H.last
  simp only at nd hlm
  have hx : s.fresh ∉ s.root :: es.map Ent.id := fun h => lt_irrefl _ (H.fresh _ h)
  have hxr : s.fresh ≠ s.root := fun h => hx (by simp [h])
  have hlx : last ≠ s.fresh := fun h => hx (h ▸ hlm)
  have hk : Slot.dummy s.fresh ∉ s.cache.map Prod.fst := by
    rw [(H.cache.map Prod.fst).mem_iff, List.map_map]
    intro h
    obtain ⟨e, he, h'⟩ := List.mem_map.1 h
    obtain ⟨⟨n, hn, hlt⟩, -⟩ := H.dums e he
    simp only [Function.comp] at h'
    rw [hn] at h'
    cases h'
    exact lt_irrefl _ hlt
  have nx : ∀ i, ((fillStep w (s, last)).1.heap i).next =
      if i = last then some s.fresh else if i = s.fresh then some s.root else (s.heap i).next := by
    intro i
    unfold fillStep
    cases w <;> by_cases h : i = s.fresh <;> simp [h, Function.update]
  have pv : ∀ i, ((fillStep w (s, last)).1.heap i).prev =
      if i = s.fresh then some last else (s.heap i).prev := by
    intro i
    unfold fillStep
    cases w <;> by_cases h : i = s.fresh <;> simp [h, Function.update]
  have ky : ∀ i, ((fillStep w (s, last)).1.heap i).key =
      if i = s.fresh then some (.dummy s.fresh) else (s.heap i).key := by
    intro i
    unfold fillStep
    cases w <;> by_cases h : i = s.fresh <;> simp [h, Function.update]
  have rs : ∀ i, ((fillStep w (s, last)).1.heap i).result =
      if i = s.fresh then none else if i = last ∧ w = true then none else (s.heap i).result := by
    intro i
    unfold fillStep
    cases w <;> by_cases h : i = s.fresh <;> simp [h, Function.update]
  refine ⟨⟨?_, ?_, ?_, ?_, ?_, ?_, ?_, ?_, ?_⟩, rfl⟩
  · left
    show Path (setPrev (fillStep w (s, last)).1.heap s.root (some s.fresh)) s.root
      ((es ++ [(⟨s.fresh, Slot.dummy s.fresh, none⟩ : Ent K V)]).map Ent.id) s.root
    rw [List.map_append, List.map_cons, List.map_nil]
    rcases H.path with P | e
    · refine insert_last (last := last) P nd hx (by simp) ?_ ?_ ?_ ?_ ?_ ?_
      · simp [nx]
      · simp [nx, Ne.symm hlx]
      · intro i hi hne
        have h2 : i ≠ s.fresh := by rintro rfl; exact hx hi
        simp [nx, hne, h2]
      · simp
      · simp [pv, hxr]
      · intro i hi
        have h1 : i ≠ s.root := by rintro rfl; exact (List.nodup_cons.1 nd).1 hi
        have h2 : i ≠ s.fresh := by rintro rfl; exact hx (List.mem_cons_of_mem _ hi)
        simp [pv, h1, h2]
    · subst e
      have : last = s.root := H.lastNil rfl
      subst this
      refine ⟨?_, ?_, ?_, ?_⟩
      · simp [nx]
      · simp [pv, hxr]
      · simp [nx, hxr]
      · simp
  · show s.fresh ∈ _
    simp
  · intro h; simp at h
  · show (s.root :: (es ++ [_]).map Ent.id).Nodup
    rw [List.map_append, List.map_cons, List.map_nil]
    simp only [List.nodup_cons, List.mem_cons, List.nodup_append, List.mem_append] at nd hx ⊢
    grind
  · intro i hi
    show i < s.fresh + 1
    have : i = s.fresh ∨ i ∈ s.root :: es.map Ent.id := by
      rw [List.map_append, List.map_cons, List.map_nil] at hi
      simp only [List.mem_cons, List.mem_append, List.not_mem_nil, or_false] at hi ⊢
      have e : (fillStep w (s, last)).1.root = s.root := rfl
      rw [e] at hi
      tauto
    rcases this with h | h
    · omega
    · have := H.fresh i h
      simp only at this; omega
  · intro e he
    rcases List.mem_append.1 he with h | h
    · have m : e.id ≠ s.fresh := by
        intro h'; exact hx (List.mem_cons_of_mem _ (List.mem_map.2 ⟨e, h, h'⟩))
      have h3 := H.ents e h
      have h4 := (H.dums e h).2
      rw [ky, rs, if_neg m, if_neg m]
      refine ⟨h3.1, ?_⟩
      split
      · exact h4.symm
      · exact h3.2
    · rw [List.mem_singleton] at h
      subst h
      simp [ky, rs]
  · rw [List.map_append, List.map_cons, List.map_nil]
    refine List.nodup_append.2 ⟨H.keys, by simp, ?_⟩
    intro a ha b hb
    rw [List.mem_singleton] at hb
    rintro rfl
    subst hb
    apply hk
    rw [(H.cache.map Prod.fst).mem_iff, List.map_map]
    exact ha
  · intro e he
    show (∃ n, e.key = .dummy n ∧ n < s.fresh + 1) ∧ _
    rcases List.mem_append.1 he with h | h
    · obtain ⟨⟨n, h1, h2⟩, h3⟩ := H.dums e h
      exact ⟨⟨n, h1, Nat.lt_succ_of_lt h2⟩, h3⟩
    · rw [List.mem_singleton] at h
      subst h
      exact ⟨⟨_, rfl, Nat.lt_succ_self _⟩, rfl⟩
  · show (cset s.cache _ _).Perm _
    rw [cset_new hk, List.map_append]
    exact H.cache.append_right _

theorem fill_loop (w : Bool) (n : ℕ) {x : State K V × ℕ} {es : List (Ent K V)} (H : FillInv x es) :
    ∃ es', FillInv ((fillStep w)^[n] x) es' ∧ es'.length = es.length + n ∧
      ((fillStep w)^[n] x).1.root = x.1.root := by
  induction n generalizing x es with
  | zero => exact ⟨es, H, by simp, rfl⟩
  | succ n ih =>
    obtain ⟨h1, h2⟩ := fill_step w H
    obtain ⟨es', h3, h4, h5⟩ := ih h1
    refine ⟨es', h3, by simp at h4; omega, ?_⟩
    rw [Function.iterate_succ, Function.comp, h5, h2]

theorem fill_done {x : State K V × ℕ} {es : List (Ent K V)} (H : FillInv x es)
    (hn : es ≠ [] ∨ (x.1.heap x.1.root).next = some x.1.root) :
    Rep { x.1 with heap := setPrev x.1.heap x.1.root (some x.2), count := 0 } es := by
  constructor
  · rcases H.path with P | e
    · exact P
    · subst e
      refine ⟨?_, ?_⟩
      · simpa using hn
      · simpa using H.lastNil rfl
  · exact H.nodup
  · exact H.fresh
  · intro e he; simpa using H.ents e he
  · exact H.keys
  · intro e he n hn
    obtain ⟨⟨m, h1, h2⟩, -⟩ := H.dums e he
    rw [h1] at hn; cases hn; exact h2
  · exact H.cache

/-- The ring holds placeholders first, then the remembered keys with their values, the most recent last. -/
structure Refines (f : K → V) (s : State K V) (m : Memory K) (ds us : List (Ent K V)) : Prop where
  rep : Rep s (ds ++ us)
  dummy : ∀ d ∈ ds, (∃ n, d.key = .dummy n) ∧ d.result = none
  users : us.map (fun e => (e.key, e.result)) = m.recent.reverse.map (fun k => (Slot.user k, some (f k)))
  cap : ds.length + us.length = m.cap
  count : s.count = m.recent.length

theorem Refines.us_length {f : K → V} {s : State K V} {m : Memory K} {ds us : List (Ent K V)}
    (H : Refines f s m ds us) : us.length = m.recent.length := by
  have := congrArg List.length H.users
  simpa using this

theorem Refines.user_mem {f : K → V} {s : State K V} {m : Memory K} {ds us : List (Ent K V)}
    (H : Refines f s m ds us) (k : K) : Slot.user k ∈ (ds ++ us).map Ent.key ↔ k ∈ m.recent := by
  have h : us.map Ent.key = m.recent.reverse.map Slot.user := by
    have := congrArg (List.map Prod.fst) H.users
    simpa [Function.comp_def] using this
  rw [List.map_append, List.mem_append, h]
  constructor
  · rintro (h | h)
    · obtain ⟨d, hd, e⟩ := List.mem_map.1 h
      obtain ⟨⟨n, hn⟩, -⟩ := H.dummy d hd
      rw [hn] at e; cases e
    · simpa using h
  · intro h; right; simpa using h

theorem Refines.nodup {f : K → V} {s : State K V} {m : Memory K} {ds us : List (Ent K V)}
    (H : Refines f s m ds us) : m.recent.Nodup := by
  have h : us.map Ent.key = m.recent.reverse.map Slot.user := by
    have := congrArg (List.map Prod.fst) H.users
    simpa [Function.comp_def] using this
  have k := H.rep.keys
  rw [List.map_append, h] at k
  have k2 := (List.nodup_append.1 k).2.1
  exact List.nodup_reverse.1 (List.Nodup.of_map _ k2)

theorem call_hit {f : K → V} {s : State K V} {m : Memory K} {ds us : List (Ent K V)} {k : K}
    (H : Refines f s m ds us) (hk : k ∈ m.recent) :
    ∃ s' us', call f s k = some (s', f k, false) ∧ Refines f s' (m.step (.call k)) ds us' := by
  obtain ⟨a, b, hab⟩ := List.append_of_mem hk
  have nd := H.nodup
  have her : m.recent.erase k = a ++ b := by
    rw [hab] at nd ⊢
    have : k ∉ a := by intro h; rw [List.nodup_append] at nd; exact nd.2.2 k h k (by simp) rfl
    rw [List.erase_append_right _ this, List.erase_cons_head]
  have hu := H.users
  rw [hab, List.reverse_append, List.reverse_cons, List.append_assoc, List.singleton_append, List.map_append,
    List.map_cons] at hu
  obtain ⟨us1, us2', rfl, h1, h2⟩ := List.map_eq_append_iff.1 hu
  obtain ⟨e, us2, rfl, h3, h4⟩ := List.map_eq_cons_iff.1 h2
  have hek : e.key = Slot.user k := congrArg Prod.fst h3
  have her' : e.result = some (f k) := congrArg Prod.snd h3
  have R := H.rep
  rw [← List.append_assoc] at R
  obtain ⟨s', ht, R', hc⟩ := touch_rep R her'
  have hlook : s.cache.lookup (.user k) = some e.id := by
    refine lookup_of_mem R.cache_nodup ?_
    rw [R.cache.mem_iff]
    exact List.mem_map.2 ⟨e, by simp, by rw [hek]⟩
  have hlen : (k :: (a ++ b)).length ≤ m.cap := by
    have := H.cap
    rw [H.us_length, hab] at this
    simp at this ⊢; omega
  refine ⟨s', us1 ++ us2 ++ [e], ?_, ?_⟩
  · unfold call; rw [hlook]; simp [ht]
  · have hrec : (m.step (.call k)).recent = k :: (a ++ b) := by
      show (k :: m.recent.erase k).take m.cap = _
      rw [her, List.take_of_length_le hlen]
    constructor
    · simpa [List.append_assoc] using R'
    · exact H.dummy
    · rw [hrec, List.map_append, List.map_append, h1, h4, List.map_cons, h3]
      simp
    · show _ = m.cap
      rw [← H.cap]; simp
    · rw [hrec, hc, H.count, hab]; simp; omega

theorem call_miss {f : K → V} {s : State K V} {m : Memory K} {ds us : List (Ent K V)} {k : K}
    (H : Refines f s m ds us) (hk : k ∉ m.recent) :
    ∃ s' ds' us', call f s k = some (s', f k, true) ∧ Refines f s' (m.step (.call k)) ds' us' := by
  have hlook : s.cache.lookup (.user k) = none := by
    rw [lookup_none, H.rep.mem_keys, H.user_mem]; exact hk
  have her : m.recent.erase k = m.recent := List.erase_of_not_mem hk
  have hrec : (m.step (.call k)).recent = (k :: m.recent).take m.cap := by
    show (k :: m.recent.erase k).take m.cap = _
    rw [her]
  have hkeys := (H.user_mem k).not.2 hk
  have hul := H.us_length
  have hcap := H.cap
  have hcount := H.count
  have hcall : ∀ s', insert s k (f k) = some s' → call f s k = some (s', f k, true) := by
    intro s' h; unfold call; rw [hlook]; simp [h]
  have hu := H.users
  have R := H.rep
  cases ds with
  | cons d ds =>
    obtain ⟨s', h1, R', h2⟩ := insert_rep (f k) R hkeys
    have hlen : (k :: m.recent).length ≤ m.cap := by simp at hcap ⊢; omega
    rw [List.take_of_length_le hlen] at hrec
    refine ⟨s', ds, us ++ [⟨s.root, .user k, some (f k)⟩], hcall s' h1, ?_⟩
    constructor
    · simpa using R'
    · exact fun x hx => H.dummy x (List.mem_cons_of_mem _ hx)
    · rw [hrec, List.map_append, hu]; simp
    · show _ = m.cap
      rw [← hcap]; simp; omega
    · rw [hrec, h2, if_pos (by simp; omega), hcount]; simp
  | nil =>
    cases us with
    | nil =>
      obtain ⟨s', h1, R', h2⟩ := insert_rep_nil (k := k) (f k) R
      have hc0 : m.cap = 0 := by simpa using hcap.symm
      rw [hc0, List.take_zero] at hrec
      refine ⟨s', [], [], hcall s' h1, ?_⟩
      constructor
      · exact R'
      · simp
      · rw [hrec]; simp
      · show _ = m.cap
        rw [hc0]; rfl
      · rw [hrec, h2, hcount]; simpa using hul.symm
    | cons u us =>
      obtain ⟨s', h1, R', h2⟩ := insert_rep (f k) R hkeys
      have hr : (m.step (.call k)).recent = k :: m.recent.dropLast := by
        rw [hrec, ← hcap, hul, List.length_nil, Nat.zero_add]
        rw [← hul, List.length_cons, List.take_succ_cons, List.dropLast_eq_take, ← hul]
        simp
      refine ⟨s', [], us ++ [⟨s.root, .user k, some (f k)⟩], hcall s' h1, ?_⟩
      constructor
      · simpa using R'
      · simp
      · rw [hr, List.map_append, List.reverse_cons, List.map_append]
        congr 1
        have := congrArg List.tail hu
        rw [List.map_cons, List.tail_cons, ← List.map_tail, List.tail_reverse] at this
        exact this
      · show _ = m.cap
        rw [← hcap]; simp
      · rw [hr, h2, hcount]
        simp only [List.nil_append, List.length_cons] at hul ⊢
        rw [if_neg (by omega), List.length_dropLast]
        omega

theorem shrink_loop {s : State K V} {l1 l2 : List (Ent K V)} (H : Rep s (l1 ++ l2)) :
    ∃ s', loop shrinkStep l1.length s = some s' ∧ Rep s' l2 ∧ s'.count = s.count := by
  induction l1 generalizing s with
  | nil => exact ⟨s, rfl, H, rfl⟩
  | cons e l ih =>
    obtain ⟨s1, h1, R1, c1⟩ := shrink_rep H
    obtain ⟨s2, h2, R2, c2⟩ := ih R1
    refine ⟨s2, ?_, R2, c2.trans c1⟩
    show (shrinkStep s).bind _ = _
    rw [h1]; exact h2

theorem grow_loop (n : ℕ) {s : State K V} {l : List (Ent K V)} (H : Rep s l) :
    ∃ s' ds, loop growStep n s = some s' ∧ Rep s' (ds ++ l) ∧ ds.length = n ∧
      (∀ d ∈ ds, (∃ n, d.key = .dummy n) ∧ d.result = none) ∧ s'.count = s.count := by
  induction n generalizing s l with
  | zero => exact ⟨s, [], rfl, H, rfl, by simp, rfl⟩
  | succ n ih =>
    obtain ⟨s1, h1, R1, c1⟩ := grow_rep H
    obtain ⟨s2, ds, h2, R2, hl, hd, c2⟩ := ih R1
    refine ⟨s2, ds ++ [⟨s.fresh, .dummy s.fresh, none⟩], ?_, by simpa using R2, by simp [hl], ?_, c2.trans c1⟩
    · show (growStep s).bind _ = _
      rw [h1]; exact h2
    · intro d hd'
      rcases List.mem_append.1 hd' with h | h
      · exact hd d h
      · rw [List.mem_singleton] at h; exact ⟨⟨s.fresh, by rw [h]⟩, by rw [h]⟩

theorem Rep.with_count {s : State K V} {l : List (Ent K V)} (H : Rep s l) (c : ℕ) :
    Rep { s with count := c } l :=
  ⟨H.path, H.nodup, H.fresh, H.ents, H.keys, H.dums, H.cache⟩

theorem resize_refines {f : K → V} {s : State K V} {m : Memory K} {ds us : List (Ent K V)} (n : ℕ)
    (H : Refines f s m ds us) :
    ∃ s' ds' us', resize s n = some s' ∧ Refines f s' (m.step (.resize n)) ds' us' := by
  have hl : s.cache.length = m.cap := by rw [H.rep.length, List.length_append, H.cap]
  have hul := H.us_length
  have hcap := H.cap
  have hcount := H.count
  unfold resize
  rw [hl]
  by_cases h1 : n = m.cap
  · rw [if_pos h1]
    refine ⟨s, ds, us, rfl, ?_⟩
    have : m.step (.resize n) = m := by
      show (⟨n, m.recent.take n⟩ : Memory K) = m
      rw [List.take_of_length_le (by omega), h1]
    rw [this]; exact H
  rw [if_neg h1]
  by_cases h2 : n < m.cap
  · rw [if_pos h2]
    have R := H.rep
    rw [← List.take_append_drop (m.cap - n) (ds ++ us)] at R
    obtain ⟨s', h3, R', c⟩ := shrink_loop R
    have : ((ds ++ us).take (m.cap - n)).length = m.cap - n := by
      rw [List.length_take, List.length_append]; omega
    rw [this] at h3
    rw [h3]
    refine ⟨_, ds.drop (m.cap - n), us.drop (m.cap - n - ds.length), rfl, ?_⟩
    constructor
    · rw [← List.drop_append]; exact R'.with_count _
    · exact fun d hd => H.dummy d (List.mem_of_mem_drop hd)
    · show _ = (m.recent.take n).reverse.map _
      rw [List.map_drop, H.users, List.reverse_take, List.map_drop]
      congr 1; omega
    · show _ = n
      rw [List.length_drop, List.length_drop]; omega
    · show min s'.count n = (m.recent.take n).length
      rw [c, hcount, List.length_take, min_comm]
  · rw [if_neg h2]
    obtain ⟨s', ds', h3, R', hlen, hd, c⟩ := grow_loop (n - m.cap) H.rep
    refine ⟨s', ds' ++ ds, us, h3, ?_⟩
    have hr : m.recent.take n = m.recent := List.take_of_length_le (by omega)
    constructor
    · simpa using R'
    · intro d hd'
      rcases List.mem_append.1 hd' with h | h
      · exact hd d h
      · exact H.dummy d h
    · show _ = (m.recent.take n).reverse.map _
      rw [hr, H.users]
    · show _ = n
      rw [List.length_append]; omega
    · show _ = (m.recent.take n).length
      rw [hr, c, hcount]

theorem fill_dummy {x : State K V × ℕ} {es : List (Ent K V)} (H : FillInv x es) :
    ∀ d ∈ es, (∃ n, d.key = .dummy n) ∧ d.result = none := fun d hd => by
  obtain ⟨⟨n, h, -⟩, h'⟩ := H.dums d hd
  exact ⟨⟨n, h⟩, h'⟩

theorem clear_refines {f : K → V} {s : State K V} {m : Memory K} {ds us : List (Ent K V)}
    (H : Refines f s m ds us) : ∃ ds', Refines f (clear s) (m.step .clear) ds' [] := by
  have hl : s.cache.length = m.cap := by rw [H.rep.length, List.length_append, H.cap]
  have F : FillInv (({ s with cache := [] } : State K V), s.root) [] :=
    ⟨.inr rfl, by simp, fun _ => rfl, by simp, by simpa using H.rep.fresh s.root (by simp),
      by simp, by simp, by simp, by simp⟩
  obtain ⟨es, F', hlen, hroot⟩ := fill_loop true m.cap F
  have hlen' : es.length = m.cap := by simpa using hlen
  have R := fill_done F' (by
    by_cases h0 : m.cap = 0
    · right
      rw [h0]
      have : ds ++ us = [] := by
        apply List.eq_nil_of_length_eq_zero
        rw [List.length_append, H.cap, h0]
      have P := H.rep.path
      rw [this] at P
      exact P.1
    · left
      rintro rfl
      exact h0 hlen'.symm)
  refine ⟨es, ?_⟩
  constructor
  · rw [List.append_nil]
    unfold clear
    rw [hl]
    exact R
  · exact fill_dummy F'
  · rfl
  · show es.length + 0 = m.cap
    rw [hlen']; rfl
  · rfl

theorem create_refines (f : K → V) {n : ℕ} (hn : 1 ≤ n) :
    ∃ ds, Refines f (create n : State K V) ⟨n, []⟩ ds [] := by
  have F : FillInv (({ heap := fun _ => ⟨none, none, none, none⟩, root := 0, cache := [], fresh := 1, count := 0 } :
      State K V), 0) [] :=
    ⟨.inr rfl, by simp, fun _ => rfl, by simp, by simp, by simp, by simp, by simp, by simp⟩
  obtain ⟨es, F', hlen, hroot⟩ := fill_loop false n F
  have hlen' : es.length = n := by simpa using hlen
  have R := fill_done F' (by left; rintro rfl; simp at hlen'; omega)
  refine ⟨es, ?_⟩
  constructor
  · rw [List.append_nil]
    exact R
  · exact fill_dummy F'
  · rfl
  · simpa using hlen'
  · rfl

end LRU
end TreeCorr
