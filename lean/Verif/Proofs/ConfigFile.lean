import Verif.Spec.ConfigFile
import Verif.Proofs.Config

/-!
Lemmas about configuration files.
-/

namespace TreeCorr
namespace Config

theorem of_ne_auto {t : FType} {name : Str} {t' : FType} (h : t.of name = .ok t') : t' ≠ .auto := by
  cases t <;> simp only [FType.of] at h <;> (try split_ifs at h) <;> simp at h <;> subst h <;> simp

theorem lookup_reverse_cons {α : Type} (x : Str × α) (l : List (Str × α)) (k : Str) :
    (l ++ [x]).lookup k = (l.lookup k).or (if k = x.1 then some x.2 else none) := by
  induction l with
  | nil =>
    obtain ⟨a, b⟩ := x
    simp only [List.nil_append, List.lookup_cons, List.lookup_nil]
    by_cases h : k = a
    · simp [h]
    · have : (k == a) = false := by simpa using h
      simp [h, this]
  | cons y l ih =>
    obtain ⟨a, b⟩ := y
    simp only [List.cons_append, List.lookup_cons]
    by_cases h : k = a
    · simp [h]
    · have : (k == a) = false := by simpa using h
      simp [this, ih]

theorem lookup_app {α : Type} (l l' : List (Str × α)) (k : Str) : (l ++ l').lookup k = (l.lookup k).or (l'.lookup k) := by
  induction l with
  | nil => simp
  | cons y l ih =>
    obtain ⟨a, b⟩ := y
    simp only [List.cons_append, List.lookup_cons]
    by_cases h : k = a
    · simp [h]
    · have : (k == a) = false := by simpa using h
      simp [this, ih]

/-- The last value of all, or what was there before. -/
theorem dupdate_lookup (as : List (Str × Entry)) (d : Dict) (k : Str) : (dupdate d as).lookup k = (lastValue as k).or (d.lookup k) := by
  unfold dupdate
  induction as generalizing d with
  | nil => simp [lastValue]
  | cons x as ih =>
    rw [List.foldl_cons, ih, dset_lookup]
    simp only [lastValue, List.reverse_cons, lookup_reverse_cons]
    by_cases h : k = x.1
    · simp [h]
    · simp [h]

theorem lastValue_append (as bs : List (Str × Entry)) (k : Str) : lastValue (as ++ bs) k = (lastValue bs k).or (lastValue as k) := by
  simp [lastValue, lookup_app]

/-- For a dict the last value is the value. -/
theorem lastValue_nodup (d : Dict) (nd : (d.map Prod.fst).Nodup) (k : Str) : lastValue d k = d.lookup k := by
  unfold lastValue
  have nd' : (d.reverse.map Prod.fst).Nodup := by rw [List.map_reverse]; exact List.nodup_reverse.2 nd
  cases h : d.lookup k with
  | some e => exact lookup_of_mem nd' (List.mem_reverse.2 (lookup_mem h))
  | none =>
    rw [lookup_none_iff] at h ⊢
    simpa using h

/-- A file read from disk has each key once. -/
def Files.Dicts (F : Files) : Prop :=
  (∀ n d, F.yaml n = some d → (d.map Prod.fst).Nodup) ∧ ∀ n d, F.json n = some d → (d.map Prod.fst).Nodup

theorem readLine_cases (v : Str) : Blank v ∨ (∃ name, Includes v name) ∨ (¬ Blank v ∧ ∀ name, ¬ Includes v name) := by
  by_cases h1 : Blank v
  · exact Or.inl h1
  · by_cases h2 : ∃ name, Includes v name
    · exact Or.inr (Or.inl h2)
    · exact Or.inr (Or.inr ⟨h1, fun n h => h2 ⟨n, h⟩⟩)

theorem readLine_blank (incl) (d : Dict) {v : Str} (h : Blank v) : readLine incl d v = .ok d := by
  rcases h with h | ⟨s, h⟩ <;> simp [readLine, h]

theorem readLine_incl (incl) (d : Dict) {v name : Str} (h : Includes v name) : readLine incl d v = match incl name with
    | .ok d1 => .ok (dupdate d d1)
    | .error e => .error e := by
  have h : strip v = '+' :: name := h
  simp only [readLine, h]
  cases incl name <;> rfl

theorem readLine_other (incl) (d : Dict) {v : Str} (h1 : ¬ Blank v) (h2 : ∀ name, ¬ Includes v name) :
    readLine incl d v = match parseVariable (strip v) with
    | .ok x => .ok (dset d x.1 x.2)
    | .error e => .error (.py e) := by
  unfold readLine
  split
  · next h => exact absurd (Or.inl h) h1
  · next h => exact absurd (Or.inr ⟨_, h⟩) h1
  · next h => exact absurd h (h2 _)
  · rfl

theorem foldlM_cons_ok {α β ε : Type} (f : β → α → Except ε β) (a : α) (l : List α) (b c : β) :
    (a :: l).foldlM f b = .ok c ↔ ∃ b', f b a = .ok b' ∧ l.foldlM f b' = .ok c := by
  rw [List.foldlM_cons]
  cases h : f b a with
  | ok b' => simp [bind, Except.bind]
  | error e => simp [bind, Except.bind]

theorem dset_nodup {d : Dict} {k : Str} {e : Entry} (nd : (d.map Prod.fst).Nodup) : ((dset d k e).map Prod.fst).Nodup := by
  rw [dset_keys]
  split_ifs with h
  · exact nd
  · rw [List.nodup_append]
    exact ⟨nd, by simp, fun a ha b hb => by rintro rfl; simp at hb; exact h (hb ▸ ha)⟩

theorem dupdate_nodup (as : List (Str × Entry)) (d : Dict) (nd : (d.map Prod.fst).Nodup) : ((dupdate d as).map Prod.fst).Nodup := by
  unfold dupdate
  induction as generalizing d with
  | nil => exact nd
  | cons x as ih => exact ih _ (dset_nodup nd)

/-- The dict holds what was said. -/
def Holds (d : Dict) (as : List (Str × Entry)) : Prop := (d.map Prod.fst).Nodup ∧ ∀ k, d.lookup k = lastValue as k

theorem Holds.update {d d1 : Dict} {as bs : List (Str × Entry)} (h : Holds d as) (h1 : Holds d1 bs) : Holds (dupdate d d1) (as ++ bs) := by
  refine ⟨dupdate_nodup _ _ h.1, fun k => ?_⟩
  rw [dupdate_lookup, lastValue_append, lastValue_nodup _ h1.1, h1.2, h.2]

theorem Holds.set {d : Dict} {as : List (Str × Entry)} (h : Holds d as) (k : Str) (e : Entry) : Holds (dset d k e) (as ++ [(k, e)]) := by
  have := dupdate_lookup [(k, e)] d
  refine ⟨dset_nodup h.1, fun j => ?_⟩
  rw [lastValue_append, ← h.2]
  exact this j

theorem Holds.nil : Holds [] [] := ⟨by simp, fun k => by simp [lastValue]⟩

theorem Holds.self {d : Dict} (nd : (d.map Prod.fst).Nodup) : Holds d d := ⟨nd, fun k => (lastValue_nodup d nd k).symm⟩

theorem lines_sound (F : Files) (incl : Str → Except FileErr Dict) (hi : ∀ name d, incl name = .ok d → ∃ bs, Says F .auto name bs ∧ Holds d bs) :
    ∀ (ls : List Str) (d d' : Dict) (pre : List (Str × Entry)), Holds d pre → ls.foldlM (readLine incl) d = .ok d' →
      ∃ as, LinesSay F ls as ∧ Holds d' (pre ++ as)
  | [], d, d', pre, hd, h => by
    obtain rfl : d = d' := by simpa [pure, Except.pure] using h
    exact ⟨[], .nil, by simpa using hd⟩
  | v :: ls, d, d', pre, hd, h => by
    obtain ⟨d1, h1, h2⟩ := (foldlM_cons_ok _ _ _ _ _).1 h
    rcases readLine_cases v with hb | ⟨name, hn⟩ | ⟨hb, hn⟩
    · rw [readLine_blank _ _ hb] at h1
      obtain rfl := Except.ok.inj h1
      obtain ⟨as, ha, hh⟩ := lines_sound F incl hi ls _ _ pre hd h2
      exact ⟨as, .blank hb ha, hh⟩
    · rw [readLine_incl _ _ hn] at h1
      cases hin : incl name with
      | error e => simp [hin] at h1
      | ok di =>
        rw [hin] at h1
        obtain rfl := Except.ok.inj h1
        obtain ⟨bs, hs, hbs⟩ := hi name di hin
        obtain ⟨as, ha, hh⟩ := lines_sound F incl hi ls _ _ _ (hd.update hbs) h2
        exact ⟨bs ++ as, .incl hn hs ha, by simpa using hh⟩
    · rw [readLine_other _ _ hb hn] at h1
      cases hp : parseVariable (strip v) with
      | error e => simp [hp] at h1
      | ok x =>
        obtain ⟨k, e⟩ := x
        rw [hp] at h1
        obtain rfl := Except.ok.inj h1
        obtain ⟨as, ha, hh⟩ := lines_sound F incl hi ls _ _ _ (hd.set k e) h2
        exact ⟨(k, e) :: as, .assign ⟨hb, hn, hp⟩ ha, by simpa using hh⟩

theorem read_sound (F : Files) (hF : F.Dicts) : ∀ (n : ℕ) (t : FType) (name : Str) (d : Dict), readConfig F n t name = .ok d →
    ∃ as, Says F t name as ∧ Holds d as
  | 0, _, _, _, h => by simp [readConfig] at h
  | n + 1, t, name, d, h => by
    unfold readConfig at h
    cases ht : t.of name with
    | error e => simp [ht] at h
    | ok t' =>
      rw [ht] at h
      cases t' with
      | auto => exact absurd rfl (of_ne_auto ht)
      | yaml =>
        cases hy : F.yaml name with
        | none => simp [hy] at h
        | some d1 =>
          obtain rfl : d1 = d := by simpa [hy] using h
          exact ⟨d1, .yaml ht hy, .self (hF.1 _ _ hy)⟩
      | json =>
        cases hy : F.json name with
        | none => simp [hy] at h
        | some d1 =>
          obtain rfl : d1 = d := by simpa [hy] using h
          exact ⟨d1, .json ht hy, .self (hF.2 _ _ hy)⟩
      | params =>
        cases hl : F.lines name with
        | none => simp [hl] at h
        | some ls =>
          simp only [hl] at h
          obtain ⟨as, ha, hh⟩ := lines_sound F _ (fun nm d1 h1 => read_sound F hF n .auto nm d1 h1) ls [] d [] .nil h
          exact ⟨as, .params ht hl ha, hh⟩

mutual
theorem says_read {F : Files} (hF : F.Dicts) : ∀ {t name as}, Says F t name as →
    ∃ n0, ∀ n ≥ n0, ∃ d, readConfig F n t name = .ok d ∧ Holds d as
  | _, name, _, .yaml h hd => ⟨1, fun n hn => by
      obtain ⟨n, rfl⟩ : ∃ k, n = k + 1 := ⟨n - 1, by omega⟩
      exact ⟨_, by simp only [readConfig, h, hd], .self (hF.1 _ _ hd)⟩⟩
  | _, name, _, .json h hd => ⟨1, fun n hn => by
      obtain ⟨n, rfl⟩ : ∃ k, n = k + 1 := ⟨n - 1, by omega⟩
      exact ⟨_, by simp only [readConfig, h, hd], .self (hF.2 _ _ hd)⟩⟩
  | _, name, _, .params h hl ha => by
      obtain ⟨n0, hn0⟩ := lines_read hF ha
      refine ⟨n0 + 1, fun n hn => ?_⟩
      obtain ⟨n, rfl⟩ : ∃ k, n = k + 1 := ⟨n - 1, by omega⟩
      obtain ⟨d, h1, h2⟩ := hn0 n (by omega) [] [] .nil
      exact ⟨d, by simp only [readConfig, h, hl, h1], h2⟩

theorem lines_read {F : Files} (hF : F.Dicts) : ∀ {ls as}, LinesSay F ls as →
    ∃ n0, ∀ n ≥ n0, ∀ (d : Dict) (pre : List (Str × Entry)), Holds d pre →
      ∃ d', ls.foldlM (readLine (readConfig F n .auto)) d = .ok d' ∧ Holds d' (pre ++ as)
  | _, _, .nil => ⟨0, fun n _ d pre hd => ⟨d, rfl, by simpa using hd⟩⟩
  | _, _, .blank h ha => by
      obtain ⟨n0, hn0⟩ := lines_read hF ha
      refine ⟨n0, fun n hn d pre hd => ?_⟩
      obtain ⟨d', h1, h2⟩ := hn0 n hn d pre hd
      exact ⟨d', (foldlM_cons_ok _ _ _ _ _).2 ⟨d, readLine_blank _ _ h, h1⟩, h2⟩
  | _, _, .incl h hb ha => by
      obtain ⟨n0, hn0⟩ := lines_read hF ha
      obtain ⟨n1, hn1⟩ := says_read hF hb
      refine ⟨max n0 n1, fun n hn d pre hd => ?_⟩
      obtain ⟨di, h3, h4⟩ := hn1 n (by omega)
      obtain ⟨d', h1, h2⟩ := hn0 n (by omega) _ _ (hd.update h4)
      exact ⟨d', (foldlM_cons_ok _ _ _ _ _).2 ⟨_, by rw [readLine_incl _ _ h, h3], h1⟩, by simpa using h2⟩
  | _, _, .assign h ha => by
      obtain ⟨n0, hn0⟩ := lines_read hF ha
      refine ⟨n0, fun n hn d pre hd => ?_⟩
      obtain ⟨d', h1, h2⟩ := hn0 n hn _ _ (hd.set _ _)
      exact ⟨d', (foldlM_cons_ok _ _ _ _ _).2 ⟨_, by rw [readLine_other _ _ h.1 h.2.1, h.2.2], h1⟩, by simpa using h2⟩
end

mutual
theorem says_unique {F : Files} : ∀ {t name as}, Says F t name as → ∀ {bs}, Says F t name bs → as = bs
  | _, _, _, .yaml h hd, _, h2 => by
    cases h2 with
    | yaml h' hd' => exact Option.some.inj (hd.symm.trans hd')
    | json h' hd' => exact absurd (Except.ok.inj (h.symm.trans h')) (by simp)
    | params h' hl' ha' => exact absurd (Except.ok.inj (h.symm.trans h')) (by simp)
  | _, _, _, .json h hd, _, h2 => by
    cases h2 with
    | json h' hd' => exact Option.some.inj (hd.symm.trans hd')
    | yaml h' hd' => exact absurd (Except.ok.inj (h.symm.trans h')) (by simp)
    | params h' hl' ha' => exact absurd (Except.ok.inj (h.symm.trans h')) (by simp)
  | _, _, _, .params h hl ha, _, h2 => by
    cases h2 with
    | yaml h' hd' => exact absurd (Except.ok.inj (h.symm.trans h')) (by simp)
    | json h' hd' => exact absurd (Except.ok.inj (h.symm.trans h')) (by simp)
    | params h' hl' ha' =>
      obtain rfl := Option.some.inj (hl.symm.trans hl')
      exact lines_unique ha ha'

theorem lines_unique {F : Files} : ∀ {ls as}, LinesSay F ls as → ∀ {bs}, LinesSay F ls bs → as = bs
  | _, _, .nil, _, h2 => by cases h2; rfl
  | _, _, .blank h ha, _, h2 => by
    cases h2 with
    | blank h' ha' => exact lines_unique ha ha'
    | incl h' hb' ha' => rcases h with h | ⟨s, h⟩ <;> simp [Includes, h] at h'
    | assign h' ha' => exact absurd h h'.1
  | _, _, .incl h hb ha, _, h2 => by
    cases h2 with
    | blank h' ha' => rcases h' with h' | ⟨s, h'⟩ <;> simp [Includes, h'] at h
    | incl h' hb' ha' =>
      obtain rfl : _ = _ := (List.cons.inj (Eq.trans (Eq.symm h) h')).2
      rw [says_unique hb hb', lines_unique ha ha']
    | assign h' ha' => exact absurd h (h'.2.1 _)
  | _, _, .assign h ha, _, h2 => by
    cases h2 with
    | blank h' ha' => exact absurd h' h.1
    | incl h' hb' ha' => exact absurd h' (h.2.1 _)
    | assign h' ha' =>
      have := Except.ok.inj (h.2.2.symm.trans h'.2.2)
      rw [this, lines_unique ha ha']
end

theorem foldlM_mem {α β ε : Type} (f : β → α → Except ε β) : ∀ (l : List α) (b c : β), l.foldlM f b = .ok c → ∀ a ∈ l, ∃ b' c', f b' a = .ok c'
  | [], _, _, _, a, ha => by simp at ha
  | x :: l, b, c, h, a, ha => by
    obtain ⟨b', h1, h2⟩ := (foldlM_cons_ok f x l b c).1 h
    rcases List.mem_cons.1 ha with rfl | ha
    · exact ⟨_, _, h1⟩
    · exact foldlM_mem f l b' c h2 a ha

theorem addVariables_ok : ∀ (vars : List Str) (d d' : Dict) (pre : List (Str × Entry)), Holds d pre →
    (addVariables d vars = .ok d' → ∃ xs, List.Forall₂ (fun v x => parseVariable v = .ok x) vars xs ∧ Holds d' (pre ++ xs))
  | [], d, d', pre, hd, h => by
    obtain rfl : d = d' := by simpa [addVariables, pure, Except.pure] using h
    exact ⟨[], .nil, by simpa using hd⟩
  | v :: vars, d, d', pre, hd, h => by
    obtain ⟨d1, h1, h2⟩ := (foldlM_cons_ok _ _ _ _ _).1 h
    cases hp : parseVariable v with
    | error e => simp [hp] at h1
    | ok x =>
      rw [hp] at h1
      obtain rfl := Except.ok.inj h1
      obtain ⟨xs, hx, hh⟩ := addVariables_ok vars _ _ _ (hd.set x.1 x.2) h2
      exact ⟨x :: xs, .cons hp hx, by simpa using hh⟩

theorem addVariables_total : ∀ (vars : List Str) (xs : List (Str × Entry)) (d : Dict),
    List.Forall₂ (fun v x => parseVariable v = .ok x) vars xs → ∃ d', addVariables d vars = .ok d'
  | _, _, d, .nil => ⟨d, rfl⟩
  | _, _, d, .cons h hs => by
    obtain ⟨d', h'⟩ := addVariables_total _ _ (dset d _ _) hs
    exact ⟨d', (foldlM_cons_ok _ _ _ _ _).2 ⟨_, by rw [h], h'⟩⟩

end Config
end TreeCorr
