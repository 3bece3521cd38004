import Verif.Proofs.Local3

/-! The results dictionary of local loops that use the same keys several times, in one process and under MPI. -/

namespace TreeCorr
open Classical
noncomputable section
variable {V C : Type}

theorem Dict3.get_cons (x : (ℕ × ℕ × ℕ) × Res3 V) (t : Dict3 V) (key : ℕ × ℕ × ℕ) :
    Dict3.get (x :: t) key = if key = x.1 then some x.2 else Dict3.get t key := by
  simp only [Dict3.get, List.lookup]
  by_cases hk : key = x.1
  · simp [hk]
  · have : (key == x.1) = false := by simpa using hk
    simp [this, hk]

theorem Dict3.get_append_one (d : Dict3 V) (k key : ℕ × ℕ × ℕ) (v : Res3 V) (h : k ∉ d.map Prod.fst) :
    Dict3.get (d ++ [(k, v)]) key = if key = k then some v else d.get key := by
  induction d with
  | nil =>
    rw [List.nil_append, Dict3.get_cons]
  | cons x t ih =>
    simp only [List.map_cons, List.mem_cons, not_or] at h
    rw [List.cons_append, Dict3.get_cons, ih h.2, Dict3.get_cons]
    by_cases h1 : key = x.1
    · have : key ≠ k := fun e => h.1 (e ▸ h1)
      simp [h1, h1 ▸ this]
    · simp [h1]

theorem Dict3.get_map_set (d : Dict3 V) (k key : ℕ × ℕ × ℕ) (v : Res3 V) (h : k ∈ d.map Prod.fst) :
    Dict3.get (d.map fun x => if x.1 = k then (k, v) else x) key = if key = k then some v else d.get key := by
  induction d with
  | nil => simp at h
  | cons x t ih =>
    rw [List.map_cons, Dict3.get_cons, Dict3.get_cons]
    by_cases hx : x.1 = k
    · rw [if_pos hx]
      by_cases hk : key = k
      · simp [hk]
      · simp only [hk, if_false]
        rw [if_neg (by rw [hx]; exact hk)]
        by_cases ht : k ∈ t.map Prod.fst
        · rw [ih ht, if_neg hk]
        · congr 1
          conv_rhs => rw [← List.map_id t]
          apply List.map_congr_left
          intro y hy
          rw [if_neg]
          · rfl
          · rintro rfl; exact ht (List.mem_map_of_mem hy)
    · rw [if_neg hx]
      have ht : k ∈ t.map Prod.fst := by
        rcases List.mem_cons.1 h with h | h
        · exact absurd h.symm hx
        · exact h
      rw [ih ht]
      by_cases h1 : key = x.1
      · have : key ≠ k := fun e => hx (h1 ▸ e)
        simp [h1, hx]
      · simp [h1]

theorem Dict3.get_set (d : Dict3 V) (k key : ℕ × ℕ × ℕ) (v : Res3 V) :
    (d.set k v).get key = if key = k then some v else d.get key := by
  unfold Dict3.set
  split
  · rename_i h; exact Dict3.get_map_set d k key v h
  · rename_i h; exact Dict3.get_append_one d k key v h

theorem Dict3.get_absent {d : Dict3 V} {key : ℕ × ℕ × ℕ} (h : key ∉ d.map Prod.fst) : d.get key = none := by
  induction d with
  | nil => rfl
  | cons x t ih =>
    simp only [List.map_cons, List.mem_cons, not_or] at h
    rw [Dict3.get_cons, if_neg h.1, ih h.2]

theorem Dict3.get_update (e : Dict3 V) : ∀ (d : Dict3 V) (_ : (e.map Prod.fst).Nodup) (key : ℕ × ℕ × ℕ),
    (d.update e).get key = (e.get key).or (d.get key) := by
  induction e with
  | nil => intro d _ key; rfl
  | cons x t ih =>
    intro d h key
    simp only [List.map_cons, List.nodup_cons] at h
    have : d.update (x :: t) = (d.set x.1 x.2).update t := rfl
    rw [this, ih _ h.2, Dict3.get_set, Dict3.get_cons]
    by_cases hk : key = x.1
    · simp only [hk, if_true]
      rw [Dict3.get_absent h.1]; rfl
    · simp only [hk, if_false]

variable [AddCommMonoid V] {K : Kit3 V C} {G : V → Prop}

/-- What a job that always writes leaves under its key. -/
def Kit3.entry (K : Kit3 V C) (old : Option (Res3 V)) (temp : Res3 V) : Option (Res3 V) :=
  match old with
  | some r => if K.nz r.acc then some (K.iadd r temp) else some temp
  | none => some temp

theorem keep_get (K : Kit3 V C) (ijk key : ℕ × ℕ × ℕ) (temp : Res3 V) (S : TriCorr V) :
    (K.keep ijk temp S).results.get key = if key = ijk then K.entry (S.results.get ijk) temp else S.results.get key := by
  unfold Kit3.keep Kit3.entry
  simp only
  cases S.results.get ijk with
  | none => simp only [Dict3.get_set]
  | some r =>
    simp only
    split
    · rw [Dict3.get_set]
    · rw [Dict3.get_set]

theorem keep_nodup (K : Kit3 V C) (ijk : ℕ × ℕ × ℕ) (temp : Res3 V) {S : TriCorr V} (h : (S.results.map Prod.fst).Nodup) :
    ((K.keep ijk temp S).results.map Prod.fst).Nodup := by
  unfold Kit3.keep
  simp only
  cases S.results.get ijk with
  | none => exact Dict3.set_keys _ _ _ h
  | some r =>
    simp only
    split <;> exact Dict3.set_keys _ _ _ h

/-- Jobs that always write, under the key by which they are given out. -/
def Plain (J : Job3 V) : Prop := J.force = true ∧ J.key = J.gate

theorem run_plain {J : Job3 V} (h : Plain J) (S : TriCorr V) : J.run K S = K.keep J.key J.temp S := by
  unfold Job3.run
  rw [if_pos (Or.inr h.1)]

theorem run_nodup {js : List (Job3 V)} (hp : ∀ J ∈ js, Plain J) {S : TriCorr V} (h : (S.results.map Prod.fst).Nodup) :
    ((js.foldl (Job3.run K) S).results.map Prod.fst).Nodup := by
  induction js generalizing S with
  | nil => exact h
  | cons J t ih =>
    rw [List.foldl_cons, run_plain (hp J (by simp))]
    exact ih (fun J' h' => hp J' (by simp [h'])) (keep_nodup K _ _ h)

/-- Only the jobs with a key matter for the entry of that key. -/
theorem run_get {js : List (Job3 V)} (hp : ∀ J ∈ js, Plain J) (S : TriCorr V) (key : ℕ × ℕ × ℕ) :
    (js.foldl (Job3.run K) S).results.get key
      = ((js.filter fun J => decide (J.key = key)).map Job3.temp).foldl K.entry (S.results.get key) := by
  induction js generalizing S with
  | nil => rfl
  | cons J t ih =>
    rw [List.foldl_cons, ih (fun J' h' => hp J' (by simp [h'])), run_plain (hp J (by simp)), keep_get]
    by_cases hk : J.key = key
    · rw [List.filter_cons_of_pos (by simpa using hk), if_pos hk.symm, List.map_cons, List.foldl_cons, hk]
    · rw [List.filter_cons_of_neg (by simpa using hk), if_neg (fun e => hk e.symm)]

theorem gather_get (Ss : List (TriCorr V)) (hnd : ∀ T ∈ Ss, (T.results.map Prod.fst).Nodup) (S : TriCorr V) (key : ℕ × ℕ × ℕ) :
    (Ss.foldl (fun S T => ⟨K.iadd S.self T.self, S.results.update T.results⟩) S).results.get key
      = Ss.foldl (fun v T => (T.results.get key).or v) (S.results.get key) := by
  induction Ss generalizing S with
  | nil => rfl
  | cons T t ih =>
    rw [List.foldl_cons, ih (fun T' h => hnd T' (by simp [h]))]
    simp only
    rw [Dict3.get_update _ _ (hnd T (by simp))]
    rfl

theorem or_fold_none {α ι : Type} (l : List ι) (f : ι → Option α) (v : Option α) (h : ∀ x ∈ l, f x = none) :
    l.foldl (fun v x => (f x).or v) v = v := by
  induction l generalizing v with
  | nil => rfl
  | cons x t ih => rw [List.foldl_cons, h x (by simp), Option.none_or, ih v fun y hy => h y (by simp [hy])]

theorem or_fold_one {α ι : Type} (l : List ι) (f : ι → Option α) (v w : Option α) (hv : v = none ∨ v = w)
    (h : ∀ x ∈ l, f x = none ∨ f x = w) (hex : v = w ∨ ∃ x ∈ l, f x = w) : l.foldl (fun v x => (f x).or v) v = w := by
  induction l generalizing v with
  | nil => simpa using hex
  | cons x t ih =>
    rw [List.foldl_cons]
    have h' : ∀ y ∈ t, f y = none ∨ f y = w := fun y hy => h y (by simp [hy])
    by_cases hw : w = none
    · subst hw
      have e1 : v = none := by tauto
      have e2 : f x = none := by have := h x (by simp); tauto
      rw [e1, e2]
      exact ih _ (Or.inl rfl) h' (Or.inl rfl)
    · rcases h x (by simp) with e | e
      · rw [e, Option.none_or]
        refine ih v hv h' ?_
        rcases hex with hex | ⟨y, hy, hex⟩
        · exact Or.inl hex
        · rcases List.mem_cons.1 hy with rfl | hy
          · exact absurd (hex.symm.trans e) hw
          · exact Or.inr ⟨y, hy, hex⟩
      · have : (f x).or v = w := by
          rw [e]
          cases w with
          | none => exact absurd rfl hw
          | some w => rfl
        rw [this]
        exact ih w (Or.inr rfl) h' (Or.inl rfl)

/-- What the processes collect is what one process finds, also when several jobs share a key. -/
theorem gather_plain (hK : K.Good G) (L : List (Job3 V)) (hL : ∀ J ∈ L, J.Good G) (hp : ∀ J ∈ L, Plain J)
    (mine : ℕ → ℕ → ℕ → ℕ → Prop) (size : ℕ) (hs : 0 < size)
    (hu : ∀ J ∈ L, ∃! r, r < size ∧ mine r J.gate.1 J.gate.2.1 J.gate.2.2) :
    ∃ R, K.gather ((List.range size).map fun r => (L.filter (jobMine3 (mine r))).foldl (Job3.run K) TriCorr.clear) = some R ∧
      R.self = (L.foldl (Job3.run K) TriCorr.clear).self ∧
      ∀ key, R.results.get key = (L.foldl (Job3.run K) TriCorr.clear).results.get key := by
  obtain ⟨R, h1, h2⟩ := gather_jobs_self3 hK L hL mine size hs hu TriCorr.clear hK.zero
  refine ⟨R, h1, ?_, ?_⟩
  · rw [h2, run_jobs_self3 hK _ hL]
    show size • (0 : Res3 V) + _ = (0 : Res3 V) + _
    rw [smul_zero]
  intro key
  have hpf : ∀ r, ∀ J ∈ L.filter (jobMine3 (mine r)), Plain J := fun r J hJ => hp J (List.mem_filter.1 hJ).1
  have hnd : ∀ r, (((L.filter (jobMine3 (mine r))).foldl (Job3.run K) TriCorr.clear).results.map Prod.fst).Nodup :=
    fun r => run_nodup (hpf r) (by simp [TriCorr.clear])
  have hget : ∀ r, ((L.filter (jobMine3 (mine r))).foldl (Job3.run K) TriCorr.clear).results.get key
      = (((L.filter (jobMine3 (mine r))).filter fun J => decide (J.key = key)).map Job3.temp).foldl K.entry none :=
    fun r => run_get (hpf r) TriCorr.clear key
  have hw : (L.foldl (Job3.run K) TriCorr.clear).results.get key
      = ((L.filter fun J => decide (J.key = key)).map Job3.temp).foldl K.entry none := run_get hp TriCorr.clear key
  have hcase : ∀ r, (∃ J ∈ L, J.key = key ∧ mine r J.gate.1 J.gate.2.1 J.gate.2.2) →
      (L.filter (jobMine3 (mine r))).filter (fun J => decide (J.key = key)) = L.filter fun J => decide (J.key = key) := by
    rintro r ⟨J0, hJ0, hk0, hm0⟩
    rw [List.filter_filter]
    apply List.filter_congr
    intro J hJ
    by_cases hk : J.key = key
    · have : J.gate = J0.gate := by rw [← (hp J hJ).2, ← (hp J0 hJ0).2, hk, hk0]
      simp only [hk, decide_true, Bool.true_and, jobMine3, this]
      simpa using hm0
    · simp [hk]
  have hother : ∀ r, ¬ (∃ J ∈ L, J.key = key ∧ mine r J.gate.1 J.gate.2.1 J.gate.2.2) →
      (L.filter (jobMine3 (mine r))).filter (fun J => decide (J.key = key)) = [] := by
    intro r h
    rw [List.filter_eq_nil_iff]
    intro J hJ hk
    exact h ⟨J, (List.mem_filter.1 hJ).1, by simpa using hk, by simpa [jobMine3] using (List.mem_filter.1 hJ).2⟩
  have hval : ∀ r, ((L.filter (jobMine3 (mine r))).foldl (Job3.run K) TriCorr.clear).results.get key = none ∨
      ((L.filter (jobMine3 (mine r))).foldl (Job3.run K) TriCorr.clear).results.get key
        = (L.foldl (Job3.run K) TriCorr.clear).results.get key := by
    intro r
    by_cases h : ∃ J ∈ L, J.key = key ∧ mine r J.gate.1 J.gate.2.1 J.gate.2.2
    · right; rw [hget, hw, hcase r h]
    · left; rw [hget, hother r h]; rfl
  have hex : ∃ r ∈ List.range size, ((L.filter (jobMine3 (mine r))).foldl (Job3.run K) TriCorr.clear).results.get key
      = (L.foldl (Job3.run K) TriCorr.clear).results.get key := by
    by_cases h : ∃ J ∈ L, J.key = key
    · obtain ⟨J, hJ, hk⟩ := h
      obtain ⟨r, ⟨hr, hm⟩, _⟩ := hu J hJ
      exact ⟨r, List.mem_range.2 hr, by rw [hget, hw, hcase r ⟨J, hJ, hk, hm⟩]⟩
    · refine ⟨0, List.mem_range.2 hs, ?_⟩
      rw [hget, hw, hother 0 (fun ⟨J, hJ, hk, _⟩ => h ⟨J, hJ, hk⟩)]
      congr 1
      symm
      rw [List.map_nil, List.map_eq_nil_iff, List.filter_eq_nil_iff]
      intro J hJ hk
      exact h ⟨J, hJ, by simpa using hk⟩
  obtain ⟨m, rfl⟩ : ∃ m, size = m + 1 := ⟨size - 1, by omega⟩
  rw [List.range_succ_eq_map, List.map_cons] at h1
  rw [List.range_succ_eq_map] at hex
  simp only [Kit3.gather, Option.some.injEq] at h1
  rw [← h1, gather_get _ (by
    intro T hT
    obtain ⟨r, _, rfl⟩ := List.mem_map.1 hT
    exact hnd r), List.foldl_map]
  apply or_fold_one _ (fun r => ((L.filter (jobMine3 (mine r))).foldl (Job3.run K) TriCorr.clear).results.get key)
  · exact hval 0
  · exact fun r _ => hval r
  · obtain ⟨r, hr, e⟩ := hex
    rcases List.mem_cons.1 hr with rfl | hr
    · exact Or.inl e
    · exact Or.inr ⟨r, hr, e⟩

end
end TreeCorr
