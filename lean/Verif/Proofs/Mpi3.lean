import Verif.Proofs.Patch3
import Verif.Proofs.PatchHist

/-! Dividing the jobs of the three-point classes over processes and collecting the results. -/

namespace TreeCorr
open Classical
noncomputable section
variable {V C : Type}

/-! ### Who does a job -/

theorem autoJob3_unique {n size i j k : ℕ} (hs : 0 < size) (hi : i < n) (hj : j < n) (hk : k < n) :
    ∃! r, r < size ∧ myAutoJob3 n size r i j k := by
  obtain ⟨p, ⟨hp, hpi⟩, up⟩ := owner_unique hs hi
  obtain ⟨q, ⟨hq, hqj⟩, uq⟩ := owner_unique hs hj
  obtain ⟨s, ⟨hs', hsk⟩, us⟩ := owner_unique hs hk
  have oi : ∀ r, r < size → (myIndex n size r i ↔ r = p) := fun r hr => ⟨fun h => up r ⟨hr, h⟩, fun h => h ▸ hpi⟩
  have oj : ∀ r, r < size → (myIndex n size r j ↔ r = q) := fun r hr => ⟨fun h => uq r ⟨hr, h⟩, fun h => h ▸ hqj⟩
  have ok : ∀ r, r < size → (myIndex n size r k ↔ r = s) := fun r hr => ⟨fun h => us r ⟨hr, h⟩, fun h => h ▸ hsk⟩
  have key : ∀ r, r < size → (myAutoJob3 n size r i j k ↔ r = if i % 3 = 0 then p else if i % 3 = 1 then q else s) := by
    intro r hr
    rw [myAutoJob3, oi r hr, oj r hr, ok r hr]
    have h3 : i % 3 = 0 ∨ i % 3 = 1 ∨ i % 3 = 2 := by omega
    by_cases a : r = p ∧ r = q ∧ r = s
    · rw [if_pos a]
      obtain ⟨a, b, c⟩ := a
      subst a
      simp only [true_iff]
      rcases h3 with h | h | h <;> simp [h, ← b, ← c]
    · rw [if_neg a]
      by_cases b : ¬ r = p ∧ ¬ r = q ∧ ¬ r = s
      · rw [if_pos b]
        obtain ⟨x, y, z⟩ := b
        rcases h3 with h | h | h <;> simp [h, x, y, z]
      · rw [if_neg b]
        rcases h3 with h | h | h <;> simp [h]
  refine ⟨if i % 3 = 0 then p else if i % 3 = 1 then q else s, ?_, fun r hr => (key r hr.1).1 hr.2⟩
  have hlt : (if i % 3 = 0 then p else if i % 3 = 1 then q else s) < size := by split_ifs <;> assumption
  exact ⟨hlt, (key _ hlt).2 rfl⟩

theorem cross12Job_unique {n1 n2 size i j k : ℕ} (hs : 0 < size) (hi : i < n1) (hj : j < n2) (hk : k < n2) :
    ∃! r, r < size ∧ myCross12Job n1 n2 size r i j k := by
  by_cases h : n1 = max n1 n2
  · have : ∀ r, myCross12Job n1 n2 size r i j k ↔ myIndex (max n1 n2) size r i := by
      intro r
      simp only [myCross12Job]
      rw [if_pos h]
    simp only [this]
    exact owner_unique hs (by omega)
  · have : ∀ r, myCross12Job n1 n2 size r i j k ↔ myAutoJob (max n1 n2) size r j k := by
      intro r
      simp only [myCross12Job]
      rw [if_neg h]
      rfl
    simp only [this]
    exact autoJob_unique hs (by omega) (by omega)

theorem cross123Job_unique {n1 n2 n3 size i j k : ℕ} (hs : 0 < size) (hi : i < n1) (hj : j < n2) (hk : k < n3) :
    ∃! r, r < size ∧ myCross123Job n1 n2 n3 size r i j k := by
  simp only [myCross123Job]
  apply owner_unique hs
  split_ifs <;> omega

/-! ### Dictionaries -/

variable [AddCommMonoid V]

theorem Dict3.update_fresh (e : Dict3 V) : ∀ (d : Dict3 V), (e.map Prod.fst).Nodup →
    (∀ x ∈ e, x.1 ∉ d.map Prod.fst) → d.update e = d ++ e := by
  induction e with
  | nil => intro d _ _; simp [Dict3.update]
  | cons x t ih =>
    intro d hnd hfr
    have : d.update (x :: t) = (d.set x.1 x.2).update t := rfl
    rw [this, Dict3.set_fresh (hfr x (by simp)), ih]
    · simp
    · simp at hnd; simpa using hnd.2
    · intro y hy hm
      simp only [List.map_append, List.mem_append, List.map_cons, List.map_nil, List.mem_singleton] at hm
      rcases hm with hm | hm
      · exact hfr y (by simp [hy]) hm
      · simp only [List.map_cons, List.nodup_cons] at hnd
        exact hnd.1 (by rw [← hm]; exact List.mem_map_of_mem hy)

theorem Dict3.get_iff {d : Dict3 V} (h : (d.map Prod.fst).Nodup) (key : ℕ × ℕ × ℕ) (v : Res3 V) :
    d.get key = some v ↔ (key, v) ∈ d := by
  induction d with
  | nil => simp [Dict3.get]
  | cons x t ih =>
    simp only [List.map_cons, List.nodup_cons] at h
    have e : Dict3.get (x :: t) key = if key = x.1 then some x.2 else Dict3.get t key := by
      simp only [Dict3.get, List.lookup]
      by_cases hk : key = x.1
      · simp [hk]
      · have : (key == x.1) = false := by simpa using hk
        simp [this, hk]
    rw [e]
    by_cases hk : key = x.1
    · rw [if_pos hk]
      constructor
      · intro hv
        injection hv with hv
        rw [hk, ← hv]
        simp
      · intro hm
        rw [List.mem_cons] at hm
        rcases hm with hm | hm
        · rw [← hm]
        · exfalso
          apply h.1
          rw [← hk]
          exact List.mem_map_of_mem (f := Prod.fst) hm
    · rw [if_neg hk, ih h.2, List.mem_cons]
      constructor
      · exact Or.inr
      · rintro (hm | hm)
        · exact absurd (congrArg Prod.fst hm) hk
        · exact hm

theorem Dict3.get_perm {d e : Dict3 V} (h : (d.map Prod.fst).Nodup) (hp : d.Perm e) (key : ℕ × ℕ × ℕ) :
    d.get key = e.get key := by
  have he : (e.map Prod.fst).Nodup := (hp.map _).nodup_iff.1 h
  apply Option.ext
  intro v
  rw [Dict3.get_iff h, Dict3.get_iff he, hp.mem_iff]

theorem stored_keys_nodup3 (K : Kit3 V C) (js : List (Job3 V)) (h : (js.map Job3.key).Nodup) :
    ((js.flatMap (Job3.stored K)).map Prod.fst).Nodup := by
  have : (((js.flatMap (Job3.stored K)).map Prod.fst)).Sublist (js.map Job3.key) := by
    induction js with
    | nil => simp
    | cons J t ih =>
      simp only [List.map_cons, List.nodup_cons] at h
      rw [List.flatMap_cons, List.map_append, List.map_cons]
      have h1 : ((J.stored K).map Prod.fst).Sublist [J.key] := by
        unfold Job3.stored
        split <;> simp
      exact h1.append (ih h.2)
  exact this.nodup h

/-! ### Collecting -/

variable {K : Kit3 V C} {G : V → Prop}

theorem gather_fold3 (hK : K.Good G) (Ss : List (TriCorr V)) : ∀ (S : TriCorr V),
    ((S.results ++ Ss.flatMap TriCorr.results).map Prod.fst).Nodup → (∀ T ∈ Ss, G T.self.acc) →
    Ss.foldl (fun S T => ⟨K.iadd S.self T.self, S.results.update T.results⟩) S
      = ⟨S.self + (Ss.map TriCorr.self).sum, S.results ++ Ss.flatMap TriCorr.results⟩ := by
  induction Ss with
  | nil => intro S _ _; simp
  | cons T t ih =>
    intro S hnd hg
    rw [List.foldl_cons, hK.iadd_eq _ (hg T (by simp))]
    rw [List.flatMap_cons, ← List.append_assoc, List.map_append, List.nodup_append] at hnd
    have h1 := hnd.1
    rw [List.map_append, List.nodup_append] at h1
    rw [Dict3.update_fresh _ _ h1.2.1 (fun x hx hm =>
      h1.2.2 x.1 hm x.1 (List.mem_map_of_mem hx) rfl)]
    rw [ih]
    · simp [add_assoc]
    · simp only
      rw [List.map_append, List.nodup_append]
      exact hnd
    · exact fun T' hT' => hg T' (by simp [hT'])

/-- What the processes collect when every job is done by exactly one of them. -/
theorem gather_jobs3 (hK : K.Good G) (L : List (Job3 V)) (hL : ∀ J ∈ L, J.Good G) (hnd : (L.map Job3.key).Nodup)
    (mine : ℕ → ℕ → ℕ → ℕ → Prop) (size : ℕ) (hs : 0 < size)
    (hu : ∀ J ∈ L, ∃! r, r < size ∧ mine r J.gate.1 J.gate.2.1 J.gate.2.2) :
    ∃ R, K.gather ((List.range size).map fun r => (L.filter (jobMine3 (mine r))).foldl (Job3.run K) TriCorr.clear) = some R ∧
      R.self = (L.map (Job3.val K)).sum ∧ R.results.Perm (L.flatMap (Job3.stored K)) := by
  have hperm := divide_perm L (fun r => jobMine3 (mine r)) size (by
    intro J hJ
    simpa [jobMine3] using hu J hJ)
  have hrun : ∀ r, (L.filter (jobMine3 (mine r))).foldl (Job3.run K) TriCorr.clear
      = ⟨((L.filter (jobMine3 (mine r))).map (Job3.val K)).sum, (L.filter (jobMine3 (mine r))).flatMap (Job3.stored K)⟩ := by
    intro r
    rw [run_jobs3 hK _ _ (fun J hJ => hL J (List.mem_filter.1 hJ).1) ((List.Sublist.map _ List.filter_sublist).nodup hnd)
      (by simp [TriCorr.clear])]
    simp only [TriCorr.clear, List.nil_append]
    rw [← Res3.zero_def, zero_add]
  simp only [hrun]
  set F : ℕ → TriCorr V := fun r => ⟨((L.filter (jobMine3 (mine r))).map (Job3.val K)).sum,
    (L.filter (jobMine3 (mine r))).flatMap (Job3.stored K)⟩ with hF
  have hall : ((List.range size).map F).flatMap TriCorr.results
      = ((List.range size).flatMap fun r => L.filter (jobMine3 (mine r))).flatMap (Job3.stored K) := by
    rw [List.flatMap_map, List.flatMap_assoc]
  have hsum : (((List.range size).map F).map TriCorr.self).sum
      = (((List.range size).flatMap fun r => L.filter (jobMine3 (mine r))).map (Job3.val K)).sum := by
    rw [List.map_map]
    generalize List.range size = rs
    induction rs with
    | nil => rfl
    | cons r t ih =>
      rw [List.map_cons, List.sum_cons, ih, List.flatMap_cons, List.map_append, List.sum_append]
      rfl
  have hres := hperm.flatMap_right (Job3.stored K)
  have hkeys : ((((List.range size).map F).flatMap TriCorr.results).map Prod.fst).Nodup := by
    rw [hall]
    exact (hres.map _).nodup_iff.2 (stored_keys_nodup3 K L hnd)
  have hgood : ∀ T ∈ (List.range size).map F, G T.self.acc := by
    intro T hT
    obtain ⟨r, _, rfl⟩ := List.mem_map.1 hT
    simp only [hF, Res3.sum_acc, List.map_map]
    apply hK.sum
    intro A hA
    obtain ⟨J, hJ, rfl⟩ := List.mem_map.1 hA
    show G (J.val K).acc
    rw [Job3.val_acc]
    exact hL J (List.mem_filter.1 hJ).1
  obtain ⟨m, rfl⟩ : ∃ m, size = m + 1 := ⟨size - 1, by omega⟩
  rw [List.range_succ_eq_map, List.map_cons] at hkeys hgood hall hsum ⊢
  refine ⟨_, rfl, ?_, ?_⟩
  · rw [gather_fold3 hK _ _ (by simpa using hkeys) (fun T hT => hgood T (List.mem_cons_of_mem _ hT))]
    simp only
    rw [List.map_cons, List.sum_cons] at hsum
    rw [hsum, ← List.range_succ_eq_map]
    exact (hperm.map _).sum_eq
  · rw [gather_fold3 hK _ _ (by simpa using hkeys) (fun T hT => hgood T (List.mem_cons_of_mem _ hT))]
    simp only
    rw [List.flatMap_cons] at hall
    rw [hall, ← List.range_succ_eq_map]
    exact hres

/-! ### The indices of the jobs -/

theorem autoJobs3_gate {cats : List (ℕ × C)} {J : Job3 V} (h : J ∈ autoJobs3 K cats) :
    J.gate.1 ∈ cats.map Prod.fst ∧ J.gate.2.1 ∈ cats.map Prod.fst ∧ J.gate.2.2 ∈ cats.map Prod.fst := by
  obtain ⟨c1, h1, h2⟩ := List.mem_flatMap.1 h
  have m1 := List.mem_map_of_mem (f := Prod.fst) h1
  rcases List.mem_cons.1 h2 with rfl | h2
  · exact ⟨m1, m1, m1⟩
  · obtain ⟨c2, h3, h2⟩ := List.mem_flatMap.1 h2
    have m2 := List.mem_map_of_mem (f := Prod.fst) (List.mem_reverse.1 (List.mem_filter.1 h3).1)
    rcases List.mem_cons.1 h2 with rfl | h2
    · exact ⟨m1, m2, m2⟩
    rcases List.mem_cons.1 h2 with rfl | h2
    · exact ⟨m1, m2, m2⟩
    · obtain ⟨c3, h4, rfl⟩ := List.mem_map.1 h2
      exact ⟨m1, m2, List.mem_map_of_mem (List.mem_filter.1 h4).1⟩

theorem cross12Jobs_gate {o : Bool} {n1 n2 : ℕ} {cats1 cats2 : List (ℕ × C)} {J : Job3 V} (h : J ∈ cross12Jobs K o n1 n2 cats1 cats2) :
    J.gate.1 ∈ cats1.map Prod.fst ∧ J.gate.2.1 ∈ cats2.map Prod.fst ∧ J.gate.2.2 ∈ cats2.map Prod.fst := by
  obtain ⟨c1, h1, h2⟩ := List.mem_flatMap.1 h
  obtain ⟨c2, h3, h2⟩ := List.mem_flatMap.1 h2
  have m1 := List.mem_map_of_mem (f := Prod.fst) h1
  have m2 := List.mem_map_of_mem (f := Prod.fst) h3
  rcases List.mem_cons.1 h2 with rfl | h2
  · exact ⟨m1, m2, m2⟩
  · obtain ⟨c3, h4, rfl⟩ := List.mem_map.1 h2
    exact ⟨m1, m2, List.mem_map_of_mem (List.mem_reverse.1 (List.mem_filter.1 h4).1)⟩

theorem cross123Jobs_gate {o : Bool} {n1 n2 n3 : ℕ} {cats1 cats2 cats3 : List (ℕ × C)} {J : Job3 V}
    (h : J ∈ cross123Jobs K o n1 n2 n3 cats1 cats2 cats3) :
    J.gate.1 ∈ cats1.map Prod.fst ∧ J.gate.2.1 ∈ cats2.map Prod.fst ∧ J.gate.2.2 ∈ cats3.map Prod.fst := by
  obtain ⟨c1, h1, h2⟩ := List.mem_flatMap.1 h
  obtain ⟨c2, h3, h2⟩ := List.mem_flatMap.1 h2
  obtain ⟨c3, h4, rfl⟩ := List.mem_map.1 h2
  exact ⟨List.mem_map_of_mem h1, List.mem_map_of_mem h3, List.mem_map_of_mem h4⟩

theorem serial_filter3 (L : List (Job3 V)) : L.filter (jobMine3 fun _ _ _ => True) = L := by
  rw [List.filter_eq_self]; intro J _; simp [jobMine3]

theorem runs_clear (hK : K.Good G) {L : List (Job3 V)} (hL : ∀ J ∈ L, J.Good G) (hnd : (L.map Job3.key).Nodup) :
    (L.filter (jobMine3 fun _ _ _ => True)).foldl (Job3.run K) TriCorr.clear
      = ⟨(L.map (Job3.val K)).sum, L.flatMap (Job3.stored K)⟩ := by
  rw [serial_filter3, run_jobs3 hK _ _ hL hnd (by simp [TriCorr.clear])]
  show TriCorr.mk (Res3.zero + _) ([] ++ _) = _
  rw [← Res3.zero_def, zero_add, List.nil_append]

theorem processAuto3_jobs (hK : K.Good G) {cats : List (ℕ × C)} (hid : (cats.map Prod.fst).Nodup) (S : TriCorr V) :
    K.processAuto true cats S = ⟨((autoJobs3 K cats).map (Job3.val K)).sum, (autoJobs3 K cats).flatMap (Job3.stored K)⟩ := by
  simp only [Kit3.processAuto, if_true]
  rw [allAuto3_eq, runs_clear hK (autoJobs3_good hK cats) (autoJobs3_nodup K hid)]

theorem processCross12_jobs (hK : K.Good G) (o : Bool) {cats1 cats2 : List (ℕ × C)} (h1 : (cats1.map Prod.fst).Nodup)
    (h2 : (cats2.map Prod.fst).Nodup) (S : TriCorr V) :
    K.processCross12 true o cats1 cats2 S
      = ⟨((cross12Jobs K o cats1.length cats2.length cats1 cats2).map (Job3.val K)).sum,
        (cross12Jobs K o cats1.length cats2.length cats1 cats2).flatMap (Job3.stored K)⟩ := by
  simp only [Kit3.processCross12, if_true]
  rw [allCross12_eq, runs_clear hK (cross12Jobs_good hK _ _ _ _ _) (cross12Jobs_nodup K _ _ _ h1 h2)]

theorem processCross123_jobs (hK : K.Good G) (o : Bool) {cats1 cats2 cats3 : List (ℕ × C)} (h1 : (cats1.map Prod.fst).Nodup)
    (h2 : (cats2.map Prod.fst).Nodup) (h3 : (cats3.map Prod.fst).Nodup) (S : TriCorr V) :
    K.processCross true o cats1 cats2 cats3 S
      = ⟨((cross123Jobs K o cats1.length cats2.length cats3.length cats1 cats2 cats3).map (Job3.val K)).sum,
        (cross123Jobs K o cats1.length cats2.length cats3.length cats1 cats2 cats3).flatMap (Job3.stored K)⟩ := by
  simp only [Kit3.processCross, if_true]
  rw [allCross123_eq, runs_clear hK (cross123Jobs_good hK _ _ _ _ _ _ _) (cross123Jobs_nodup K _ _ _ _ h1 h2 h3)]

end
end TreeCorr
