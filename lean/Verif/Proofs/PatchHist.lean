import Verif.Proofs.PatchCount

/-! Helper lemmas for the patch properties: who does which job, totals, and histories of calls. -/

namespace TreeCorr
open Classical
noncomputable section
variable {C : Type}

theorem autoJob_unique {n size i j : ℕ} (hs : 0 < size) (hi : i < n) (hj : j < n) :
    ∃! r, r < size ∧ myAutoJob n size r i j := by
  obtain ⟨p, ⟨hp, hpi⟩, up⟩ := owner_unique hs hi
  obtain ⟨q, ⟨hq, hqj⟩, uq⟩ := owner_unique hs hj
  have oi : ∀ r, r < size → (myIndex n size r i ↔ r = p) := fun r hr => ⟨fun h => up r ⟨hr, h⟩, fun h => h ▸ hpi⟩
  have oj : ∀ r, r < size → (myIndex n size r j ↔ r = q) := fun r hr => ⟨fun h => uq r ⟨hr, h⟩, fun h => h ▸ hqj⟩
  by_cases hpq : p = q
  · refine ⟨p, ⟨hp, ?_⟩, ?_⟩
    · rw [myAutoJob, if_pos ⟨hpi, (oj p hp).2 hpq⟩]; trivial
    · rintro r ⟨hr, h⟩
      by_contra hne
      rw [myAutoJob, oi r hr, oj r hr, ← hpq] at h
      simp [hne] at h
  · have key : ∀ r, r < size → (myAutoJob n size r i j ↔
        if (j : ℤ) - i < ((n / 2 : ℕ) : ℤ) then (r = p ∧ i % 2 = 0) ∨ (r = q ∧ i % 2 = 1)
        else (r = q ∧ j % 2 = 0) ∨ (r = p ∧ j % 2 = 1)) := by
      intro r hr
      rw [myAutoJob, oi r hr, oj r hr]
      have hqp : ¬ q = p := fun h => hpq h.symm
      by_cases h1 : r = p
      · subst h1
        simp [hpq]
      · by_cases h2 : r = q
        · subst h2
          simp [hqp]
        · simp [h1, h2]
    by_cases hd : (j : ℤ) - i < ((n / 2 : ℕ) : ℤ)
    · simp only [hd, if_true] at key
      rcases Nat.mod_two_eq_zero_or_one i with h | h
      · exact ⟨p, ⟨hp, (key p hp).2 (Or.inl ⟨rfl, h⟩)⟩, fun r hr => by
          rcases (key r hr.1).1 hr.2 with h' | h' <;> omega⟩
      · exact ⟨q, ⟨hq, (key q hq).2 (Or.inr ⟨rfl, h⟩)⟩, fun r hr => by
          rcases (key r hr.1).1 hr.2 with h' | h' <;> omega⟩
    · simp only [hd, if_false] at key
      rcases Nat.mod_two_eq_zero_or_one j with h | h
      · exact ⟨q, ⟨hq, (key q hq).2 (Or.inl ⟨rfl, h⟩)⟩, fun r hr => by
          rcases (key r hr.1).1 hr.2 with h' | h' <;> omega⟩
      · exact ⟨p, ⟨hp, (key p hp).2 (Or.inr ⟨rfl, h⟩)⟩, fun r hr => by
          rcases (key r hr.1).1 hr.2 with h' | h' <;> omega⟩

theorem crossJob_unique {n1 n2 size i j : ℕ} (hs : 0 < size) (hi : i < n1) (hj : j < n2) :
    ∃! r, r < size ∧ myCrossJob n1 n2 size r i j := by
  simp only [myCrossJob]
  split
  · exact owner_unique hs (by omega)
  · exact owner_unique hs (by omega)

theorem autoJobs_keys {cats : List (ℕ × C)} {J : Job C} (h : J ∈ autoJobs cats) :
    J.key.1 ∈ cats.map Prod.fst ∧ J.key.2 ∈ cats.map Prod.fst := by
  obtain ⟨c1, h1, h2⟩ := List.mem_flatMap.1 h
  rcases List.mem_cons.1 h2 with rfl | h2
  · exact ⟨List.mem_map_of_mem h1, List.mem_map_of_mem h1⟩
  · obtain ⟨c2, h3, rfl⟩ := List.mem_map.1 h2
    have := (List.mem_filter.1 h3).1
    exact ⟨List.mem_map_of_mem h1, List.mem_map_of_mem (List.mem_reverse.1 this)⟩

theorem crossJobs_keys {n1 n2 : ℕ} {cats1 cats2 : List (ℕ × C)} {J : Job C} (h : J ∈ crossJobs n1 n2 cats1 cats2) :
    J.key.1 ∈ cats1.map Prod.fst ∧ J.key.2 ∈ cats2.map Prod.fst := by
  obtain ⟨c1, h1, h2⟩ := List.mem_flatMap.1 h
  obtain ⟨c2, h3, rfl⟩ := List.mem_map.1 h2
  exact ⟨List.mem_map_of_mem h1, List.mem_map_of_mem h3⟩

theorem serial_filter (L : List (Job C)) : L.filter (jobMine fun _ _ => True) = L := by
  rw [List.filter_eq_self]; intro J _; simp [jobMine]

theorem processAuto_jobs {K : Kit C} (hK : K.Good) {cats : List (ℕ × C)} (hid : (cats.map Prod.fst).Nodup) (S : Corr) :
    K.processAuto true cats S
      = ⟨((autoJobs cats).map (Job.val K)).sum, (autoJobs cats).flatMap (Job.stored K)⟩ := by
  simp only [Kit.processAuto, if_true]
  rw [allAuto_eq, serial_filter, run_jobs hK _ _ (autoJobs_nodup hid) (by simp [Corr.clear])]
  show Corr.mk (Res.zero + _) ([] ++ _) = _
  rw [← Res.zero_def, zero_add, List.nil_append]

theorem processCross_jobs {K : Kit C} (hK : K.Good) {cats1 cats2 : List (ℕ × C)} (h1 : (cats1.map Prod.fst).Nodup)
    (h2 : (cats2.map Prod.fst).Nodup) (S : Corr) :
    K.processCross true cats1 cats2 S
      = ⟨((crossJobs cats1.length cats2.length cats1 cats2).map (Job.val K)).sum,
        (crossJobs cats1.length cats2.length cats1 cats2).flatMap (Job.stored K)⟩ := by
  simp only [Kit.processCross, if_true]
  rw [allCross_eq, serial_filter, run_jobs hK _ _ (crossJobs_nodup h1 h2) (by simp [Corr.clear])]
  show Corr.mk (Res.zero + _) ([] ++ _) = _
  rw [← Res.zero_def, zero_add, List.nil_append]

/-! ### Totals -/

theorem half_sq_sum (w : α → ℝ) (l : List α) :
    (l.map fun c => 0.5 * w c ^ 2).sum + ((autoPairs l).map fun q => w q.1 * w q.2).sum
      = 0.5 * (l.map w).sum ^ 2 := by
  induction l with
  | nil => simp [autoPairs]
  | cons c t ih =>
    have e : ((t.map fun y => (c, y)).map fun q : α × α => w q.1 * w q.2).sum = w c * (t.map w).sum := by
      rw [List.map_map, ← List.sum_map_mul_left]; rfl
    simp only [autoPairs, List.map_cons, List.sum_cons, Multiset.map_add, Multiset.sum_add, Multiset.map_coe,
      Multiset.sum_coe, e]
    have : 0.5 * (w c + (t.map w).sum) ^ 2 = 0.5 * w c ^ 2 + w c * (t.map w).sum + 0.5 * (t.map w).sum ^ 2 := by ring
    rw [this, ← ih]
    ring

theorem multiset_tot {ι : Type} (m : Multiset ι) (f : ι → Res) :
    (m.map f).sum.tot = (m.map fun x => (f x).tot).sum := by
  induction m using Multiset.induction with
  | empty => simp
  | cons a s ih => simp only [Multiset.map_cons, Multiset.sum_cons, Res.add_tot, ih]

/-! ### Histories -/

/-- `results` is a dictionary of proper results without `tot` that add up to the object. -/
structure HistInv (S : Corr) : Prop where
  keys : (S.results.map Prod.fst).Nodup
  good : ∀ x ∈ S.results, x.2.acc.Good ∧ x.2.tot = 0
  sum : S.self = (S.results.map Prod.snd).sum

theorem HistInv.clear : HistInv Corr.clear := ⟨by simp [Corr.clear], by simp [Corr.clear], rfl⟩

theorem Dict.set_keys (d : Dict) (key : ℕ × ℕ) (v : Res) (h : (d.map Prod.fst).Nodup) :
    ((d.set key v).map Prod.fst).Nodup := by
  unfold Dict.set
  split
  · rw [List.map_map]
    have : (d.map (Prod.fst ∘ fun x => if x.1 = key then (key, v) else x)) = d.map Prod.fst := by
      apply List.map_congr_left
      intro x _
      simp only [Function.comp]
      split
      · rename_i h; exact h.symm
      · rfl
    rw [this]; exact h
  · rename_i hk
    rw [List.map_append, List.nodup_append]
    refine ⟨h, by simp, ?_⟩
    intro a ha b hb
    simp only [List.map_cons, List.map_nil, List.mem_singleton] at hb
    rintro rfl
    exact hk (hb ▸ ha)

theorem Dict.set_mem {d : Dict} {key : ℕ × ℕ} {v : Res} {x} (h : x ∈ d.set key v) : x ∈ d ∨ x = (key, v) := by
  unfold Dict.set at h
  split at h
  · obtain ⟨y, hy, rfl⟩ := List.mem_map.1 h
    split
    · exact Or.inr rfl
    · exact Or.inl hy
  · simpa using h

theorem Dict.set_sum {d : Dict} {key : ℕ × ℕ} {r : Res} (v : Res) (hnd : (d.map Prod.fst).Nodup)
    (h : d.get key = some r) :
    ((d.set key v).map Prod.snd).sum + r = (d.map Prod.snd).sum + v := by
  have hmem := (Dict.get_iff hnd key r).1 h
  have hk : key ∈ d.map Prod.fst := List.mem_map.2 ⟨_, hmem, rfl⟩
  rw [Dict.set, if_pos hk]
  clear h hk
  induction d with
  | nil => simp at hmem
  | cons x t ih =>
    rw [List.map_cons, List.nodup_cons] at hnd
    rcases List.mem_cons.1 hmem with rfl | hm
    · have e : t.map (fun x => if x.1 = key then (key, v) else x) = t := by
        nth_rw 2 [← List.map_id t]
        apply List.map_congr_left
        intro y hy
        rw [if_neg]; rfl
        rintro rfl
        exact hnd.1 (List.mem_map.2 ⟨y, hy, rfl⟩)
      simp only [List.map_cons, if_true, List.sum_cons, e]
      abel
    · have hx : x.1 ≠ key := by
        rintro rfl
        exact hnd.1 (List.mem_map.2 ⟨_, hm, rfl⟩)
      simp only [List.map_cons, if_neg hx, List.sum_cons]
      have := ih hnd.2 hm
      rw [add_assoc, this, add_assoc]

theorem Res.zero_of_not_nonzero {r : Res} (hg : r.acc.Good) (ht : r.tot = 0) (h : ¬ r.nonzero) : r = 0 :=
  Res.ext (hg.eq_zero h) ht

theorem Dict.get_of_fresh_or (d : Dict) (key : ℕ × ℕ) : (∃ r, d.get key = some r) ∨ key ∉ d.map Prod.fst := by
  by_cases h : key ∈ d.map Prod.fst
  · left
    cases hg : d.get key with
    | some r => exact ⟨r, rfl⟩
    | none =>
      unfold Dict.get at hg
      rw [List.lookup_eq_none_iff] at hg
      obtain ⟨x, hx, rfl⟩ := List.mem_map.1 h
      have := hg x hx
      simp at this
  · exact Or.inr h

theorem HistInv.job {K : Kit C} (hK : K.Good) (hnn : K.nn = false) {S : Corr} (hS : HistInv S) (J : Job C) :
    HistInv (J.run K S) ∧ (J.run K S).self = S.self + J.val K := by
  rcases Dict.get_of_fresh_or S.results J.key with ⟨r, hr⟩ | hfr
  · have hm := (Dict.get_iff hS.keys _ _).1 hr
    obtain ⟨rg, rt⟩ := hS.good _ hm
    -- the stored value becomes `r + val`, and the object `self + val`
    have fin : ∀ v : Res, v = r + J.val K → (J.val K).acc.Good → (J.val K).tot = 0 →
        HistInv ⟨S.self + J.val K, S.results.set J.key v⟩ := by
      intro v hv hg ht
      refine ⟨Dict.set_keys _ _ _ hS.keys, ?_, ?_⟩
      · intro x hx
        rcases Dict.set_mem hx with h | rfl
        · exact hS.good x h
        · rw [hv]; exact ⟨rg.add hg, by rw [Res.add_tot, rt, ht, add_zero]⟩
      · have hs := Dict.set_sum v hS.keys hr
        have hc : ∀ a b : Res, a + r = b + r → a = b := by
          intro a b hab
          have e1 := congrArg Res.acc hab
          have e2 := congrArg Res.tot hab
          apply Res.ext
          · have f : ∀ φ : Acc → ℤ → ℝ, (∀ X Y : Acc, ∀ k, φ (X.add Y) k = φ X k + φ Y k) → ∀ k, φ a.acc k = φ b.acc k := by
              intro φ h k
              have := congrFun (congrArg φ e1) k
              rw [Res.add_acc, Res.add_acc, Acc.add_def, Acc.add_def, h, h] at this
              linarith
            ext k
            · exact f Acc.npairs (fun _ _ _ => rfl) k
            · exact f Acc.weight (fun _ _ _ => rfl) k
            · exact f Acc.meanr (fun _ _ _ => rfl) k
            · exact f Acc.meanlogr (fun _ _ _ => rfl) k
            · exact f Acc.nk (fun _ _ _ => rfl) k
            · exact f Acc.kk (fun _ _ _ => rfl) k
          · rw [Res.add_tot, Res.add_tot] at e2; linarith
        apply hc
        rw [hs, hv, hS.sum]
        show (S.results.map Prod.snd).sum + J.val K + r = _
        abel
    have hg := Job.val_good hK J
    cases J with
    | auto i c =>
      have ht : (Job.val K (.auto i c)).tot = 0 := by simp [Job.val, Kit.autoRes, hnn]
      have := fin _ rfl hg ht
      simp only [Job.key] at hr this
      simp only [Job.run, Kit.single11, hr]
      rw [Res.iadd_eq _ (hK.1 c : (K.autoRes c).acc.Good), Res.iadd_eq _ (hK.1 c : (K.autoRes c).acc.Good)]
      exact ⟨this, rfl⟩
    | cross force i j c1 c2 =>
      have ht : (Job.val K (.cross force i j c1 c2)).tot = 0 := by simp [Job.val, hnn]
      have hv : (if K.triv c1 c2 then Res.zero else K.crossRes c1 c2) = Job.val K (.cross force i j c1 c2) := by
        split <;> rename_i h <;> apply Res.ext <;> simp [Job.val, h, hnn, Kit.crossRes, Res.zero]; rfl
      simp only [Job.key] at hr
      simp only [Job.run, Kit.single12, hv, hr]
      split
      · have hr' : (if r.nonzero then S.results.set (i, j) (r.iadd (Job.val K (.cross force i j c1 c2)))
            else S.results.set (i, j) (Job.val K (.cross force i j c1 c2)))
            = S.results.set (i, j) (r + Job.val K (.cross force i j c1 c2)) := by
          split
          · rw [Res.iadd_eq _ hg]
          · rename_i hz
            rw [show r = 0 from Res.zero_of_not_nonzero rg rt hz, zero_add]
        rw [hr', Res.iadd_eq _ hg]
        exact ⟨fin _ rfl hg ht, rfl⟩
      · rename_i hz
        push Not at hz
        have hz0 := Res.zero_of_not_nonzero hg ht hz.1
        simp only [Kit.addTot, hnn]
        rw [hz0, add_zero]
        exact ⟨hS, rfl⟩
  · rw [Job.run_fresh hK S J hfr]
    refine ⟨⟨?_, ?_, ?_⟩, rfl⟩
    · rw [List.map_append, List.nodup_append]
      refine ⟨hS.keys, ?_, ?_⟩
      · have := stored_keys_nodup K [J] (by simp)
        simpa using this
      · intro a ha b hb
        obtain ⟨x, hx, rfl⟩ := List.mem_map.1 hb
        rw [Job.stored_keys K J x hx]
        rintro rfl
        exact hfr ha
    · intro x hx
      rcases List.mem_append.1 hx with h | h
      · exact hS.good x h
      · rw [Job.stored_keys K J x h]
        refine ⟨Job.val_good hK J, ?_⟩
        cases J <;> simp [Job.val, Kit.autoRes, hnn]
    · show S.self + _ = _
      rw [List.map_append, List.sum_append, Job.stored_sum, hS.sum]

theorem HistInv.jobs {K : Kit C} (hK : K.Good) (hnn : K.nn = false) (js : List (Job C)) : ∀ {S : Corr}, HistInv S →
    HistInv (js.foldl (Job.run K) S) ∧ (js.foldl (Job.run K) S).self = S.self + (js.map (Job.val K)).sum := by
  induction js with
  | nil => intro S h; exact ⟨h, by simp⟩
  | cons J t ih =>
    intro S h
    obtain ⟨h1, h2⟩ := h.job hK hnn J
    obtain ⟨h3, h4⟩ := ih h1
    refine ⟨h3, ?_⟩
    rw [List.foldl_cons, h4, h2, List.map_cons, List.sum_cons, add_assoc]

theorem HistInv.call {K : Kit C} (hK : K.Good) (hnn : K.nn = false) {S : Corr} (hS : HistInv S) (c : Call C) :
    HistInv (c.run K S) := by
  cases c with
  | auto init cats =>
    simp only [Call.run, Kit.processAuto]
    rw [allAuto_eq]
    refine (HistInv.jobs hK hnn _ ?_).1
    split
    · exact HistInv.clear
    · exact hS
  | cross init cats1 cats2 =>
    simp only [Call.run, Kit.processCross]
    rw [allCross_eq]
    refine (HistInv.jobs hK hnn _ ?_).1
    split
    · exact HistInv.clear
    · exact hS

/-! ### Only the object itself, whatever `results` holds -/

theorem Job.run_self {K : Kit C} (hK : K.Good) (S : Corr) (J : Job C) : (J.run K S).self = S.self + J.val K := by
  have h := Job.run_fresh hK ⟨S.self, []⟩ J (by simp)
  have e : (J.run K S).self = (J.run K ⟨S.self, []⟩).self := by
    cases J with
    | auto i c => rfl
    | cross force i j c1 c2 =>
      simp only [Job.run, Kit.single12]
      generalize (if K.triv c1 c2 then Res.zero else K.crossRes c1 c2) = temp
      split
      · rfl
      · simp only [Kit.addTot]
        cases K.nn <;> rfl
  rw [e, h]

theorem run_jobs_self {K : Kit C} (hK : K.Good) (js : List (Job C)) (S : Corr) :
    (js.foldl (Job.run K) S).self = S.self + (js.map (Job.val K)).sum := by
  induction js generalizing S with
  | nil => simp
  | cons J t ih => rw [List.foldl_cons, ih, Job.run_self hK, List.map_cons, List.sum_cons, add_assoc]

theorem gather_self (Ss : List Corr) (S : Corr) (hg : ∀ T ∈ Ss, T.self.acc.Good) :
    (Ss.foldl (fun S T => ⟨S.self.iadd T.self, S.results.update T.results⟩) S).self
      = S.self + (Ss.map Corr.self).sum := by
  induction Ss generalizing S with
  | nil => simp
  | cons T t ih =>
    rw [List.foldl_cons, ih _ fun T' h => hg T' (by simp [h]), Res.iadd_eq _ (hg T (by simp)), List.map_cons,
      List.sum_cons, add_assoc]

theorem gather_jobs_self {K : Kit C} (hK : K.Good) (L : List (Job C)) (mine : ℕ → ℕ → ℕ → Prop) (size : ℕ)
    (hs : 0 < size) (hu : ∀ J ∈ L, ∃! r, r < size ∧ mine r J.key.1 J.key.2) (S : Corr) (hS : S.self.acc.Good) :
    ∃ R, gather ((List.range size).map fun r => (L.filter (jobMine (mine r))).foldl (Job.run K) S) = some R ∧
      R.self = size • S.self + (L.map (Job.val K)).sum := by
  have hperm := divide_perm L (fun r => jobMine (mine r)) size (by
    intro J hJ
    simpa [jobMine] using hu J hJ)
  set F : ℕ → Corr := fun r => (L.filter (jobMine (mine r))).foldl (Job.run K) S with hF
  have hself : ∀ r, (F r).self = S.self + ((L.filter (jobMine (mine r))).map (Job.val K)).sum :=
    fun r => run_jobs_self hK _ _
  have hsum : ∀ rs : List ℕ, ((rs.map F).map Corr.self).sum
      = rs.length • S.self + ((rs.flatMap fun r => L.filter (jobMine (mine r))).map (Job.val K)).sum := by
    intro rs
    induction rs with
    | nil => simp
    | cons r t ih =>
      rw [List.map_cons, List.map_cons, List.sum_cons, ih, List.flatMap_cons, List.map_append, List.sum_append, hself,
        List.length_cons, succ_nsmul]
      abel
  have hgood : ∀ T ∈ (List.range size).map F, T.self.acc.Good := by
    intro T hT
    obtain ⟨r, _, rfl⟩ := List.mem_map.1 hT
    rw [hself, Res.add_acc]
    refine hS.add ?_
    rw [Res.sum_acc, List.map_map]
    apply Acc.Good.sum
    intro A hA
    obtain ⟨J, _, rfl⟩ := List.mem_map.1 hA
    exact Job.val_good hK J
  have htot := hsum (List.range size)
  rw [(hperm.map _).sum_eq, List.length_range] at htot
  obtain ⟨m, rfl⟩ : ∃ m, size = m + 1 := ⟨size - 1, by omega⟩
  rw [List.range_succ_eq_map, List.map_cons] at hgood htot ⊢
  refine ⟨_, rfl, ?_⟩
  rw [gather_self _ _ fun T hT => hgood T (List.mem_cons_of_mem _ hT)]
  rw [← htot, List.map_cons, List.sum_cons]

end
end TreeCorr
