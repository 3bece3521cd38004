import Verif.Proofs.PatchCount3

/-! Totals and histories of calls of the three-point classes. -/

namespace TreeCorr
open Classical
noncomputable section
variable {V C : Type} [AddCommMonoid V] {K : Kit3 V C} {G : V → Prop}

/-! ### Totals -/

theorem rows_half_sq (w : C → ℝ) (l : List (ℕ × C)) (hid : (l.map Prod.fst).Nodup) :
    (l.map fun c1 => 0.5 * w c1.2 ^ 2 + ((l.filter fun c2 => c1.1 < c2.1).map fun c2 => w c1.2 * w c2.2).sum).sum
      = 0.5 * (l.map fun c => w c.2).sum ^ 2 := by
  obtain ⟨l', hl, hs⟩ := exists_sorted l hid
  rw [rows_perm hl, rows_sorted _ _ _ hs, half_sq_sum (fun c : ℕ × C => w c.2), (hl.map _).sum_eq]

theorem rows3_congr {M : Type} [AddCommMonoid M] {l : List (ℕ × C)} {f f' : ℕ × C → M} {g g' : ℕ × C → ℕ × C → M}
    {h h' : ℕ × C → ℕ × C → ℕ × C → M} (hf : ∀ c ∈ l, f c = f' c) (hg : ∀ c1 ∈ l, ∀ c2 ∈ l, c1.1 < c2.1 → g c1 c2 = g' c1 c2)
    (hh : ∀ c1 ∈ l, ∀ c2 ∈ l, ∀ c3 ∈ l, c1.1 < c2.1 → c2.1 < c3.1 → h c1 c2 c3 = h' c1 c2 c3) : rows3 l f g h = rows3 l f' g' h' := by
  unfold rows3
  congr 1
  apply List.map_congr_left
  intro c1 m1
  rw [hf c1 m1]
  congr 2
  apply List.map_congr_left
  intro c2 m2
  obtain ⟨m2, l2⟩ := List.mem_filter.1 m2
  rw [hg c1 m1 c2 m2 (of_decide_eq_true l2)]
  congr 2
  apply List.map_congr_left
  intro c3 m3
  obtain ⟨m3, l3⟩ := List.mem_filter.1 m3
  exact hh c1 m1 c2 m2 c3 m3 (of_decide_eq_true l2) (of_decide_eq_true l3)

theorem rows3_sixth (w : C → ℝ) (l : List (ℕ × C)) (hid : (l.map Prod.fst).Nodup) :
    rows3 l (fun c => 1 / 6 * w c.2 ^ 3) (fun c1 c2 => 0.5 * w c1.2 * w c2.2 ^ 2 + 0.5 * w c2.2 * w c1.2 ^ 2)
      (fun c1 c2 c3 => w c1.2 * w c2.2 * w c3.2) = 1 / 6 * (l.map fun c => w c.2).sum ^ 3 := by
  obtain ⟨l', hl, hs⟩ := exists_sorted l hid
  rw [rows3_perm hl, (hl.map _).sum_eq]
  clear hl hid
  induction l' with
  | nil => simp [rows3]
  | cons c t ih =>
    have hn : (t.map Prod.fst).Nodup := by
      have h2 := (List.pairwise_cons.1 hs).2
      exact List.Pairwise.map Prod.fst (fun _ _ h => Nat.ne_of_lt h) h2
    rw [rows3_cons hs, ih (List.pairwise_cons.1 hs).2, List.map_cons, List.sum_cons]
    have e : (t.map fun c2 => 0.5 * w c.2 * w c2.2 ^ 2 + 0.5 * w c2.2 * w c.2 ^ 2 +
        ((t.filter fun c3 => c2.1 < c3.1).map fun c3 => w c.2 * w c2.2 * w c3.2).sum).sum
        = w c.2 * (0.5 * (t.map fun c => w c.2).sum ^ 2) + 0.5 * w c.2 ^ 2 * (t.map fun c => w c.2).sum := by
      rw [← rows_half_sq w t hn, ← List.sum_map_mul_left, ← List.sum_map_mul_left, ← sum_map_add']
      congr 1
      apply List.map_congr_left
      intro c2 _
      have : (fun c3 : ℕ × C => w c.2 * w c2.2 * w c3.2) = fun c3 => w c.2 * (w c2.2 * w c3.2) := by
        funext c3; ring
      rw [this, List.sum_map_mul_left]
      ring
    rw [e]
    ring

theorem job111_tot (hnn : K.nn = true) (c : ℕ × C) : ((job111 K c).val K).tot = 1 / 6 * K.sumw c.2 ^ 3 := by
  simp [Job3.val, job111, Kit3.autoRes, hnn]

theorem job12_tot (hnn : K.nn = true) (force o : Bool) (key gate : ℕ × ℕ × ℕ) (c1 c2 : C)
    (hz : force = true → ¬ K.triv c1 c2 c2) (h0 : ¬ K.nz 0) :
    ((job12 K force o key gate c1 c2).val K).tot = 0.5 * K.sumw c1 * K.sumw c2 ^ 2 := by
  unfold Job3.val job12
  simp only [hnn, if_true]
  by_cases ht : K.triv c1 c2 c2
  · have hf : ¬ force = true := fun h => hz h ht
    have : ¬ (K.nz (0 : Res3 V).acc ∨ force = true) := by
      rintro (h | h)
      · exact h0 h
      · exact hf h
    rw [if_pos ht, if_neg this]
    ring
  · rw [if_neg ht]
    split
    · simp [Kit3.cross12Res, hnn]
    · ring

theorem job123_tot (hnn : K.nn = true) (force : Bool) (O : Ord3) (c1 c2 c3 : ℕ × C)
    (hz : force = true → ¬ K.triv c1.2 c2.2 c3.2) (hs : ¬ K.same c2.2 c3.2) (h0 : ¬ K.nz 0) :
    ((job123 K force O c1 c2 c3).val K).tot = K.sumw c1.2 * K.sumw c2.2 * K.sumw c3.2 := by
  unfold Job3.val job123
  simp only [hnn, if_true, if_neg hs]
  by_cases ht : K.triv c1.2 c2.2 c3.2
  · have hf : ¬ force = true := fun h => hz h ht
    have : ¬ (K.nz (0 : Res3 V).acc ∨ force = true) := by
      rintro (h | h)
      · exact h0 h
      · exact hf h
    rw [if_pos ht, if_neg this]
  · rw [if_neg ht]
    split
    · simp [Kit3.crossRes, hnn]
    · rfl

/-! ### Histories -/

/-- `results` is a dictionary of proper results without `tot` that add up to the object. -/
structure HistInv3 (G : V → Prop) (S : TriCorr V) : Prop where
  keys : (S.results.map Prod.fst).Nodup
  good : ∀ x ∈ S.results, G x.2.acc ∧ x.2.tot = 0
  sum : S.self = (S.results.map Prod.snd).sum

theorem HistInv3.clear : HistInv3 G (TriCorr.clear : TriCorr V) := ⟨by simp [TriCorr.clear], by simp [TriCorr.clear], rfl⟩

theorem Dict3.set_keys (d : Dict3 V) (key : ℕ × ℕ × ℕ) (v : Res3 V) (h : (d.map Prod.fst).Nodup) :
    ((d.set key v).map Prod.fst).Nodup := by
  unfold Dict3.set
  split
  · rw [List.map_map]
    have : (d.map (Prod.fst ∘ fun x => if x.1 = key then (key, v) else x)) = d.map Prod.fst := by
      apply List.map_congr_left
      intro x _
      simp only [Function.comp]
      split
      · rename_i h; exact h.symm
      · rfl
    rw [this]; exact h
  · rename_i hk
    rw [List.map_append, List.nodup_append]
    refine ⟨h, by simp, ?_⟩
    intro a ha b hb
    simp only [List.map_cons, List.map_nil, List.mem_singleton] at hb
    rintro rfl
    exact hk (hb ▸ ha)

theorem Dict3.set_mem {d : Dict3 V} {key : ℕ × ℕ × ℕ} {v : Res3 V} {x} (h : x ∈ d.set key v) : x ∈ d ∨ x = (key, v) := by
  unfold Dict3.set at h
  split at h
  · obtain ⟨y, hy, rfl⟩ := List.mem_map.1 h
    split
    · exact Or.inr rfl
    · exact Or.inl hy
  · simpa using h

/-- Replacing a value replaces its share of the sum. -/
theorem Dict3.set_sum {d : Dict3 V} {key : ℕ × ℕ × ℕ} {r : Res3 V} (hnd : (d.map Prod.fst).Nodup) (h : d.get key = some r) :
    ∃ rest, (d.map Prod.snd).sum = r + rest ∧ ∀ v, ((d.set key v).map Prod.snd).sum = v + rest := by
  have hmem := (Dict3.get_iff hnd key r).1 h
  have hk : key ∈ d.map Prod.fst := List.mem_map.2 ⟨_, hmem, rfl⟩
  have hset : ∀ v, d.set key v = d.map (fun x => if x.1 = key then (key, v) else x) := fun v => by rw [Dict3.set, if_pos hk]
  simp only [hset]
  clear h hk hset
  induction d with
  | nil => simp at hmem
  | cons x t ih =>
    rw [List.map_cons, List.nodup_cons] at hnd
    rcases List.mem_cons.1 hmem with rfl | hm
    · refine ⟨(t.map Prod.snd).sum, by simp, fun v => ?_⟩
      have e : t.map (fun x => if x.1 = key then (key, v) else x) = t := by
        nth_rw 2 [← List.map_id t]
        apply List.map_congr_left
        intro y hy
        rw [if_neg]; rfl
        rintro rfl
        exact hnd.1 (List.mem_map.2 ⟨y, hy, rfl⟩)
      simp only [List.map_cons, if_true, List.sum_cons, e]
    · have hx : x.1 ≠ key := by
        rintro rfl
        exact hnd.1 (List.mem_map.2 ⟨_, hm, rfl⟩)
      obtain ⟨rest, h1, h2⟩ := ih hnd.2 hm
      refine ⟨x.2 + rest, ?_, fun v => ?_⟩
      · rw [List.map_cons, List.sum_cons, h1]; abel
      · simp only [List.map_cons, if_neg hx, List.sum_cons]
        rw [h2]; abel

theorem Dict3.get_of_fresh_or (d : Dict3 V) (key : ℕ × ℕ × ℕ) : (∃ r, d.get key = some r) ∨ key ∉ d.map Prod.fst := by
  by_cases h : key ∈ d.map Prod.fst
  · left
    cases hg : d.get key with
    | some r => exact ⟨r, rfl⟩
    | none =>
      unfold Dict3.get at hg
      rw [List.lookup_eq_none_iff] at hg
      obtain ⟨x, hx, rfl⟩ := List.mem_map.1 h
      have := hg x hx
      simp at this
  · exact Or.inr h

theorem HistInv3.job (hK : K.Good G) (hnn : K.nn = false) {S : TriCorr V} (hS : HistInv3 G S) (J : Job3 V) (hJ : J.Good G)
    (ht : J.temp.tot = 0) : HistInv3 G (J.run K S) := by
  have hv : J.val K = J.temp := by
    unfold Job3.val
    split
    · rfl
    · rw [hnn]
      exact Res3.ext rfl ht.symm
  rcases Dict3.get_of_fresh_or S.results J.key with ⟨r, hr⟩ | hfr
  · have hm := (Dict3.get_iff hS.keys _ _).1 hr
    obtain ⟨rg, rt⟩ := hS.good _ hm
    unfold Job3.run
    split
    · unfold Kit3.keep
      simp only [hr]
      have e : (if K.nz r.acc then S.results.set J.key (K.iadd r J.temp) else S.results.set J.key J.temp)
          = S.results.set J.key (r + J.temp) := by
        split
        · rw [hK.iadd_eq _ hJ]
        · rename_i hz
          have : r = 0 := Res3.ext (hK.eq_zero rg hz) rt
          rw [this, zero_add]
      rw [e, hK.iadd_eq _ hJ]
      refine ⟨Dict3.set_keys _ _ _ hS.keys, ?_, ?_⟩
      · intro x hx
        rcases Dict3.set_mem hx with h | rfl
        · exact hS.good x h
        · exact ⟨hK.add rg hJ, by rw [Res3.add_tot, rt, ht, add_zero]⟩
      · obtain ⟨rest, h1, h2⟩ := Dict3.set_sum hS.keys hr
        show S.self + J.temp = _
        rw [h2, hS.sum, h1]
        abel
    · rw [hnn]
      exact hS
  · rw [Job3.run_fresh hK S J hJ hfr, hv]
    refine ⟨?_, ?_, ?_⟩
    · rw [List.map_append, List.nodup_append]
      refine ⟨hS.keys, ?_, ?_⟩
      · have := stored_keys_nodup3 K [J] (by simp)
        simpa using this
      · intro a ha b hb
        obtain ⟨x, hx, rfl⟩ := List.mem_map.1 hb
        rw [Job3.stored_keys K J x hx]
        rintro rfl
        exact hfr ha
    · intro x hx
      rcases List.mem_append.1 hx with h | h
      · exact hS.good x h
      · rw [Job3.stored_keys K J x h, hv]
        exact ⟨hJ, ht⟩
    · show S.self + _ = _
      rw [List.map_append, List.sum_append, Job3.stored_sum hK J hJ, hS.sum, hv]

theorem HistInv3.jobs (hK : K.Good G) (hnn : K.nn = false) (js : List (Job3 V)) (hg : ∀ J ∈ js, J.Good G)
    (ht : ∀ J ∈ js, J.temp.tot = 0) : ∀ {S : TriCorr V}, HistInv3 G S → HistInv3 G (js.foldl (Job3.run K) S) := by
  induction js with
  | nil => intro S h; exact h
  | cons J t ih =>
    intro S h
    exact ih (fun J' h' => hg J' (by simp [h'])) (fun J' h' => ht J' (by simp [h']))
      (h.job hK hnn J (hg J (by simp)) (ht J (by simp)))

theorem job111_temp_tot (hnn : K.nn = false) (c : ℕ × C) : (job111 K c).temp.tot = 0 := by
  simp [job111, Kit3.autoRes, hnn]

theorem job12_temp_tot (hnn : K.nn = false) (force o : Bool) (key gate : ℕ × ℕ × ℕ) (c1 c2 : C) :
    (job12 K force o key gate c1 c2).temp.tot = 0 := by
  simp only [job12]
  split
  · rfl
  · simp [Kit3.cross12Res, hnn]

theorem job123_temp_tot (hnn : K.nn = false) (force : Bool) (O : Ord3) (c1 c2 c3 : ℕ × C) :
    (job123 K force O c1 c2 c3).temp.tot = 0 := by
  simp only [job123]
  split
  · rfl
  · simp [Kit3.crossRes, hnn]

theorem autoJobs3_temp_tot (hnn : K.nn = false) (cats : List (ℕ × C)) : ∀ J ∈ autoJobs3 K cats, J.temp.tot = 0 := by
  intro J hJ
  obtain ⟨c1, _, h1⟩ := List.mem_flatMap.1 hJ
  rcases List.mem_cons.1 h1 with rfl | h1
  · exact job111_temp_tot hnn _
  · obtain ⟨c2, _, h2⟩ := List.mem_flatMap.1 h1
    rcases List.mem_cons.1 h2 with rfl | h2
    · exact job12_temp_tot hnn _ _ _ _ _ _
    rcases List.mem_cons.1 h2 with rfl | h2
    · exact job12_temp_tot hnn _ _ _ _ _ _
    obtain ⟨c3, _, rfl⟩ := List.mem_map.1 h2
    exact job123_temp_tot hnn _ _ _ _ _

theorem cross12Jobs_temp_tot (hnn : K.nn = false) (o : Bool) (n1 n2 : ℕ) (cats1 cats2 : List (ℕ × C)) :
    ∀ J ∈ cross12Jobs K o n1 n2 cats1 cats2, J.temp.tot = 0 := by
  intro J hJ
  obtain ⟨c1, _, h1⟩ := List.mem_flatMap.1 hJ
  obtain ⟨c2, _, h2⟩ := List.mem_flatMap.1 h1
  rcases List.mem_cons.1 h2 with rfl | h2
  · exact job12_temp_tot hnn _ _ _ _ _ _
  · obtain ⟨c3, _, rfl⟩ := List.mem_map.1 h2
    exact job123_temp_tot hnn _ _ _ _ _

theorem cross123Jobs_temp_tot (hnn : K.nn = false) (o : Bool) (n1 n2 n3 : ℕ) (cats1 cats2 cats3 : List (ℕ × C)) :
    ∀ J ∈ cross123Jobs K o n1 n2 n3 cats1 cats2 cats3, J.temp.tot = 0 := by
  intro J hJ
  obtain ⟨c1, _, h1⟩ := List.mem_flatMap.1 hJ
  obtain ⟨c2, _, h2⟩ := List.mem_flatMap.1 h1
  obtain ⟨c3, _, rfl⟩ := List.mem_map.1 h2
  exact job123_temp_tot hnn _ _ _ _ _

theorem HistInv3.call (hK : K.Good G) (hnn : K.nn = false) {S : TriCorr V} (hS : HistInv3 G S) (c : TriCall C) :
    HistInv3 G (c.run K S) := by
  have hi : ∀ init : Bool, HistInv3 G (if init then TriCorr.clear else S) := by
    intro init
    split
    · exact HistInv3.clear
    · exact hS
  cases c with
  | auto init cats =>
    simp only [TriCall.run, Kit3.processAuto]
    rw [allAuto3_eq, serial_filter3]
    exact HistInv3.jobs hK hnn _ (autoJobs3_good hK _) (autoJobs3_temp_tot hnn _) (hi init)
  | cross12 init o cats1 cats2 =>
    simp only [TriCall.run, Kit3.processCross12]
    rw [allCross12_eq, serial_filter3]
    exact HistInv3.jobs hK hnn _ (cross12Jobs_good hK _ _ _ _ _) (cross12Jobs_temp_tot hnn _ _ _ _ _) (hi init)
  | cross init o cats1 cats2 cats3 =>
    simp only [TriCall.run, Kit3.processCross]
    rw [allCross123_eq, serial_filter3]
    exact HistInv3.jobs hK hnn _ (cross123Jobs_good hK _ _ _ _ _ _ _) (cross123Jobs_temp_tot hnn _ _ _ _ _ _ _) (hi init)

/-! ### Only the object itself, whatever `results` holds -/

theorem Job3.run_self (hK : K.Good G) (S : TriCorr V) (J : Job3 V) (hJ : J.Good G) : (J.run K S).self = S.self + J.val K := by
  have h := Job3.run_fresh hK ⟨S.self, []⟩ J hJ (by simp)
  have e : (J.run K S).self = (J.run K ⟨S.self, []⟩).self := by
    unfold Job3.run
    split
    · rfl
    · split <;> rfl
  rw [e, h]

theorem run_jobs_self3 (hK : K.Good G) (js : List (Job3 V)) (hg : ∀ J ∈ js, J.Good G) (S : TriCorr V) :
    (js.foldl (Job3.run K) S).self = S.self + (js.map (Job3.val K)).sum := by
  induction js generalizing S with
  | nil => simp
  | cons J t ih =>
    rw [List.foldl_cons, ih (fun J' h => hg J' (by simp [h])), Job3.run_self hK _ _ (hg J (by simp)), List.map_cons, List.sum_cons,
      add_assoc]

theorem gather_self3 (hK : K.Good G) (Ss : List (TriCorr V)) (S : TriCorr V) (hg : ∀ T ∈ Ss, G T.self.acc) :
    (Ss.foldl (fun S T => ⟨K.iadd S.self T.self, S.results.update T.results⟩) S).self = S.self + (Ss.map TriCorr.self).sum := by
  induction Ss generalizing S with
  | nil => simp
  | cons T t ih =>
    rw [List.foldl_cons, ih _ fun T' h => hg T' (by simp [h]), hK.iadd_eq _ (hg T (by simp)), List.map_cons, List.sum_cons, add_assoc]

theorem gather_jobs_self3 (hK : K.Good G) (L : List (Job3 V)) (hL : ∀ J ∈ L, J.Good G) (mine : ℕ → ℕ → ℕ → ℕ → Prop) (size : ℕ)
    (hs : 0 < size) (hu : ∀ J ∈ L, ∃! r, r < size ∧ mine r J.gate.1 J.gate.2.1 J.gate.2.2) (S : TriCorr V) (hS : G S.self.acc) :
    ∃ R, K.gather ((List.range size).map fun r => (L.filter (jobMine3 (mine r))).foldl (Job3.run K) S) = some R ∧
      R.self = size • S.self + (L.map (Job3.val K)).sum := by
  have hperm := divide_perm L (fun r => jobMine3 (mine r)) size (by
    intro J hJ
    simpa [jobMine3] using hu J hJ)
  have hLf : ∀ r, ∀ J ∈ L.filter (jobMine3 (mine r)), J.Good G := fun r J hJ => hL J (List.mem_filter.1 hJ).1
  set F : ℕ → TriCorr V := fun r => (L.filter (jobMine3 (mine r))).foldl (Job3.run K) S with hF
  have hself : ∀ r, (F r).self = S.self + ((L.filter (jobMine3 (mine r))).map (Job3.val K)).sum :=
    fun r => run_jobs_self3 hK _ (hLf r) _
  have hsum : ∀ rs : List ℕ, ((rs.map F).map TriCorr.self).sum
      = rs.length • S.self + ((rs.flatMap fun r => L.filter (jobMine3 (mine r))).map (Job3.val K)).sum := by
    intro rs
    induction rs with
    | nil => simp
    | cons r t ih =>
      rw [List.map_cons, List.map_cons, List.sum_cons, ih, List.flatMap_cons, List.map_append, List.sum_append, hself,
        List.length_cons, succ_nsmul]
      abel
  have hgood : ∀ T ∈ (List.range size).map F, G T.self.acc := by
    intro T hT
    obtain ⟨r, _, rfl⟩ := List.mem_map.1 hT
    rw [hself, Res3.add_acc]
    refine hK.add hS ?_
    rw [Res3.sum_acc, List.map_map]
    apply hK.sum
    intro A hA
    obtain ⟨J, hJ, rfl⟩ := List.mem_map.1 hA
    show G (J.val K).acc
    rw [Job3.val_acc]
    exact hLf r J hJ
  have htot := hsum (List.range size)
  rw [(hperm.map _).sum_eq, List.length_range] at htot
  obtain ⟨m, rfl⟩ : ∃ m, size = m + 1 := ⟨size - 1, by omega⟩
  rw [List.range_succ_eq_map, List.map_cons] at hgood htot ⊢
  refine ⟨_, rfl, ?_⟩
  rw [gather_self3 hK _ _ fun T hT => hgood T (List.mem_cons_of_mem _ hT)]
  rw [← htot, List.map_cons, List.sum_cons]

end
end TreeCorr
