import Verif.Model.Cov3
import Verif.Proofs.Cov
import Verif.Proofs.Mpi3

/-! Helper lemmas for the covariance estimates of the three-point classes. -/

namespace TreeCorr
open Classical
noncomputable section
variable {V C : Type} [AddCommMonoid V] {K : Kit3 V C} {G : V → Prop}

/-! ### Sums of stored results -/

theorem sumOthers3_eq (hK : K.Good G) (l : List (Res3 V)) (hg : ∀ r ∈ l, G r.acc) (ht : K.nn = false → ∀ r ∈ l, r.tot = 0) :
    K.sumOthers l = l.sum := by
  unfold Kit3.sumOthers
  cases hn : K.nn with
  | false =>
    apply Res3.ext
    · exact (Res3.sum_acc l).symm
    · rw [Res3.sum_tot]
      symm
      apply List.sum_eq_zero
      intro x hx
      obtain ⟨r, hr, rfl⟩ := List.mem_map.1 hx
      exact ht hn r hr
  | true =>
    simp only [if_true]
    apply Res3.ext
    · have e : ((l.filter fun r => decide (K.nz r.acc)).map Res3.acc).sum = l.sum.acc := by
        rw [Res3.sum_acc]
        clear ht
        induction l with
        | nil => rfl
        | cons a t ih =>
          have iht := ih fun r hr => hg r (by simp [hr])
          by_cases h : K.nz a.acc
          · simp [h, iht]
          · have : a.acc = 0 := hK.eq_zero (hg a (by simp)) h
            rw [List.filter_cons_of_neg (by simpa using h), iht]
            simp [this]
      show (if _ then _ else _) = l.sum.acc
      split
      · rename_i h
        rw [h] at e
        exact e
      · exact e
    · exact (Res3.sum_tot l).symm

theorem fetch3_filter (d : Dict3 V) (hnd : (d.map Prod.fst).Nodup) (p : Triple → Bool) :
    fetch3 d ((d.map Prod.fst).filter p) = some ((d.filter fun x => p x.1).map Prod.snd) := by
  have key : ∀ e : Dict3 V, (∀ x ∈ e, x ∈ d) →
      fetch3 d ((e.map Prod.fst).filter p) = some ((e.filter fun x => p x.1).map Prod.snd) := by
    intro e he
    induction e with
    | nil => rfl
    | cons x t ih =>
      have iht := ih fun y hy => he y (by simp [hy])
      by_cases h : p x.1 = true
      · have hg : d.get x.1 = some x.2 := (Dict3.get_iff hnd _ _).2 (he x (by simp))
        unfold fetch3 at iht ⊢
        simp [h, hg, iht]
      · simpa [h] using iht
  exact key d fun x hx => hx

theorem stored_filter3 (p : Triple → Bool) (js : List (Job3 V)) :
    (js.flatMap (Job3.stored K)).filter (fun x => p x.1) = (js.filter fun J => p J.key).flatMap (Job3.stored K) := by
  induction js with
  | nil => rfl
  | cons J t ih =>
    rw [List.flatMap_cons, List.filter_append, ih]
    by_cases h : p J.key = true
    · rw [List.filter_cons_of_pos (by simpa using h), List.flatMap_cons]
      congr 1
      rw [List.filter_eq_self]
      intro x hx
      rw [Job3.stored_keys K J x hx]
      exact h
    · rw [List.filter_cons_of_neg (by simpa using h)]
      have : (J.stored K).filter (fun x => p x.1) = [] := by
        rw [List.filter_eq_nil_iff]
        intro x hx
        rw [Job3.stored_keys K J x hx]
        exact h
      rw [this, List.nil_append]

/-- Only `NNN` results have a `tot`. -/
def Job3.Plain (K : Kit3 V C) (J : Job3 V) : Prop := K.nn = false → J.temp.tot = 0

theorem job111_plain (c : ℕ × C) : (job111 K c).Plain K := by
  intro h; simp [job111, Kit3.autoRes, h]

theorem job12_plain (force o : Bool) (key gate : ℕ × ℕ × ℕ) (c1 c2 : C) : (job12 K force o key gate c1 c2).Plain K := by
  intro h
  simp only [job12]
  split
  · rfl
  · simp [Kit3.cross12Res, h]

theorem job123_plain (force : Bool) (O : Ord3) (c1 c2 c3 : ℕ × C) : (job123 K force O c1 c2 c3).Plain K := by
  intro h
  simp only [job123]
  split
  · rfl
  · simp [Kit3.crossRes, h]

theorem autoJobs3_plain (cats : List (ℕ × C)) : ∀ J ∈ autoJobs3 K cats, J.Plain K := by
  intro J hJ
  obtain ⟨c1, _, h2⟩ := List.mem_flatMap.1 hJ
  rcases List.mem_cons.1 h2 with rfl | h2
  · exact job111_plain _
  · obtain ⟨c2, _, h2⟩ := List.mem_flatMap.1 h2
    rcases List.mem_cons.1 h2 with rfl | h2
    · exact job12_plain (K := K) _ _ _ _ _ _
    · rcases List.mem_cons.1 h2 with rfl | h2
      · exact job12_plain (K := K) _ _ _ _ _ _
      · obtain ⟨c3, _, rfl⟩ := List.mem_map.1 h2
        exact job123_plain (K := K) _ _ _ _ _

theorem cross12Jobs_plain (o : Bool) (n1 n2 : ℕ) (cats1 cats2 : List (ℕ × C)) : ∀ J ∈ cross12Jobs K o n1 n2 cats1 cats2, J.Plain K := by
  intro J hJ
  obtain ⟨c1, _, h2⟩ := List.mem_flatMap.1 hJ
  obtain ⟨c2, _, h2⟩ := List.mem_flatMap.1 h2
  rcases List.mem_cons.1 h2 with rfl | h2
  · exact job12_plain (K := K) _ _ _ _ _ _
  · obtain ⟨c3, _, rfl⟩ := List.mem_map.1 h2
    exact job123_plain (K := K) _ _ _ _ _

theorem cross123Jobs_plain (o : Bool) (n1 n2 n3 : ℕ) (cats1 cats2 cats3 : List (ℕ × C)) :
    ∀ J ∈ cross123Jobs K o n1 n2 n3 cats1 cats2 cats3, J.Plain K := by
  intro J hJ
  obtain ⟨c1, _, h2⟩ := List.mem_flatMap.1 hJ
  obtain ⟨c2, _, h2⟩ := List.mem_flatMap.1 h2
  obtain ⟨c3, _, rfl⟩ := List.mem_map.1 h2
  exact job123_plain (K := K) _ _ _ _ _

/-- The sum over the stored results with a property of their keys is the sum over the jobs with that property. -/
theorem row_sum3 (hK : K.Good G) (js : List (Job3 V)) (hg : ∀ J ∈ js, J.Good G) (hp : ∀ J ∈ js, J.Plain K)
    (hnd : (js.map Job3.key).Nodup) (p : Triple → Bool) :
    ∃ rs, fetch3 (js.flatMap (Job3.stored K)) (((js.flatMap (Job3.stored K)).map Prod.fst).filter p) = some rs ∧
      K.sumOthers rs = ((js.filter fun J => p J.key).map (Job3.val K)).sum := by
  refine ⟨_, fetch3_filter _ (stored_keys_nodup3 K js hnd) p, ?_⟩
  rw [stored_filter3]
  have hg' : ∀ J ∈ js.filter fun J => p J.key, J.Good G := fun J hJ => hg J (List.mem_filter.1 hJ).1
  rw [sumOthers3_eq hK, stored_total3 hK _ hg']
  · intro r hr
    obtain ⟨x, hx, rfl⟩ := List.mem_map.1 hr
    obtain ⟨J, hJ, hx⟩ := List.mem_flatMap.1 hx
    rw [Job3.stored_keys K J x hx, Job3.val_acc]
    exact hg' J hJ
  · intro hn r hr
    obtain ⟨x, hx, rfl⟩ := List.mem_map.1 hr
    obtain ⟨J, hJ, hx⟩ := List.mem_flatMap.1 hx
    rw [Job3.stored_keys K J x hx]
    unfold Job3.val
    split
    · exact hp J (List.mem_filter.1 hJ).1 hn
    · simp [hn]

/-! ### Jobs without a patch -/

/-- Filtering the body of a loop whose jobs carry the loop variable. -/
theorem flatMap_filter_loop {α β : Type} (l : List α) (f g : α → List β) (p : α → Bool) (q : β → Bool)
    (h1 : ∀ a ∈ l, p a = true → (f a).filter q = g a) (h2 : ∀ a ∈ l, p a = false → (f a).filter q = []) :
    (l.flatMap f).filter q = (l.filter p).flatMap g := by
  induction l with
  | nil => rfl
  | cons a t ih =>
    rw [List.flatMap_cons, List.filter_append, ih (fun b hb => h1 b (by simp [hb])) (fun b hb => h2 b (by simp [hb]))]
    cases ha : p a with
    | true => rw [List.filter_cons_of_pos ha, List.flatMap_cons, h1 a (by simp) ha]
    | false => rw [List.filter_cons_of_neg (by simp [ha]), h2 a (by simp) ha, List.nil_append]

theorem map_filter_loop {α β : Type} (l : List α) (f : α → β) (p : α → Bool) (q : β → Bool) (h : ∀ a ∈ l, q (f a) = p a) :
    (l.map f).filter q = (l.filter p).map f := by
  rw [List.filter_map]
  congr 1
  exact List.filter_congr h

theorem filter_comm' {α : Type} (l : List α) (p q : α → Bool) : (l.filter p).filter q = (l.filter q).filter p := by
  rw [List.filter_filter, List.filter_filter]
  congr 1
  funext a
  rw [Bool.and_comm]

theorem autoJobs3_filter (cats : List (ℕ × C)) (q : ℕ → Bool) :
    (autoJobs3 K cats).filter (fun J => q J.key.1 && (q J.key.2.1 && q J.key.2.2))
      = autoJobs3 K (cats.filter fun c => q c.1) := by
  unfold autoJobs3
  apply flatMap_filter_loop
  · intro c1 _ h1
    unfold autoRowJobs3
    rw [List.filter_cons_of_pos (by simp [job111, h1])]
    congr 1
    rw [← List.filter_reverse, filter_comm']
    apply flatMap_filter_loop
    · intro c2 _ h2
      unfold autoPairJobs3
      rw [List.filter_cons_of_pos (by simp [job12, h1, h2]), List.filter_cons_of_pos (by simp [job12, h1, h2])]
      congr 2
      rw [filter_comm']
      apply map_filter_loop
      intro c3 _
      simp [job123, h1, h2]
    · intro c2 _ h2
      rw [List.filter_eq_nil_iff]
      intro J hJ
      rcases List.mem_cons.1 hJ with rfl | hJ
      · simp [job12, h2]
      · rcases List.mem_cons.1 hJ with rfl | hJ
        · simp [job12, h2]
        · obtain ⟨c3, _, rfl⟩ := List.mem_map.1 hJ
          simp [job123, h2]
  · intro c1 _ h1
    rw [List.filter_eq_nil_iff]
    intro J hJ
    rcases List.mem_cons.1 hJ with rfl | hJ
    · simp [job111, h1]
    · obtain ⟨c2, _, hJ⟩ := List.mem_flatMap.1 hJ
      rcases List.mem_cons.1 hJ with rfl | hJ
      · simp [job12, h1]
      · rcases List.mem_cons.1 hJ with rfl | hJ
        · simp [job12, h1]
        · obtain ⟨c3, _, rfl⟩ := List.mem_map.1 hJ
          simp [job123, h1]

theorem cross12Jobs_filter (o : Bool) (n1 n2 : ℕ) (cats1 cats2 : List (ℕ × C)) (p q : ℕ → Bool) :
    (cross12Jobs K o n1 n2 cats1 cats2).filter (fun J => p J.key.1 && (q J.key.2.1 && q J.key.2.2))
      = cross12Jobs K o n1 n2 (cats1.filter fun c => p c.1) (cats2.filter fun c => q c.1) := by
  unfold cross12Jobs
  apply flatMap_filter_loop
  · intro c1 _ h1
    apply flatMap_filter_loop
    · intro c2 _ h2
      unfold cross12Row
      rw [List.filter_cons_of_pos (by simp [job12, h1, h2])]
      congr 1
      rw [← List.filter_reverse, filter_comm']
      apply map_filter_loop
      intro c3 _
      simp [job123, h1, h2]
    · intro c2 _ h2
      rw [List.filter_eq_nil_iff]
      intro J hJ
      rcases List.mem_cons.1 hJ with rfl | hJ
      · simp [job12, h2]
      · obtain ⟨c3, _, rfl⟩ := List.mem_map.1 hJ
        simp [job123, h2]
  · intro c1 _ h1
    rw [List.filter_eq_nil_iff]
    intro J hJ
    obtain ⟨c2, _, hJ⟩ := List.mem_flatMap.1 hJ
    rcases List.mem_cons.1 hJ with rfl | hJ
    · simp [job12, h1]
    · obtain ⟨c3, _, rfl⟩ := List.mem_map.1 hJ
      simp [job123, h1]

theorem cross123Jobs_filter (o : Bool) (n1 n2 n3 : ℕ) (cats1 cats2 cats3 : List (ℕ × C)) (p q r : ℕ → Bool) :
    (cross123Jobs K o n1 n2 n3 cats1 cats2 cats3).filter (fun J => p J.key.1 && (q J.key.2.1 && r J.key.2.2))
      = cross123Jobs K o n1 n2 n3 (cats1.filter fun c => p c.1) (cats2.filter fun c => q c.1) (cats3.filter fun c => r c.1) := by
  unfold cross123Jobs
  apply flatMap_filter_loop
  · intro c1 _ h1
    apply flatMap_filter_loop
    · intro c2 _ h2
      apply map_filter_loop
      intro c3 _
      simp [job123, h1, h2]
    · intro c2 _ h2
      rw [List.filter_eq_nil_iff]
      intro J hJ
      obtain ⟨c3, _, rfl⟩ := List.mem_map.1 hJ
      simp [job123, h2]
  · intro c1 _ h1
    rw [List.filter_eq_nil_iff]
    intro J hJ
    obtain ⟨c2, _, hJ⟩ := List.mem_flatMap.1 hJ
    obtain ⟨c3, _, rfl⟩ := List.mem_map.1 hJ
    simp [job123, h1]

/-! ### Multiplicities -/

theorem count_map_filter {α β : Type} [BEq α] [LawfulBEq α] [BEq β] [LawfulBEq β] (l : List α) (f : α → β) (p : β → Bool) (b : β) :
    ((l.map f).filter p).count b = if p b = true then (l.map f).count b else 0 := by
  by_cases h : p b = true
  · rw [if_pos h, List.count_filter h]
  · rw [if_neg h, List.count_eq_zero]
    intro hm
    exact h (List.mem_filter.1 hm).2

/-- How often a triple `f i j` with `i ≠ j` occurs in the double loop. -/
theorem count_offDiagonal (keys : List Triple) (index : List ℕ) (f : ℕ → ℕ → Triple) (t : Triple) (n : ℕ)
    (h : (∃ i j, i ≠ j ∧ t = f i j ∧ (∀ i' j', f i' j' = t → i' = i ∧ j' = j) ∧ n = index.count i * index.count j) ∨
      ((∀ i j, i ≠ j → f i j ≠ t) ∧ n = 0)) :
    (offDiagonal keys index f).count t = if t ∈ keys then n else 0 := by
  rcases h with ⟨i, j, hij, rfl, hu, rfl⟩ | ⟨hne, rfl⟩
  · have row : ∀ (a : ℕ) (l : List ℕ),
        ((l.filter fun j => okTriple keys (f a j) && decide (a ≠ j)).map fun j => f a j).count (f i j)
          = if a = i ∧ f i j ∈ keys then l.count j else 0 := by
      intro a l
      induction l with
      | nil => simp
      | cons b t ih =>
        by_cases hb : (okTriple keys (f a b) && decide (a ≠ b)) = true
        · rw [List.filter_cons_of_pos (by simpa using hb), List.map_cons, List.count_cons, ih, List.count_cons]
          by_cases hf : f a b = f i j
          · obtain ⟨rfl, rfl⟩ := hu a b hf
            have : f a b ∈ keys := by simpa [okTriple] using (Bool.and_eq_true_iff.1 hb).1
            simp [this]
          · have : ¬ (a = i ∧ b = j) := by rintro ⟨rfl, rfl⟩; exact hf rfl
            by_cases ha : a = i
            · have : b ≠ j := fun h => this ⟨ha, h⟩
              simp [hf, this]
            · simp [hf, ha]
        · rw [List.filter_cons_of_neg (by simpa using hb), ih, List.count_cons]
          by_cases h1 : a = i ∧ f i j ∈ keys
          · have : b ≠ j := by
              rintro rfl
              obtain ⟨rfl, h1⟩ := h1
              exact hb (by simp [okTriple, h1, hij])
            simp [h1, this]
          · simp [h1]
    unfold offDiagonal
    have : ∀ l : List ℕ, (l.flatMap fun i => (index.filter fun j => okTriple keys (f i j) && decide (i ≠ j)).map fun j => f i j).count
        (f i j) = if f i j ∈ keys then l.count i * index.count j else 0 := by
      intro l
      induction l with
      | nil => simp
      | cons a t ih =>
        rw [List.flatMap_cons, List.count_append, ih, row, List.count_cons]
        by_cases hk : f i j ∈ keys
        · by_cases ha : a = i
          · simp [hk, ha]; ring
          · simp [hk, ha]
        · simp [hk]
    exact this index
  · rw [ite_self, List.count_eq_zero]
    intro hm
    obtain ⟨i, _, hm⟩ := List.mem_flatMap.1 hm
    obtain ⟨j, hj, rfl⟩ := List.mem_map.1 hm
    have := (Bool.and_eq_true_iff.1 (List.mem_filter.1 hj).2).2
    exact hne i j (by simpa using this) rfl

/-! ### Sums with multiplicities -/

theorem sum_pick (d : Dict3 V) (hnd : (d.map Prod.fst).Nodup) (t : Triple) (v : Res3 V) (h : (t, v) ∈ d) :
    (d.map fun x => if x.1 = t then x.2 else 0).sum = v := by
  induction d with
  | nil => cases h
  | cons x d ih =>
    simp only [List.map_cons, List.nodup_cons] at hnd
    rw [List.map_cons, List.sum_cons]
    rcases List.mem_cons.1 h with rfl | h
    · have : (d.map fun x => if x.1 = t then x.2 else 0).sum = 0 := by
        apply List.sum_eq_zero
        intro r hr
        obtain ⟨y, hy, rfl⟩ := List.mem_map.1 hr
        rw [if_neg]
        rintro rfl
        exact hnd.1 (List.mem_map.2 ⟨y, hy, rfl⟩)
      rw [this, if_pos rfl, add_zero]
    · have : x.1 ≠ t := by
        rintro rfl
        exact hnd.1 (List.mem_map.2 ⟨_, h, rfl⟩)
      rw [if_neg this, ih hnd.2 h, zero_add]

/-- The results fetched for a list of triples add up to each stored result times its multiplicity in the list. -/
theorem fetch3_weighted (d : Dict3 V) (hnd : (d.map Prod.fst).Nodup) (l : List Triple) (hl : ∀ t ∈ l, t ∈ d.map Prod.fst) :
    ∃ rs, fetch3 d l = some rs ∧ (∀ r ∈ rs, r ∈ d.map Prod.snd) ∧ rs.sum = (d.map fun x => l.count x.1 • x.2).sum := by
  induction l with
  | nil => exact ⟨[], rfl, by simp, by simp⟩
  | cons t l ih =>
    obtain ⟨rs, h1, h2, h3⟩ := ih fun u hu => hl u (by simp [hu])
    obtain ⟨x, hx, rfl⟩ := List.mem_map.1 (hl t (by simp))
    have hg : d.get x.1 = some x.2 := (Dict3.get_iff hnd _ _).2 hx
    refine ⟨x.2 :: rs, ?_, ?_, ?_⟩
    · unfold fetch3 at h1 ⊢
      simp [hg, h1]
    · intro r hr
      rcases List.mem_cons.1 hr with rfl | hr
      · exact List.mem_map_of_mem hx
      · exact h2 r hr
    · rw [List.sum_cons, h3]
      have e : (d.map fun y => (x.1 :: l).count y.1 • y.2) = d.map fun y => (if y.1 = x.1 then y.2 else 0) + l.count y.1 • y.2 := by
        apply List.map_congr_left
        intro y _
        rw [List.count_cons, add_smul, add_comm]
        congr 1
        by_cases h : y.1 = x.1
        · simp [h]
        · simp [h, Ne.symm h]
      rw [e, List.sum_map_add, sum_pick d hnd x.1 x.2 hx]

end
end TreeCorr
