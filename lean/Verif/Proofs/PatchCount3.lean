import Verif.Proofs.Mpi3
import Verif.Proofs.Sums3
import Verif.Proofs.Trivial

/-! Triangle sums of a catalogue divided into patches. -/

namespace TreeCorr
open Classical
noncomputable section
variable {V C α : Type}

/-! ### The triples of a divided catalogue -/

/-- Sums over patches, pairs and triples of patches with increasing numbers. -/
def rows3 {M : Type} [AddCommMonoid M] (l : List (ℕ × C)) (f : ℕ × C → M) (g : ℕ × C → ℕ × C → M)
    (h : ℕ × C → ℕ × C → ℕ × C → M) : M :=
  (l.map fun c1 => f c1 + ((l.filter fun c2 => c1.1 < c2.1).map fun c2 =>
    g c1 c2 + ((l.filter fun c3 => c2.1 < c3.1).map fun c3 => h c1 c2 c3).sum).sum).sum

theorem rows3_perm {M : Type} [AddCommMonoid M] {a b : List (ℕ × C)} (hp : a.Perm b) (f : ℕ × C → M) (g : ℕ × C → ℕ × C → M)
    (h : ℕ × C → ℕ × C → ℕ × C → M) : rows3 a f g h = rows3 b f g h := by
  unfold rows3
  have e3 : ∀ c1 c2 : ℕ × C, ((a.filter fun c3 => c2.1 < c3.1).map fun c3 => h c1 c2 c3).sum
      = ((b.filter fun c3 => c2.1 < c3.1).map fun c3 => h c1 c2 c3).sum := fun c1 c2 => ((hp.filter _).map _).sum_eq
  simp only [e3]
  exact rows_perm hp f fun c1 c2 => g c1 c2 + ((b.filter fun c3 => c2.1 < c3.1).map fun c3 => h c1 c2 c3).sum

theorem filter_sorted {c : ℕ × C} {t : List (ℕ × C)} (h : (c :: t).Pairwise (fun x y => x.1 < y.1)) :
    (c :: t).filter (fun c2 => decide (c.1 < c2.1)) = t := by
  rw [List.pairwise_cons] at h
  rw [List.filter_cons_of_neg (by simp), List.filter_eq_self]
  intro x hx
  simpa using h.1 x hx

theorem filter_sorted_tail {c : ℕ × C} {t : List (ℕ × C)} (h : (c :: t).Pairwise (fun x y => x.1 < y.1)) {c1 : ℕ × C} (h1 : c1 ∈ t) :
    (c :: t).filter (fun c2 => decide (c1.1 < c2.1)) = t.filter (fun c2 => decide (c1.1 < c2.1)) := by
  rw [List.pairwise_cons] at h
  rw [List.filter_cons_of_neg]
  simpa using (h.1 c1 h1).le

theorem rows3_cons {M : Type} [AddCommMonoid M] {c : ℕ × C} {t : List (ℕ × C)} (hs : (c :: t).Pairwise (fun x y => x.1 < y.1))
    (f : ℕ × C → M) (g : ℕ × C → ℕ × C → M) (h : ℕ × C → ℕ × C → ℕ × C → M) :
    rows3 (c :: t) f g h = f c + (t.map fun c2 => g c c2 + ((t.filter fun c3 => c2.1 < c3.1).map fun c3 => h c c2 c3).sum).sum +
      rows3 t f g h := by
  unfold rows3
  rw [List.map_cons, List.sum_cons, filter_sorted hs]
  congr 1
  · congr 2
    apply List.map_congr_left
    intro c2 h2
    rw [filter_sorted_tail hs h2]
  · congr 1
    apply List.map_congr_left
    intro c1 h1
    rw [filter_sorted_tail hs h1]
    congr 2
    apply List.map_congr_left
    intro c2 h2
    rw [filter_sorted_tail hs (List.mem_filter.1 h2).1]

theorem from111_flatMap1 (O : Ord3) (cs : List (ℕ × List α)) (b c : List α) :
    from111 O (cs.flatMap Prod.snd) b c = (cs.map fun x => from111 O x.2 b c).sum := by
  induction cs with
  | nil => simp [from111]
  | cons x t ih => rw [List.flatMap_cons, from111_append1, ih, List.map_cons, List.sum_cons]

theorem from111_flatMap2 (O : Ord3) (a : List α) (cs : List (ℕ × List α)) (c : List α) :
    from111 O a (cs.flatMap Prod.snd) c = (cs.map fun x => from111 O a x.2 c).sum := by
  induction cs with
  | nil => simp [from111]
  | cons x t ih => rw [List.flatMap_cons, from111_append2, ih, List.map_cons, List.sum_cons]

theorem from111_flatMap3 (O : Ord3) (a b : List α) (cs : List (ℕ × List α)) :
    from111 O a b (cs.flatMap Prod.snd) = (cs.map fun x => from111 O a b x.2).sum := by
  induction cs with
  | nil => simp [from111]
  | cons x t ih => rw [List.flatMap_cons, from111_append3, ih, List.map_cons, List.sum_cons]

theorem from12_flatMap1 (O : Ord3) (cs : List (ℕ × List α)) (b : List α) :
    from12 O (cs.flatMap Prod.snd) b = (cs.map fun x => from12 O x.2 b).sum := by
  induction cs with
  | nil => simp [from12]
  | cons x t ih => rw [List.flatMap_cons, from12_append1, ih, List.map_cons, List.sum_cons]

/-- One row from `a`, two from a catalogue in patches. -/
theorem from12_flatMap2_sorted (O : Ord3) (a : List α) (l : List (ℕ × List α)) (hs : l.Pairwise (fun x y => x.1 < y.1)) :
    from12 O a (l.flatMap Prod.snd) = (l.map fun c2 => from12 O a c2.2 +
      ((l.filter fun c3 => c2.1 < c3.1).map fun c3 => from111 O a c2.2 c3.2).sum).sum := by
  induction l with
  | nil => simp [from12, autoPairs]
  | cons c t ih =>
    rw [List.flatMap_cons, from12_append2, ih (List.pairwise_cons.1 hs).2, List.map_cons, List.sum_cons, filter_sorted hs,
      from111_flatMap3]
    have e : (t.map fun c2 => from12 O a c2.2 + (((c :: t).filter fun c3 => c2.1 < c3.1).map fun c3 => from111 O a c2.2 c3.2).sum)
        = t.map fun c2 => from12 O a c2.2 + ((t.filter fun c3 => c2.1 < c3.1).map fun c3 => from111 O a c2.2 c3.2).sum := by
      apply List.map_congr_left
      intro c2 h2
      rw [filter_sorted_tail hs h2]
    rw [e]
    abel

theorem from12_flatMap2 {O : Ord3} (hO : O ≠ .fixed) (a : List α) (l : List (ℕ × List α)) (hid : (l.map Prod.fst).Nodup) :
    from12 O a (l.flatMap Prod.snd) = (l.map fun c2 => from12 O a c2.2 +
      ((l.filter fun c3 => c2.1 < c3.1).map fun c3 => from111 O a c2.2 c3.2).sum).sum := by
  obtain ⟨l', hl, hs⟩ := exists_sorted l hid
  rw [from12_perm hO (List.Perm.refl a) (hl.flatMap_right Prod.snd), from12_flatMap2_sorted O a l' hs]
  exact (rows_perm hl (fun c2 => from12 O a c2.2) fun c2 c3 => from111 O a c2.2 c3.2).symm

theorem sum_map_add' {M ι : Type} [AddCommMonoid M] (l : List ι) (f g : ι → M) :
    (l.map fun x => f x + g x).sum = (l.map f).sum + (l.map g).sum := by
  induction l with
  | nil => simp
  | cons a t ih =>
    simp only [List.map_cons, List.sum_cons, ih]
    abel

/-- The triples of distinct rows of a catalogue in patches. -/
theorem orderedTriples_flatMap (l : List (ℕ × List α)) (hid : (l.map Prod.fst).Nodup) :
    orderedTriples (l.flatMap Prod.snd) = rows3 l (fun c => orderedTriples c.2)
      (fun c1 c2 => from12 .any c1.2 c2.2 + from12 .any c2.2 c1.2) (fun c1 c2 c3 => from111 .any c1.2 c2.2 c3.2) := by
  obtain ⟨l', hl, hs⟩ := exists_sorted l hid
  rw [orderedTriples_perm (hl.flatMap_right Prod.snd), rows3_perm hl]
  clear hl hid
  induction l' with
  | nil => rfl
  | cons c t ih =>
    rw [rows3_cons hs, List.flatMap_cons, autoTriples_append_bind, ih (List.pairwise_cons.1 hs).2,
      from12_flatMap2_sorted _ _ _ (List.pairwise_cons.1 hs).2, from12_flatMap1]
    rw [sum_map_add', sum_map_add', sum_map_add']
    abel

/-! ### Sums of jobs -/

variable [AddCommMonoid V] {K : Kit3 V C} {G : V → Prop}

theorem sum_flatMap_list {ι κ : Type} {M : Type} [AddCommMonoid M] (l : List ι) (f : ι → List κ) (g : κ → M) :
    ((l.flatMap f).map g).sum = (l.map fun x => ((f x).map g).sum).sum := by
  induction l with
  | nil => rfl
  | cons a t ih => rw [List.flatMap_cons, List.map_append, List.sum_append, ih, List.map_cons, List.sum_cons]

theorem sum_reverse_filter {M : Type} [AddCommMonoid M] (l : List (ℕ × C)) (p : ℕ × C → Bool) (f : ℕ × C → M) :
    ((l.reverse.filter p).map f).sum = ((l.filter p).map f).sum :=
  (((l.reverse_perm).filter p).map f).sum_eq

theorem autoJobs3_sum {M : Type} [AddCommMonoid M] (φ : Job3 V → M) (cats : List (ℕ × C)) :
    ((autoJobs3 K cats).map φ).sum = rows3 cats (fun c => φ (job111 K c))
      (fun c1 c2 => φ (job12 K false false (c1.1, c2.1, c2.1) (c1.1, c2.1, c2.1) c1.2 c2.2) +
        φ (job12 K false false (c1.1, c1.1, c2.1) (c1.1, c2.1, c2.1) c2.2 c1.2))
      (fun c1 c2 c3 => φ (job123 K false .any c1 c2 c3)) := by
  unfold autoJobs3 rows3
  rw [sum_flatMap_list]
  congr 1
  apply List.map_congr_left
  intro c1 _
  unfold autoRowJobs3
  rw [List.map_cons, List.sum_cons, sum_flatMap_list, sum_reverse_filter]
  congr 2
  apply List.map_congr_left
  intro c2 _
  unfold autoPairJobs3
  rw [List.map_cons, List.map_cons, List.sum_cons, List.sum_cons, List.map_map, ← add_assoc]
  rfl

theorem cross12Jobs_sum {M : Type} [AddCommMonoid M] (φ : Job3 V → M) (o : Bool) (n1 n2 : ℕ) (cats1 cats2 : List (ℕ × C)) :
    ((cross12Jobs K o n1 n2 cats1 cats2).map φ).sum = (cats1.map fun c1 => (cats2.map fun c2 =>
      φ (job12 K (decide (c1.1 = c2.1) || decide (n1 = 1) || decide (n2 = 1)) o (c1.1, c2.1, c2.1) (c1.1, c2.1, c2.1) c1.2 c2.2) +
      ((cats2.filter fun c3 => c2.1 < c3.1).map fun c3 => φ (job123 K false (ord12 o) c1 c2 c3)).sum).sum).sum := by
  unfold cross12Jobs
  rw [sum_flatMap_list]
  congr 1
  apply List.map_congr_left
  intro c1 _
  rw [sum_flatMap_list]
  congr 1
  apply List.map_congr_left
  intro c2 _
  unfold cross12Row
  rw [List.map_cons, List.sum_cons, List.map_map, sum_reverse_filter]
  rfl

theorem cross123Jobs_sum {M : Type} [AddCommMonoid M] (φ : Job3 V → M) (o : Bool) (n1 n2 n3 : ℕ) (cats1 cats2 cats3 : List (ℕ × C)) :
    ((cross123Jobs K o n1 n2 n3 cats1 cats2 cats3).map φ).sum = (cats1.map fun c1 => (cats2.map fun c2 => (cats3.map fun c3 =>
      φ (job123 K ((decide (c1.1 = c2.1) && decide (c2.1 = c3.1)) || decide (n1 = 1) || decide (n2 = 1) || decide (n3 = 1)) (ord123 o)
      c1 c2 c3)).sum).sum).sum := by
  unfold cross123Jobs
  rw [sum_flatMap_list]
  congr 1
  apply List.map_congr_left
  intro c1 _
  rw [sum_flatMap_list]
  congr 1
  apply List.map_congr_left
  intro c2 _
  rw [List.map_map]
  rfl

/-! ### From patches to the whole -/

/-- What arrays are said to hold adds up. -/
structure AddRel {T : Type} (R : V → Multiset T → Prop) : Prop where
  zero : R 0 0
  add : ∀ {a b m n}, R a m → R b n → R (a + b) (m + n)

theorem AddRel.sum {T ι : Type} {R : V → Multiset T → Prop} (h : AddRel R) {l : List ι} {f : ι → V} {m : ι → Multiset T}
    (hx : ∀ x ∈ l, R (f x) (m x)) : R (l.map f).sum (l.map m).sum := by
  induction l with
  | nil => exact h.zero
  | cons a t ih =>
    simp only [List.map_cons, List.sum_cons]
    exact h.add (hx a (by simp)) (ih fun x hx' => hx x (by simp [hx']))

theorem jobs_acc (L : List (Job3 V)) : (L.map (Job3.val K)).sum.acc = (L.map fun J => J.temp.acc).sum := by
  rw [Res3.sum_acc, List.map_map]
  congr 1
  apply List.map_congr_left
  intro J _
  exact Job3.val_acc K J

theorem patched_auto_rel {K : Kit3 V (List α)} (hK : K.Good G) {R : V → Multiset (α × α × α) → Prop} (hR : AddRel R)
    {cats : List (ℕ × List α)} (hid : (cats.map Prod.fst).Nodup) (S : TriCorr V)
    (ha : ∀ c ∈ cats, R (K.auto c.2) (orderedTriples c.2))
    (h12 : ∀ c1 ∈ cats, ∀ c2 ∈ cats, c1.1 ≠ c2.1 → R (if K.triv c1.2 c2.2 c2.2 then 0 else K.cross12 false c1.2 c2.2)
      (from12 .any c1.2 c2.2))
    (h123 : ∀ c1 ∈ cats, ∀ c2 ∈ cats, ∀ c3 ∈ cats, c1.1 < c2.1 → c2.1 < c3.1 →
      R (if K.triv c1.2 c2.2 c3.2 then 0 else K.cross .any c1.2 c2.2 c3.2) (from111 .any c1.2 c2.2 c3.2)) :
    R (K.processAuto true cats S).self.acc (orderedTriples (cats.flatMap Prod.snd)) := by
  rw [processAuto3_jobs hK hid, orderedTriples_flatMap _ hid]
  show R ((autoJobs3 K cats).map (Job3.val K)).sum.acc _
  rw [jobs_acc, autoJobs3_sum]
  have e12 : ∀ o c1 c2 k g, (job12 K false o k g c1 c2).temp.acc = if K.triv c1 c2 c2 then 0 else K.cross12 o c1 c2 := by
    intro o c1 c2 k g
    simp only [job12]
    split <;> rfl
  have e123 : ∀ O c1 c2 c3, (job123 K false O c1 c2 c3).temp.acc
      = if K.triv c1.2 c2.2 c3.2 then 0 else K.cross O c1.2 c2.2 c3.2 := by
    intro O c1 c2 c3
    simp only [job123]
    split <;> rfl
  unfold rows3
  refine hR.sum fun c1 h1 => hR.add (ha c1 h1) (hR.sum fun c2 h2 => hR.add ?_ (hR.sum fun c3 h3 => ?_))
  · simp only [List.mem_filter, decide_eq_true_eq] at h2
    show R ((job12 K false false _ _ c1.2 c2.2).temp.acc + (job12 K false false _ _ c2.2 c1.2).temp.acc) _
    rw [e12, e12]
    exact hR.add (h12 c1 h1 c2 h2.1 h2.2.ne) (h12 c2 h2.1 c1 h1 h2.2.ne')
  · simp only [List.mem_filter, decide_eq_true_eq] at h2 h3
    show R (job123 K false .any c1 c2 c3).temp.acc _
    rw [e123]
    exact h123 c1 h1 c2 h2.1 c3 h3.1 h2.2 h3.2

theorem patched_cross12_rel {K : Kit3 V (List α)} (hK : K.Good G) {R : V → Multiset (α × α × α) → Prop} (hR : AddRel R) (o : Bool)
    {cats1 cats2 : List (ℕ × List α)} (hid1 : (cats1.map Prod.fst).Nodup) (hid2 : (cats2.map Prod.fst).Nodup) (S : TriCorr V)
    (h12 : ∀ c1 ∈ cats1, ∀ c2 ∈ cats2, R (if K.triv c1.2 c2.2 c2.2 then 0 else K.cross12 o c1.2 c2.2) (from12 (ord12 o) c1.2 c2.2))
    (h123 : ∀ c1 ∈ cats1, ∀ c2 ∈ cats2, ∀ c3 ∈ cats2, c2.1 < c3.1 →
      R (if K.triv c1.2 c2.2 c3.2 then 0 else K.cross (ord12 o) c1.2 c2.2 c3.2) (from111 (ord12 o) c1.2 c2.2 c3.2)) :
    R (K.processCross12 true o cats1 cats2 S).self.acc (from12 (ord12 o) (cats1.flatMap Prod.snd) (cats2.flatMap Prod.snd)) := by
  have hO : ord12 o ≠ .fixed := by cases o <;> simp [ord12]
  rw [processCross12_jobs hK o hid1 hid2, from12_flatMap1]
  show R ((cross12Jobs K o _ _ cats1 cats2).map (Job3.val K)).sum.acc _
  rw [jobs_acc, cross12Jobs_sum]
  refine hR.sum fun c1 h1 => ?_
  rw [from12_flatMap2 hO _ _ hid2]
  refine hR.sum fun c2 h2 => hR.add ?_ (hR.sum fun c3 h3 => ?_)
  · have := h12 c1 h1 c2 h2
    simp only [job12]
    split <;> rename_i h <;> simp only [h, if_true, if_false] at this <;> exact this
  · simp only [List.mem_filter, decide_eq_true_eq] at h3
    have := h123 c1 h1 c2 h2 c3 h3.1 h3.2
    simp only [job123]
    split <;> rename_i h <;> simp only [h, if_true, if_false] at this <;> exact this

theorem patched_cross_rel {K : Kit3 V (List α)} (hK : K.Good G) {R : V → Multiset (α × α × α) → Prop} (hR : AddRel R) (o : Bool)
    {cats1 cats2 cats3 : List (ℕ × List α)} (hid1 : (cats1.map Prod.fst).Nodup) (hid2 : (cats2.map Prod.fst).Nodup)
    (hid3 : (cats3.map Prod.fst).Nodup) (S : TriCorr V)
    (h123 : ∀ c1 ∈ cats1, ∀ c2 ∈ cats2, ∀ c3 ∈ cats3,
      R (if K.triv c1.2 c2.2 c3.2 then 0 else K.cross (ord123 o) c1.2 c2.2 c3.2) (from111 (ord123 o) c1.2 c2.2 c3.2)) :
    R (K.processCross true o cats1 cats2 cats3 S).self.acc
      (from111 (ord123 o) (cats1.flatMap Prod.snd) (cats2.flatMap Prod.snd) (cats3.flatMap Prod.snd)) := by
  rw [processCross123_jobs hK o hid1 hid2 hid3, from111_flatMap1]
  show R ((cross123Jobs K o _ _ _ cats1 cats2 cats3).map (Job3.val K)).sum.acc _
  rw [jobs_acc, cross123Jobs_sum]
  refine hR.sum fun c1 h1 => ?_
  rw [from111_flatMap2]
  refine hR.sum fun c2 h2 => ?_
  rw [from111_flatMap3]
  refine hR.sum fun c3 h3 => ?_
  have := h123 c1 h1 c2 h2 c3 h3
  simp only [job123]
  split <;> rename_i h <;> simp only [h, if_true, if_false] at this <;> exact this

/-! ### Triangle arrays -/

@[ext] theorem Acc3.ext {A B : Acc3} (h1 : A.ntri = B.ntri) (h2 : A.weight = B.weight) (h3 : A.zeta = B.zeta)
    (h4 : A.meand1 = B.meand1) (h5 : A.meanlogd1 = B.meanlogd1) (h6 : A.meand2 = B.meand2) (h7 : A.meanlogd2 = B.meanlogd2)
    (h8 : A.meand3 = B.meand3) (h9 : A.meanlogd3 = B.meanlogd3) (h10 : A.meanu = B.meanu) (h11 : A.meanv = B.meanv) : A = B := by
  cases A; cases B; simp_all

instance : AddCommMonoid Acc3 where
  add_assoc := by intro a b c; ext k <;> exact _root_.add_assoc _ _ _
  add_comm := by intro a b; ext k <;> exact _root_.add_comm _ _
  zero_add := by intro a; ext k <;> exact _root_.zero_add _
  add_zero := by intro a; ext k <;> exact _root_.add_zero _
  nsmul := nsmulRec

/-- Arrays as triangle counting leaves them: no negative counts, and nothing in bins without triangles. -/
def Acc3.Good (A : Acc3) : Prop := ∀ k, 0 ≤ A.ntri k ∧
  (A.ntri k = 0 → A.weight k = 0 ∧ A.zeta k = 0 ∧ A.meand1 k = 0 ∧ A.meanlogd1 k = 0 ∧ A.meand2 k = 0 ∧ A.meanlogd2 k = 0 ∧
    A.meand3 k = 0 ∧ A.meanlogd3 k = 0 ∧ A.meanu k = 0 ∧ A.meanv k = 0)

theorem Acc3.Good.zero : (0 : Acc3).Good := fun _ => ⟨le_refl (0 : ℝ), fun _ => ⟨rfl, rfl, rfl, rfl, rfl, rfl, rfl, rfl, rfl, rfl⟩⟩

theorem add_zero_zero {a b : ℝ} (ha : a = 0) (hb : b = 0) : a + b = 0 := by rw [ha, hb, add_zero]

theorem Acc3.Good.add {A B : Acc3} (hA : A.Good) (hB : B.Good) : (A + B).Good := by
  intro k
  obtain ⟨a0, a1⟩ := hA k
  obtain ⟨b0, b1⟩ := hB k
  refine ⟨add_nonneg a0 b0, fun h => ?_⟩
  have h' : A.ntri k + B.ntri k = 0 := h
  obtain ⟨a2, a3, a4, a5, a6, a7, a8, a9, a10, a11⟩ := a1 (by linarith)
  obtain ⟨b2, b3, b4, b5, b6, b7, b8, b9, b10, b11⟩ := b1 (by linarith)
  exact ⟨add_zero_zero a2 b2, add_zero_zero a3 b3, add_zero_zero a4 b4, add_zero_zero a5 b5, add_zero_zero a6 b6,
    add_zero_zero a7 b7, add_zero_zero a8 b8, add_zero_zero a9 b9, add_zero_zero a10 b10, add_zero_zero a11 b11⟩

theorem Acc3.Good.eq_zero {A : Acc3} (hA : A.Good) (h : ¬ ∃ k, A.ntri k ≠ 0) : A = 0 := by
  push Not at h
  have z : ∀ k, _ := fun k => (hA k).2 (h k)
  ext k
  · exact h k
  · exact (z k).1
  · exact (z k).2.1
  · exact (z k).2.2.1
  · exact (z k).2.2.2.1
  · exact (z k).2.2.2.2.1
  · exact (z k).2.2.2.2.2.1
  · exact (z k).2.2.2.2.2.2.1
  · exact (z k).2.2.2.2.2.2.2.1
  · exact (z k).2.2.2.2.2.2.2.2.1
  · exact (z k).2.2.2.2.2.2.2.2.2

variable {P : Type}

/-- The arrays said to hold the sums over the triples of a bin add up. -/
theorem holds_addRel [PseudoMetricSpace P] (inBin : Obj P × Obj P × Obj P → Prop) (k : ℤ) (fu fv : Obj P × Obj P × Obj P → ℝ) :
    AddRel fun (A : Acc3) m => A.Holds k (m.filter inBin) fu fv := by
  constructor
  · constructor <;> simp [brute3, brute3K, brute3N] <;> rfl
  · intro a b m n ha hb
    rw [Multiset.filter_add]
    constructor
    · rw [brute3_add, ← ha.weight, ← hb.weight]; rfl
    · rw [brute3K_add, ← ha.zeta, ← hb.zeta]; rfl
    · rw [brute3_add, ← ha.meand1, ← hb.meand1]; rfl
    · rw [brute3_add, ← ha.meand2, ← hb.meand2]; rfl
    · rw [brute3_add, ← ha.meand3, ← hb.meand3]; rfl
    · rw [brute3_add, ← ha.meanlogd1, ← hb.meanlogd1]; rfl
    · rw [brute3_add, ← ha.meanlogd2, ← hb.meanlogd2]; rfl
    · rw [brute3_add, ← ha.meanlogd3, ← hb.meanlogd3]; rfl
    · rw [brute3_add, ← ha.meanu, ← hb.meanu]; rfl
    · rw [brute3_add, ← ha.meanv, ← hb.meanv]; rfl
    · intro hw
      rw [brute3N_add, ← ha.ntri (fun t ht => hw t (Multiset.mem_add.2 (Or.inl ht))),
        ← hb.ntri (fun t ht => hw t (Multiset.mem_add.2 (Or.inr ht)))]
      rfl

/-- No triple in the bin: the zero arrays hold the sums. -/
theorem holds_zero [PseudoMetricSpace P] {inBin : Obj P × Obj P × Obj P → Prop} {k : ℤ} {fu fv : Obj P × Obj P × Obj P → ℝ}
    {m : Multiset (Obj P × Obj P × Obj P)} (h : ∀ t ∈ m, ¬ inBin t) : (0 : Acc3).Holds k (m.filter inBin) fu fv := by
  rw [Multiset.filter_eq_nil.2 h]
  have := (holds_addRel inBin k fu fv).zero
  rwa [Multiset.filter_zero] at this

theorem finish3_good (e : Emit3 P) (h : 0 < e.c1.n ∧ 0 < e.c2.n ∧ 0 < e.c3.n) : (finish3 (0 : Acc3) e).Good := by
  have hn : 0 < (e.c1.n : ℝ) * (e.c2.n : ℝ) * (e.c3.n : ℝ) := by
    have a : (0 : ℝ) < e.c1.n := by exact_mod_cast h.1
    have b : (0 : ℝ) < e.c2.n := by exact_mod_cast h.2.1
    have c : (0 : ℝ) < e.c3.n := by exact_mod_cast h.2.2
    positivity
  intro k
  have z : ∀ f : ℤ → ℝ, (∀ j, f j = 0) → ∀ x, addAt f e.index x k = if k = e.index then x else 0 := by
    intro f hf x
    simp only [addAt, hf, zero_add]
  by_cases hk : k = e.index
  · have e0 : (finish3 (0 : Acc3) e).ntri k = (e.c1.n : ℝ) * (e.c2.n : ℝ) * (e.c3.n : ℝ) := by
      show addAt _ _ _ k = _
      exact (z _ (fun _ => rfl) _).trans (if_pos hk)
    rw [e0]
    exact ⟨hn.le, fun h0 => absurd h0 hn.ne'⟩
  · have q : ∀ x, addAt (fun _ => (0 : ℝ)) e.index x k = 0 := by
      intro x
      rw [z _ (fun _ => rfl), if_neg hk]
    refine ⟨le_of_eq (q _).symm, fun _ => ⟨q _, q _, q _, q _, q _, q _, q _, q _, q _, q _⟩⟩

theorem addAt_add (f g : ℤ → ℝ) (i : ℤ) (x : ℝ) : addAt (fun k => f k + g k) i x = fun k => f k + addAt g i x k := by
  funext k
  simp only [addAt]
  split <;> ring

theorem finish3_add (A B : Acc3) (e : Emit3 P) : finish3 (A + B) e = A + finish3 B e := by
  ext k <;> exact congrFun (addAt_add _ _ _ _) k

theorem accumulate3_add (es : List (Emit3 P)) (A B : Acc3) : accumulate3 (A + B) es = A + accumulate3 B es := by
  unfold accumulate3
  induction es generalizing B with
  | nil => rfl
  | cons e t ih => rw [List.foldl_cons, List.foldl_cons, finish3_add, ih]

theorem accumulate3_cons (e : Emit3 P) (t : List (Emit3 P)) :
    accumulate3 (0 : Acc3) (e :: t) = finish3 0 e + accumulate3 0 t := by
  have : accumulate3 (0 : Acc3) (e :: t) = accumulate3 (finish3 0 e + 0) t := by rw [add_zero]; rfl
  rw [this, accumulate3_add]

theorem accumulate3_good (es : List (Emit3 P)) (h : ∀ e ∈ es, 0 < e.c1.n ∧ 0 < e.c2.n ∧ 0 < e.c3.n) : (accumulate3 (0 : Acc3) es).Good := by
  induction es with
  | nil => exact Acc3.Good.zero
  | cons e t ih =>
    rw [accumulate3_cons]
    exact (finish3_good e (h e (by simp))).add (ih fun e' he' => h e' (by simp [he']))

end
end TreeCorr
