import Verif.Proofs.Mpi
import Verif.Proofs.Trivial
import Verif.Proofs.LogCounts
import Verif.Proofs.LinearExact
import Verif.Props.Trivial

/-! Pair sums of a catalogue divided into patches. -/

namespace TreeCorr
open Classical
noncomputable section
variable {C α : Type}

/-- A quantity read off the arrays that adds up. -/
structure Additive (φ : Acc → ℝ) : Prop where
  zero : φ 0 = 0
  add : ∀ A B, φ (A + B) = φ A + φ B

theorem Additive.sum {φ : Acc → ℝ} (h : Additive φ) (l : List Acc) : φ l.sum = (l.map φ).sum := by
  induction l with
  | nil => exact h.zero
  | cons a t ih => rw [List.sum_cons, h.add, ih, List.map_cons, List.sum_cons]

theorem Additive.multiset {ι : Type} {φ : Acc → ℝ} (h : Additive φ) (m : Multiset ι) (f : ι → Res) :
    φ (m.map f).sum.acc = (m.map fun x => φ (f x).acc).sum := by
  induction m using Multiset.induction with
  | empty => simpa using h.zero
  | cons a s ih => simp only [Multiset.map_cons, Multiset.sum_cons, Res.add_acc, h.add, ih]

theorem crossPairs_flatMap (a : List α) (cs : List (ℕ × List α)) (F : α × α → ℝ) :
    ((crossPairs a (cs.flatMap Prod.snd)).map F).sum = (cs.map fun c => ((crossPairs a c.2).map F).sum).sum := by
  induction cs with
  | nil => simp
  | cons c t ih =>
    rw [List.flatMap_cons, crossPairs_append_right, Multiset.map_add, Multiset.sum_add, ih, List.map_cons,
      List.sum_cons]

theorem crossPairs_flatMap_left (cs : List (ℕ × List α)) (b : List α) (F : α × α → ℝ) :
    ((crossPairs (cs.flatMap Prod.snd) b).map F).sum = (cs.map fun c => ((crossPairs c.2 b).map F).sum).sum := by
  induction cs with
  | nil => simp
  | cons c t ih =>
    rw [List.flatMap_cons, crossPairs_append_left, Multiset.map_add, Multiset.sum_add, ih, List.map_cons,
      List.sum_cons]

theorem autoPairs_flatMap (cs : List (ℕ × List α)) (F : α × α → ℝ) :
    ((autoPairs (cs.flatMap Prod.snd)).map F).sum = (cs.map fun c => ((autoPairs c.2).map F).sum).sum
      + ((autoPairs cs).map fun q => ((crossPairs q.1.2 q.2.2).map F).sum).sum := by
  induction cs with
  | nil => simp [autoPairs]
  | cons c t ih =>
    rw [List.flatMap_cons, autoPairs_append, Multiset.map_add, Multiset.map_add, Multiset.sum_add,
      Multiset.sum_add, ih, crossPairs_flatMap]
    simp only [autoPairs, List.map_cons, List.sum_cons, Multiset.map_add, Multiset.sum_add, Multiset.map_coe,
      Multiset.sum_coe, List.map_map]
    have : ((fun q : (ℕ × List α) × (ℕ × List α) => ((crossPairs q.1.2 q.2.2).map F).sum) ∘ fun y => (c, y))
      = fun c' => ((crossPairs c.2 c'.2).map F).sum := rfl
    rw [this]
    ring

/-- The total of an additive quantity over the patches and pairs of patches is the sum over the pairs of rows of the whole
catalogue. -/
theorem patched_auto_sum {K : Kit (List α)} (hK : K.Good) {cats : List (ℕ × List α)}
    (hid : (cats.map Prod.fst).Nodup) (S : Corr) {φ : Acc → ℝ} (hφ : Additive φ) (F : α × α → ℝ)
    (hF : ∀ x y, F (x, y) = F (y, x))
    (ha : ∀ c ∈ cats, φ (K.auto c.2) = ((autoPairs c.2).map F).sum)
    (hc : ∀ c1 ∈ cats, ∀ c2 ∈ cats, c1.1 < c2.1 → φ (if K.triv c1.2 c2.2 then 0 else K.cross c1.2 c2.2)
      = ((crossPairs c1.2 c2.2).map F).sum) :
    φ (K.processAuto true cats S).self.acc = ((autoPairs (cats.flatMap Prod.snd)).map F).sum := by
  obtain ⟨l, hl, hsort⟩ := exists_sorted cats hid
  have e1 : (K.processAuto true cats S).self = ((autoJobs cats).map (Job.val K)).sum := by
    simp only [Kit.processAuto, if_true]
    rw [allAuto_eq]
    have : (autoJobs cats).filter (jobMine fun _ _ => True) = autoJobs cats := by
      rw [List.filter_eq_self]; intro J _; simp [jobMine]
    rw [this, run_jobs hK _ _ (autoJobs_nodup hid) (by simp [Corr.clear])]
    show Res.zero + _ = _
    rw [← Res.zero_def, zero_add]
  rw [e1, autoJobs_sum, rows_perm hl, rows_sorted _ _ _ hsort, Res.add_acc, hφ.add, hφ.multiset, Res.sum_acc, hφ.sum]
  rw [autoPairs_perm_sum (hl.flatMap_right Prod.snd) F hF, autoPairs_flatMap]
  congr 1
  · rw [List.map_map, List.map_map]
    congr 1
    apply List.map_congr_left
    intro c hcm
    exact ha c (hl.mem_iff.2 hcm)
  · congr 1
    apply Multiset.map_congr rfl
    intro q hq
    have hm := mem_autoPairs _ _ hq
    have hlt : q.1.1 < q.2.1 := by
      clear hl ha hc e1 hm
      induction l with
      | nil => simp [autoPairs] at hq
      | cons x t ih =>
        rw [List.pairwise_cons] at hsort
        simp only [autoPairs, Multiset.mem_add, Multiset.mem_coe, List.mem_map] at hq
        rcases hq with ⟨y, hy, rfl⟩ | h
        · exact hsort.1 y hy
        · exact ih hsort.2 h
    exact hc _ (hl.mem_iff.2 hm.1) _ (hl.mem_iff.2 hm.2) hlt

theorem patched_cross_self {K : Kit C} (hK : K.Good) {cats1 cats2 : List (ℕ × C)}
    (hid1 : (cats1.map Prod.fst).Nodup) (hid2 : (cats2.map Prod.fst).Nodup) (S : Corr) :
    (K.processCross true cats1 cats2 S).self
      = ((crossJobs cats1.length cats2.length cats1 cats2).map (Job.val K)).sum := by
  simp only [Kit.processCross, if_true]
  rw [allCross_eq]
  have : (crossJobs cats1.length cats2.length cats1 cats2).filter (jobMine fun _ _ => True)
      = crossJobs cats1.length cats2.length cats1 cats2 := by
    rw [List.filter_eq_self]; intro J _; simp [jobMine]
  rw [this, run_jobs hK _ _ (crossJobs_nodup hid1 hid2) (by simp [Corr.clear])]
  show Res.zero + _ = _
  rw [← Res.zero_def, zero_add]

theorem crossJobs_sum (K : Kit C) {M : Type} [AddCommMonoid M] (φ : Res → M) (n1 n2 : ℕ)
    (cats1 cats2 : List (ℕ × C)) :
    ((crossJobs n1 n2 cats1 cats2).map fun J => φ (J.val K)).sum = (cats1.map fun c1 => (cats2.map fun c2 =>
      φ (Job.val K (Job.cross (decide (c1.1 = c2.1) || decide (n1 = 1) || decide (n2 = 1)) c1.1 c2.1 c1.2 c2.2))).sum).sum := by
  unfold crossJobs
  induction cats1 with
  | nil => rfl
  | cons c t ih =>
    rw [List.flatMap_cons, List.map_append, List.sum_append, ih, List.map_cons, List.sum_cons, List.map_map]
    rfl

theorem patched_cross_sum {K : Kit (List α)} (hK : K.Good) {cats1 cats2 : List (ℕ × List α)}
    (hid1 : (cats1.map Prod.fst).Nodup) (hid2 : (cats2.map Prod.fst).Nodup) (S : Corr) {φ : Acc → ℝ}
    (hφ : Additive φ) (F : α × α → ℝ)
    (hc : ∀ c1 ∈ cats1, ∀ c2 ∈ cats2, φ (if K.triv c1.2 c2.2 then 0 else K.cross c1.2 c2.2)
      = ((crossPairs c1.2 c2.2).map F).sum) :
    φ (K.processCross true cats1 cats2 S).self.acc
      = ((crossPairs (cats1.flatMap Prod.snd) (cats2.flatMap Prod.snd)).map F).sum := by
  rw [patched_cross_self hK hid1 hid2, Res.sum_acc, hφ.sum, List.map_map, List.map_map]
  have := crossJobs_sum K (fun r => φ r.acc) cats1.length cats2.length cats1 cats2
  refine (Eq.trans (by rfl) this).trans ?_
  rw [crossPairs_flatMap_left]
  congr 1
  apply List.map_congr_left
  intro c1 h1
  rw [crossPairs_flatMap]
  congr 1
  apply List.map_congr_left
  intro c2 h2
  exact hc c1 h1 c2 h2

/-! ### The quantities -/

theorem additive_weight (k : ℤ) : Additive (fun A => A.weight k) := ⟨rfl, fun _ _ => rfl⟩
theorem additive_npairs (k : ℤ) : Additive (fun A => A.npairs k) := ⟨rfl, fun _ _ => rfl⟩
theorem additive_nk (k : ℤ) : Additive (fun A => A.nk k) := ⟨rfl, fun _ _ => rfl⟩
theorem additive_kk (k : ℤ) : Additive (fun A => A.kk k) := ⟨rfl, fun _ _ => rfl⟩

variable {P : Type}

theorem bruteW_pairsIn [PseudoMetricSpace P] (m : Multiset (Obj P × Obj P)) (q : ℝ → Prop) :
    bruteW (pairsIn m q) = (m.map fun x => if q (dist x.1.pos x.2.pos) then x.1.w * x.2.w else 0).sum :=
  sum_filter_map _ _ _
theorem bruteNK_pairsIn [PseudoMetricSpace P] (m : Multiset (Obj P × Obj P)) (q : ℝ → Prop) :
    bruteNK (pairsIn m q) = (m.map fun x => if q (dist x.1.pos x.2.pos) then x.1.w * x.2.wk else 0).sum :=
  sum_filter_map _ _ _
theorem bruteKK_pairsIn [PseudoMetricSpace P] (m : Multiset (Obj P × Obj P)) (q : ℝ → Prop) :
    bruteKK (pairsIn m q) = (m.map fun x => if q (dist x.1.pos x.2.pos) then x.1.wk * x.2.wk else 0).sum :=
  sum_filter_map _ _ _
theorem bruteN_pairsIn [PseudoMetricSpace P] (m : Multiset (Obj P × Obj P)) (q : ℝ → Prop) :
    bruteN (pairsIn m q) = (m.map fun x => if q (dist x.1.pos x.2.pos) then 1 else 0).sum := by
  rw [bruteN, card_eq_sum_one]
  exact sum_filter_map _ _ _

/-! ### Exact counts patch by patch -/

section
variable {d : ℕ}

theorem autoPairs_sub {cats : List (ℕ × List α)} {c : ℕ × List α} (hc : c ∈ cats) :
    autoPairs c.2 ≤ autoPairs (cats.flatMap Prod.snd) := by
  induction cats with
  | nil => simp at hc
  | cons a t ih =>
    rw [List.flatMap_cons, autoPairs_append]
    rcases List.mem_cons.1 hc with rfl | h
    · exact (Multiset.le_add_right _ _).trans (Multiset.le_add_right _ _)
    · refine (ih h).trans ?_
      rw [show ∀ a b c : Multiset (α × α), a + b + c = b + (a + c) by intros; abel]
      exact Multiset.le_add_right _ _

theorem treeKit_auto_exact (A : StdAlg (EuclideanSpace ℝ (Fin d))) (fp : FieldParams) (hf : fp.minsize = 0)
    {B : BinHelper (EuclideanSpace ℝ (Fin d))} (hR : B.doReverse = false) {p : Params} {inBin : ℤ → ℝ → Prop}
    (nn : Bool) (l : List (Obj (EuclideanSpace ℝ (Fin d)))) (hx : BinExact B p inBin l l)
    (hw : ∀ o ∈ l, o.Valid) (hmin : ∀ q ∈ autoPairs l, dist q.1.pos q.2.pos ≠ p.minsep) (k : ℤ) :
    let K := treeKit A fp B (plainMetric _) p nn
    let prs := pairsIn (autoPairs l) (inBin k)
    (K.auto l).weight k = bruteW prs ∧ (K.auto l).kk k = bruteKK prs ∧
      ((∀ o ∈ l, 0 < o.w) → (K.auto l).npairs k = bruteN prs) := by
  obtain ⟨es, hes, h⟩ := auto_exact_of A (euclidGeom d) (euclidGeom_dominates d) fp hf l hx hw hmin
  have e : (treeKit A fp B (plainMetric _) p nn).auto l = accumulate Acc.zero es := by
    simp only [treeKit, hR, hes]
  simp only [e]
  exact h k

theorem treeKit_cross_exact (A : StdAlg (EuclideanSpace ℝ (Fin d))) (fp : FieldParams) (hf : fp.minsize = 0)
    {B : BinHelper (EuclideanSpace ℝ (Fin d))} (hB : B = logBin _ ∨ B = linearBin _) {p : Params}
    {inBin : ℤ → ℝ → Prop} (hmax : ∀ k r, inBin k r → r < p.maxsep)
    (nn : Bool) (l1 l2 : List (Obj (EuclideanSpace ℝ (Fin d)))) (hx : BinExact B p inBin l1 l2)
    (hw1 : ∀ o ∈ l1, o.Valid) (hw2 : ∀ o ∈ l2, o.Valid) (k : ℤ) :
    let K := treeKit A fp B (plainMetric _) p nn
    let R : Acc := if K.triv l1 l2 then 0 else K.cross l1 l2
    let prs := pairsIn (crossPairs l1 l2) (inBin k)
    R.weight k = bruteW prs ∧ R.nk k = bruteNK prs ∧ R.kk k = bruteKK prs ∧
      ((∀ o ∈ l1, 0 < o.w) → (∀ o ∈ l2, 0 < o.w) → R.npairs k = bruteN prs) := by
  intro K R prs
  by_cases ht : K.triv l1 l2
  · have e : R = 0 := if_pos ht
    have : prs = 0 := by
      show pairsIn (crossPairs l1 l2) (inBin k) = 0
      rw [pairsIn, Multiset.filter_eq_nil]
      intro q hq hin
      rw [mem_crossPairs] at hq
      have := trivially_zero_sound_partial l1 l2 p B hB ht _ hq.1 _ hq.2
      have := hmax _ _ hin
      linarith
    rw [e, this]
    have z : (0 : Acc) = Acc.zero := rfl
    simp [z, Acc.zero, bruteN, bruteW, bruteNK, bruteKK]
  · obtain ⟨es, hes, h⟩ := cross_exact_of A A (euclidGeom d) (euclidGeom_dominates d) fp fp hf hf l1 l2 hx hw1 hw2
    have e : R = accumulate Acc.zero es := by
      show (if K.triv l1 l2 then (0 : Acc) else K.cross l1 l2) = _
      rw [if_neg ht]
      simp only [K, treeKit, hes]
    rw [e]
    exact h k

theorem patched_auto_exact_of (A : StdAlg (EuclideanSpace ℝ (Fin d))) (fp : FieldParams) (hf : fp.minsize = 0)
    {B : BinHelper (EuclideanSpace ℝ (Fin d))} (hB : B = logBin _ ∨ B = linearBin _) {p : Params}
    {inBin : ℤ → ℝ → Prop} (hmax : ∀ k r, inBin k r → r < p.maxsep) (nn : Bool)
    (cats : List (ℕ × List (Obj (EuclideanSpace ℝ (Fin d))))) (hid : (cats.map Prod.fst).Nodup)
    (hx : ∀ c1 ∈ cats, ∀ c2 ∈ cats, BinExact B p inBin c1.2 c2.2)
    (hw : ∀ o ∈ cats.flatMap Prod.snd, o.Valid)
    (hmin : ∀ q ∈ autoPairs (cats.flatMap Prod.snd), dist q.1.pos q.2.pos ≠ p.minsep) (S : Corr) (k : ℤ) :
    let R := ((treeKit A fp B (plainMetric _) p nn).processAuto true cats S).self.acc
    let prs := pairsIn (autoPairs (cats.flatMap Prod.snd)) (inBin k)
    R.weight k = bruteW prs ∧ R.kk k = bruteKK prs ∧
      ((∀ o ∈ cats.flatMap Prod.snd, 0 < o.w) → R.npairs k = bruteN prs) := by
  have hR : B.doReverse = false := by rcases hB with rfl | rfl <;> rfl
  have hK := treeKit_good A fp B (plainMetric _) p nn
  have mem : ∀ c ∈ cats, ∀ o ∈ c.2, o ∈ cats.flatMap Prod.snd :=
    fun c hc o ho => List.mem_flatMap.2 ⟨c, hc, ho⟩
  have ha := fun c hc => treeKit_auto_exact A fp hf hR nn c.2 (hx c hc c hc) (fun o ho => hw o (mem c hc o ho))
    (fun q hq => hmin q (Multiset.mem_of_le (autoPairs_sub hc) hq)) k
  have hc' := fun c1 h1 c2 h2 => treeKit_cross_exact A fp hf hB hmax nn c1.2 c2.2 (hx c1 h1 c2 h2)
    (fun o ho => hw o (mem c1 h1 o ho)) (fun o ho => hw o (mem c2 h2 o ho)) k
  refine ⟨?_, ?_, ?_⟩
  · rw [bruteW_pairsIn]
    refine patched_auto_sum hK hid S (additive_weight k) _ ?_ ?_ ?_
    · intro x y; simp only [dist_comm x.pos, mul_comm x.w]
    · intro c hc; rw [← bruteW_pairsIn]; exact (ha c hc).1
    · intro c1 h1 c2 h2 _; rw [← bruteW_pairsIn]; exact (hc' c1 h1 c2 h2).1
  · rw [bruteKK_pairsIn]
    refine patched_auto_sum hK hid S (additive_kk k) _ ?_ ?_ ?_
    · intro x y; simp only [dist_comm x.pos, mul_comm x.wk]
    · intro c hc; rw [← bruteKK_pairsIn]; exact (ha c hc).2.1
    · intro c1 h1 c2 h2 _; rw [← bruteKK_pairsIn]; exact (hc' c1 h1 c2 h2).2.2.1
  · intro hpos
    rw [bruteN_pairsIn]
    refine patched_auto_sum hK hid S (additive_npairs k) _ ?_ ?_ ?_
    · intro x y; simp only [dist_comm x.pos]
    · intro c hc; rw [← bruteN_pairsIn]; exact (ha c hc).2.2 fun o ho => hpos o (mem c hc o ho)
    · intro c1 h1 c2 h2 _; rw [← bruteN_pairsIn]
      exact (hc' c1 h1 c2 h2).2.2.2 (fun o ho => hpos o (mem c1 h1 o ho)) (fun o ho => hpos o (mem c2 h2 o ho))

theorem patched_cross_exact_of (A : StdAlg (EuclideanSpace ℝ (Fin d))) (fp : FieldParams) (hf : fp.minsize = 0)
    {B : BinHelper (EuclideanSpace ℝ (Fin d))} (hB : B = logBin _ ∨ B = linearBin _) {p : Params}
    {inBin : ℤ → ℝ → Prop} (hmax : ∀ k r, inBin k r → r < p.maxsep) (nn : Bool)
    (cats1 cats2 : List (ℕ × List (Obj (EuclideanSpace ℝ (Fin d))))) (hid1 : (cats1.map Prod.fst).Nodup)
    (hid2 : (cats2.map Prod.fst).Nodup)
    (hx : ∀ c1 ∈ cats1, ∀ c2 ∈ cats2, BinExact B p inBin c1.2 c2.2)
    (hw1 : ∀ o ∈ cats1.flatMap Prod.snd, o.Valid) (hw2 : ∀ o ∈ cats2.flatMap Prod.snd, o.Valid)
    (S : Corr) (k : ℤ) :
    let R := ((treeKit A fp B (plainMetric _) p nn).processCross true cats1 cats2 S).self.acc
    let prs := pairsIn (crossPairs (cats1.flatMap Prod.snd) (cats2.flatMap Prod.snd)) (inBin k)
    R.weight k = bruteW prs ∧ R.nk k = bruteNK prs ∧ R.kk k = bruteKK prs ∧
      ((∀ o ∈ cats1.flatMap Prod.snd, 0 < o.w) → (∀ o ∈ cats2.flatMap Prod.snd, 0 < o.w) →
        R.npairs k = bruteN prs) := by
  have hK := treeKit_good A fp B (plainMetric _) p nn
  have mem1 : ∀ c ∈ cats1, ∀ o ∈ c.2, o ∈ cats1.flatMap Prod.snd :=
    fun c hc o ho => List.mem_flatMap.2 ⟨c, hc, ho⟩
  have mem2 : ∀ c ∈ cats2, ∀ o ∈ c.2, o ∈ cats2.flatMap Prod.snd :=
    fun c hc o ho => List.mem_flatMap.2 ⟨c, hc, ho⟩
  have hc' := fun c1 h1 c2 h2 => treeKit_cross_exact A fp hf hB hmax nn c1.2 c2.2 (hx c1 h1 c2 h2)
    (fun o ho => hw1 o (mem1 c1 h1 o ho)) (fun o ho => hw2 o (mem2 c2 h2 o ho)) k
  refine ⟨?_, ?_, ?_, ?_⟩
  · rw [bruteW_pairsIn]
    refine patched_cross_sum hK hid1 hid2 S (additive_weight k) _ ?_
    intro c1 h1 c2 h2; rw [← bruteW_pairsIn]; exact (hc' c1 h1 c2 h2).1
  · rw [bruteNK_pairsIn]
    refine patched_cross_sum hK hid1 hid2 S (additive_nk k) _ ?_
    intro c1 h1 c2 h2; rw [← bruteNK_pairsIn]; exact (hc' c1 h1 c2 h2).2.1
  · rw [bruteKK_pairsIn]
    refine patched_cross_sum hK hid1 hid2 S (additive_kk k) _ ?_
    intro c1 h1 c2 h2; rw [← bruteKK_pairsIn]; exact (hc' c1 h1 c2 h2).2.2.1
  · intro p1 p2
    rw [bruteN_pairsIn]
    refine patched_cross_sum hK hid1 hid2 S (additive_npairs k) _ ?_
    intro c1 h1 c2 h2; rw [← bruteN_pairsIn]
    exact (hc' c1 h1 c2 h2).2.2.2 (fun o ho => p1 o (mem1 c1 h1 o ho)) (fun o ho => p2 o (mem2 c2 h2 o ho))

theorem InLinBin.range {p : Params} (hp : LinParams p) {k : ℤ} {r : ℝ}
    (h : InLinBin p.minsep p.binsize p.nbins k r) : r < p.maxsep := by
  obtain ⟨k1, k2, k3, k4⟩ := h
  have e2 : ((k:ℝ) + 1) * p.binsize ≤ p.nbins * p.binsize :=
    mul_le_mul_of_nonneg_right (by exact_mod_cast k2) hp.binsize.le
  simp only [linEdge] at k4
  push_cast at k4
  rw [hp.maxsep]
  linarith

end

end
end TreeCorr
