import Verif.Proofs.Cov
import Verif.Props.Patch

/-!
C20, C21, C23: the pairs of patches that enter each row of the covariance design matrices, and the covariances computed
from a design matrix.  `keys` are the patch pairs stored in `results`, `n1` and `n2` the numbers of patches.
-/

namespace TreeCorr
open Classical
noncomputable section
variable {C : Type}

/-! ### C20: jackknife -/

/-- Whether the pair `(j,k)` of patches remains when patch `i` is left out: neither is patch `i`, except that a
single undivided catalogue on one side is never left out. -/
def keepsPair (n1 n2 i j k : ℕ) : Prop := (j ≠ i ∨ (n1 = 1 ∧ n2 ≠ 1)) ∧ (k ≠ i ∨ n2 = 1)

/-- **C20.** Row `i` uses every stored pair that remains exactly once, and no other pair. -/
theorem jackknife_uses {n1 n2 : ℕ} (hn : n1 = n2 ∨ n1 = 1 ∨ n2 = 1) {keys : List (ℕ × ℕ)} (hnd : keys.Nodup) (i : ℕ) :
    ∃ l, jackknifePairs n1 n2 keys i = some l ∧
      ∀ j k, l.count (j, k) = if (j, k) ∈ keys ∧ keepsPair n1 n2 i j k then 1 else 0 := by
  unfold jackknifePairs keepsPair
  by_cases h2 : n2 = 1
  · rw [if_pos h2]
    refine ⟨_, rfl, fun j k => ?_⟩
    rw [count_filter_nodup hnd]
    simp [h2]
  · rw [if_neg h2]
    by_cases h1 : n1 = 1
    · rw [if_pos h1]
      refine ⟨_, rfl, fun j k => ?_⟩
      rw [count_filter_nodup hnd]
      simp [h1, h2]
    · rw [if_neg h1, if_pos (by tauto)]
      refine ⟨_, rfl, fun j k => ?_⟩
      rw [count_filter_nodup hnd]
      simp [h1, h2]

example : jackknifePairs 3 3 [(0, 0), (0, 2), (1, 1), (1, 2), (2, 2)] 1 = some [(0, 0), (0, 2), (2, 2)] := by
  simp [jackknifePairs]

example : jackknifePairs 3 1 [(0, 0), (1, 0), (2, 0)] 0 = some [(1, 0), (2, 0)] := by simp [jackknifePairs]

/-- **C20, auto.** Row `i` of an auto-correlation sums the stored results to what processing the catalogue without
patch `i` gives: arrays and `tot`. -/
theorem jackknife_auto_recomputed {K : Kit C} (hK : K.Good) (cats : List (ℕ × C)) (hid : (cats.map Prod.fst).Nodup) (S : Corr)
    (hn : cats.length ≠ 1) (i : ℕ) :
    ∃ l rs, jackknifePairs cats.length cats.length ((K.processAuto true cats S).results.map Prod.fst) i = some l ∧
      fetch (K.processAuto true cats S).results l = some rs ∧
      sumOthers K.nn rs = (K.processAuto true (cats.filter fun c => decide (c.1 ≠ i)) S).self := by
  have hid' : ((cats.filter fun c => decide (c.1 ≠ i)).map Prod.fst).Nodup := hid.sublist (List.filter_sublist.map _)
  rw [processAuto_jobs hK hid, processAuto_jobs hK hid']
  obtain ⟨rs, h1, h2⟩ := row_sum hK (autoJobs cats) (autoJobs_nodup hid) (fun k => k.1 ≠ i ∧ k.2 ≠ i)
  refine ⟨_, rs, ?_, h1, ?_⟩
  · simp [jackknifePairs, hn]
  · rw [h2]
    rw [autoJobs_filter' cats i _ (fun c => decide (c.1 ≠ i)) (by simp) (by simp)]

/-- The jobs left by leaving out patch `i` on both sides, when both sides have the same patch numbers. -/
theorem crossJobs_both {cats1 cats2 : List (ℕ × C)} (hids : cats1.map Prod.fst = cats2.map Prod.fst)
    (i : ℕ) :
    let f1 := cats1.filter fun c => decide (c.1 ≠ i)
    let f2 := cats2.filter fun c => decide (c.1 ≠ i)
    crossJobs f1.length f2.length f1 f2 = crossJobs cats1.length cats2.length f1 f2 ∨ cats1.length = 1 := by
  intro f1 f2
  have hf : f1.map Prod.fst = f2.map Prod.fst := by
    have e : ∀ c : List (ℕ × C), (c.filter fun c => decide (c.1 ≠ i)).map Prod.fst
        = (c.map Prod.fst).filter fun k => decide (k ≠ i) := by
      intro c; rw [List.filter_map]; rfl
    simp only [f1, f2, e, hids]
  have hlen : cats1.length = cats2.length := by simpa using congrArg List.length hids
  have hlenf : f1.length = f2.length := by simpa using congrArg List.length hf
  by_cases h1 : cats1.length = 1
  · right; exact h1
  · left
    rw [← hlen, ← hlenf]
    by_cases hf1 : f1.length = 1
    · obtain ⟨a, ha⟩ := List.length_eq_one_iff.1 hf1
      obtain ⟨b, hb⟩ := List.length_eq_one_iff.1 (hlenf ▸ hf1)
      rw [ha, hb] at hf
      have : a.1 = b.1 := by simpa using hf
      rw [ha, hb]
      simp [crossJobs, this]
    · simp [crossJobs, h1, hf1]

/-- **C20, cross**, both sides in the same patches: leaving out patch `i` on both sides. -/
theorem jackknife_cross_recomputed {K : Kit C} (hK : K.Good) (cats1 cats2 : List (ℕ × C))
    (hids : cats1.map Prod.fst = cats2.map Prod.fst) (hid : (cats1.map Prod.fst).Nodup) (S : Corr)
    (hn : cats1.length ≠ 1) (i : ℕ) :
    ∃ l rs, jackknifePairs cats1.length cats2.length ((K.processCross true cats1 cats2 S).results.map Prod.fst) i = some l ∧
      fetch (K.processCross true cats1 cats2 S).results l = some rs ∧
      sumOthers K.nn rs = (K.processCross true (cats1.filter fun c => decide (c.1 ≠ i))
        (cats2.filter fun c => decide (c.1 ≠ i)) S).self := by
  have hid2 : (cats2.map Prod.fst).Nodup := hids ▸ hid
  have hlen : cats1.length = cats2.length := by simpa using congrArg List.length hids
  rw [processCross_jobs hK hid hid2, processCross_jobs hK (hid.sublist (List.filter_sublist.map _))
    (hid2.sublist (List.filter_sublist.map _))]
  obtain ⟨rs, h1, h2⟩ := row_sum hK (crossJobs cats1.length cats2.length cats1 cats2) (crossJobs_nodup hid hid2)
    (fun k => k.1 ≠ i ∧ k.2 ≠ i)
  refine ⟨_, rs, ?_, h1, ?_⟩
  · have hn2 : cats2.length ≠ 1 := by omega
    simp [jackknifePairs, hn2, hlen]
  · rw [h2]
    rcases crossJobs_both hids i with h | h
    · refine Eq.trans ?_ (congrArg (fun l => (l.map (Job.val K)).sum) h).symm
      rw [crossJobs_filter' cats1.length cats2.length cats1 cats2 (fun a => a ≠ i) (fun a => a ≠ i) _
        (fun c => decide (c.1 ≠ i)) (fun c => decide (c.1 ≠ i)) (by simp) (by simp) (by simp)]
    · exact absurd h hn

/-- **C20, cross**, second catalogue undivided. -/
theorem jackknife_cross_single_recomputed {K : Kit C} (hK : K.Good) (cats : List (ℕ × C)) (c2 : C)
    (hid : (cats.map Prod.fst).Nodup) (S : Corr) (i : ℕ) :
    ∃ l rs, jackknifePairs cats.length 1 ((K.processCross true cats [(0, c2)] S).results.map Prod.fst) i = some l ∧
      fetch (K.processCross true cats [(0, c2)] S).results l = some rs ∧
      sumOthers K.nn rs = (K.processCross true (cats.filter fun c => decide (c.1 ≠ i)) [(0, c2)] S).self := by
  have hid2 : ([(0, c2)].map Prod.fst).Nodup := by simp
  rw [processCross_jobs hK hid hid2, processCross_jobs hK (hid.sublist (List.filter_sublist.map _)) hid2]
  obtain ⟨rs, h1, h2⟩ := row_sum hK (crossJobs cats.length 1 cats [(0, c2)]) (crossJobs_nodup hid hid2)
    (fun k => k.1 ≠ i)
  refine ⟨_, rs, ?_, h1, ?_⟩
  · simp [jackknifePairs]
  · rw [h2]
    rw [crossJobs_filter' cats.length 1 cats [(0, c2)] (fun a => a ≠ i) (fun _ => True) _
      (fun c => decide (c.1 ≠ i)) (fun _ => true) (by simp) (by simp) (by simp)]
    simp [crossJobs]

/-- **C20, cross**, first catalogue undivided. -/
theorem jackknife_single_cross_recomputed {K : Kit C} (hK : K.Good) (c1 : C) (cats : List (ℕ × C))
    (hid : (cats.map Prod.fst).Nodup) (S : Corr) (hn : cats.length ≠ 1) (i : ℕ) :
    ∃ l rs, jackknifePairs 1 cats.length ((K.processCross true [(0, c1)] cats S).results.map Prod.fst) i = some l ∧
      fetch (K.processCross true [(0, c1)] cats S).results l = some rs ∧
      sumOthers K.nn rs = (K.processCross true [(0, c1)] (cats.filter fun c => decide (c.1 ≠ i)) S).self := by
  have hid2 : ([(0, c1)].map Prod.fst).Nodup := by simp
  rw [processCross_jobs hK hid2 hid, processCross_jobs hK hid2 (hid.sublist (List.filter_sublist.map _))]
  obtain ⟨rs, h1, h2⟩ := row_sum hK (crossJobs 1 cats.length [(0, c1)] cats) (crossJobs_nodup hid2 hid)
    (fun k => k.2 ≠ i)
  refine ⟨_, rs, ?_, h1, ?_⟩
  · simp [jackknifePairs, hn]
  · rw [h2]
    rw [crossJobs_filter' 1 cats.length [(0, c1)] cats (fun _ => True) (fun a => a ≠ i) _
      (fun _ => true) (fun c => decide (c.1 ≠ i)) (by simp) (by simp) (by simp)]
    simp [crossJobs]

/-- The tree code over the two patches of C16–C18 meets the hypotheses. -/
example (i : ℕ) : ∃ l rs, jackknifePairs 2 2 (((exKit true).processAuto true twoPatches Corr.clear).results.map Prod.fst) i
      = some l ∧ fetch ((exKit true).processAuto true twoPatches Corr.clear).results l = some rs ∧
      sumOthers true rs = ((exKit true).processAuto true (twoPatches.filter fun c => decide (c.1 ≠ i)) Corr.clear).self :=
  jackknife_auto_recomputed (treeKit_good (sortAlg _ 0) exFp (logBin _) (plainMetric _) exLog true (d := 2)) twoPatches
    (by simp [twoPatches]) Corr.clear (by simp [twoPatches]) i

/-! ### C21: sample, marked bootstrap, bootstrap -/

/-- **C21, sample.** Row `i` uses the stored pairs whose first patch is `i` once each (the second one if the first
catalogue is undivided). -/
theorem sample_uses {n1 n2 : ℕ} (hn : n1 = n2 ∨ n1 = 1 ∨ n2 = 1) {keys : List (ℕ × ℕ)} (hnd : keys.Nodup) (i : ℕ) :
    ∃ l, samplePairs n1 n2 keys i = some l ∧
      ∀ j k, l.count (j, k) = if (j, k) ∈ keys ∧ (if n1 = 1 ∧ n2 ≠ 1 then k = i else j = i) then 1 else 0 := by
  unfold samplePairs
  by_cases h2 : n2 = 1
  · rw [if_pos h2]
    refine ⟨_, rfl, fun j k => ?_⟩
    rw [count_filter_nodup hnd]
    simp [h2]
  · rw [if_neg h2]
    by_cases h1 : n1 = 1
    · rw [if_pos h1]
      refine ⟨_, rfl, fun j k => ?_⟩
      rw [count_filter_nodup hnd]
      simp [h1, h2]
    · rw [if_neg h1, if_pos (by tauto)]
      refine ⟨_, rfl, fun j k => ?_⟩
      rw [count_filter_nodup hnd]
      simp [h1]

/-- The rows of `sample` divide the stored pairs: every stored pair is in exactly one row. -/
theorem sample_rows_divide {n : ℕ} (hn : n ≠ 1) {keys : List (ℕ × ℕ)}
    (hlt : ∀ jk ∈ keys, jk.1 < n ∧ jk.2 < n) (jk : ℕ × ℕ) (h : jk ∈ keys) :
    ∃! i, i < n ∧ ∃ l, samplePairs n n keys i = some l ∧ jk ∈ l := by
  refine ⟨jk.1, ⟨(hlt jk h).1, _, by rw [samplePairs, if_neg hn, if_neg hn, if_pos rfl], by simp [h]⟩, ?_⟩
  rintro i ⟨_, l, hl, hm⟩
  rw [samplePairs, if_neg hn, if_neg hn, if_pos rfl] at hl
  obtain rfl := Option.some.inj hl
  have := (List.mem_filter.1 hm).2
  simpa using (of_decide_eq_true this).symm

example : samplePairs 3 3 [(0, 0), (0, 2), (1, 1), (1, 2), (2, 2)] 1 = some [(1, 1), (1, 2)] := by simp [samplePairs]

/-- **C21, marked bootstrap**, both sides divided: each stored pair `(i,j)` as many times as patch `i` was drawn. -/
theorem marked_uses {n : ℕ} (hn : n ≠ 1) {keys : List (ℕ × ℕ)} (hlt : ∀ jk ∈ keys, jk.1 < n ∧ jk.2 < n) (index : List ℕ) :
    ∃ l, markedPairs n n keys index = some l ∧
      ∀ i j, l.count (i, j) = if (i, j) ∈ keys then index.count i else 0 := by
  refine ⟨_, by rw [markedPairs, if_neg hn, if_neg hn, if_pos rfl], fun i j => ?_⟩
  rw [count_flatMap_rows index _ (fun a b => if okPair keys a b = true then (List.range n).count b else 0)]
  · by_cases h : (i, j) ∈ keys
    · simp [okPair, h, List.count_eq_one_of_mem List.nodup_range (List.mem_range.2 (hlt _ h).2)]
    · simp [okPair, h]
  · intro i a b
    rw [count_row]
    by_cases h : i = a <;> simp [h]

/-- **C21, bootstrap**, both sides divided: a stored pair `(i,j)` with `i ≠ j` as many times as the product of the numbers of
draws of `i` and of `j`, and `(i,i)` as many times as `i` was drawn. -/
theorem bootstrap_uses {n : ℕ} (hn : n ≠ 1) (keys : List (ℕ × ℕ)) (index : List ℕ) :
    ∃ l, bootstrapPairs n n keys index = some l ∧
      ∀ i j, l.count (i, j) = if (i, j) ∈ keys then (if i = j then index.count i else index.count i * index.count j)
        else 0 := by
  refine ⟨_, by rw [bootstrapPairs, if_neg hn, if_neg hn, if_pos rfl], fun i j => ?_⟩
  rw [List.count_append, count_diag,
    count_flatMap_rows index _ (fun a b => if (okPair keys a b && decide (a ≠ b)) = true then index.count b else 0)]
  · by_cases h : (i, j) ∈ keys
    · by_cases hij : i = j
      · subst hij; simp [okPair, h]
      · simp [okPair, h, hij]
    · by_cases hij : i = j
      · subst hij; simp [okPair, h]
      · simp [okPair, h, hij]
  · intro i a b
    rw [count_row]
    by_cases h : i = a <;> simp [h]

/-- **C21, bootstraps with an undivided second catalogue.** Each stored pair as many times as its patch was drawn. -/
theorem bootstrap_single_uses {n1 : ℕ} {keys : List (ℕ × ℕ)} (hk : ∀ jk ∈ keys, jk.2 = 0) (index : List ℕ) :
    ∃ l, bootstrapPairs n1 1 keys index = some l ∧ markedPairs n1 1 keys index = some l ∧
      ∀ i j, l.count (i, j) = if (i, j) ∈ keys then index.count i else 0 := by
  refine ⟨_, by rw [bootstrapPairs, if_pos rfl], by rw [markedPairs, if_pos rfl], fun i j => ?_⟩
  rw [count_fst]
  by_cases h : (i, j) ∈ keys
  · have : j = 0 := hk _ h
    subst this
    simp [okPair, h]
  · by_cases hj : j = 0
    · subst hj; simp [okPair, h]
    · simp [h, hj]

/-- **C21, bootstraps with an undivided first catalogue.** -/
theorem single_bootstrap_uses {n2 : ℕ} (hn : n2 ≠ 1) {keys : List (ℕ × ℕ)} (hk : ∀ jk ∈ keys, jk.1 = 0) (index : List ℕ) :
    ∃ l, bootstrapPairs 1 n2 keys index = some l ∧ markedPairs 1 n2 keys index = some l ∧
      ∀ i j, l.count (i, j) = if (i, j) ∈ keys then index.count j else 0 := by
  refine ⟨_, by rw [bootstrapPairs, if_neg hn, if_pos rfl], by rw [markedPairs, if_neg hn, if_pos rfl], fun i j => ?_⟩
  rw [count_row]
  by_cases h : (i, j) ∈ keys
  · have : i = 0 := hk _ h
    subst this
    simp [okPair, h]
  · by_cases hj : i = 0
    · subst hj; simp [okPair, h]
    · simp [h, Ne.symm hj]

example : ∃ l, bootstrapPairs 3 3 [(0, 0), (0, 2), (1, 1), (1, 2), (2, 2)] [2, 0, 2] = some l ∧ l.count (0, 2) = 2 ∧
    l.count (2, 2) = 2 ∧ l.count (1, 1) = 0 := by
  obtain ⟨l, h, hc⟩ := bootstrap_uses (n := 3) (by norm_num) [(0, 0), (0, 2), (1, 1), (1, 2), (2, 2)] [2, 0, 2]
  refine ⟨l, h, ?_, ?_, ?_⟩ <;> rw [hc] <;> simp

/-- **C21, negation.** A row of the `sample` method is said to be "the data vector using only a single patch for the first catalog".
In an auto-correlation it does not use that patch with all of the catalogue: row `i` has no pair with a patch numbered below
`i`, and the row of the last patch is that patch alone. -/
theorem sample_auto_wrong {K : Kit C} (hK : K.Good) (cats : List (ℕ × C)) (hid : (cats.map Prod.fst).Nodup) (S : Corr)
    (hn : cats.length ≠ 1) (i : ℕ) :
    ∃ l, samplePairs cats.length cats.length ((K.processAuto true cats S).results.map Prod.fst) i = some l ∧
      ∀ t ∈ l, i ≤ t.1 ∧ i ≤ t.2 := by
  rw [processAuto_jobs hK hid]
  refine ⟨_, by simp only [samplePairs, hn, if_false, if_true]; rfl, ?_⟩
  intro t ht
  obtain ⟨h1, h2⟩ := List.mem_filter.1 ht
  obtain ⟨x, hx, rfl⟩ := List.mem_map.1 h1
  obtain ⟨J, hJ, hx⟩ := List.mem_flatMap.1 hx
  have e : x.1.1 = i := by simpa using h2
  have : J.key.1 ≤ J.key.2 := by
    obtain ⟨c1, _, h⟩ := List.mem_flatMap.1 hJ
    rcases List.mem_cons.1 h with rfl | h
    · exact le_rfl
    · obtain ⟨c2, h3, rfl⟩ := List.mem_map.1 h
      have : c1.1 < c2.1 := by simpa using (List.mem_filter.1 h3).2
      exact this.le
  rw [Job.stored_keys K J x hx] at e ⊢
  simp only at e ⊢
  omega

/-! ### C23: covariances -/

section
variable {𝕜 : Type} [RCLike 𝕜]

local notation "conj" => starRingEnd 𝕜

/-- Equal to its conjugate transpose. -/
def IsHermitian' {m : ℕ} (M : Matrix (Fin m) (Fin m) 𝕜) : Prop := ∀ a b, M b a = conj (M a b)

/-- `x† M x` is a non-negative real number for every `x`. -/
def NonNeg {m : ℕ} (M : Matrix (Fin m) (Fin m) 𝕜) : Prop :=
  ∀ x : Fin m → 𝕜, ∃ r : ℝ, 0 ≤ r ∧ ∑ a, ∑ b, conj (x a) * M a b * x b = (r : 𝕜)

theorem weighted_cov {n m : ℕ} (f : ℝ) (hf : 0 ≤ f) (w : Fin n → ℝ) (hw : ∀ i, 0 ≤ w i) (c : Fin n → Fin m → 𝕜)
    (M : Matrix (Fin m) (Fin m) 𝕜) (hM : ∀ a b, M a b = (f : 𝕜) * ∑ i, (w i : 𝕜) * conj (c i a) * c i b) :
    IsHermitian' M ∧ NonNeg M := by
  constructor
  · intro a b
    rw [hM, hM, map_mul, RCLike.conj_ofReal, map_sum]
    congr 1
    apply Finset.sum_congr rfl
    intro i _
    rw [map_mul, map_mul, RCLike.conj_ofReal, RCLike.conj_conj]
    ring
  · intro x
    refine ⟨f * ∑ i, w i * ‖∑ b, c i b * x b‖ ^ 2,
      mul_nonneg hf (Finset.sum_nonneg fun i _ => mul_nonneg (hw i) (sq_nonneg _)), ?_⟩
    have e : ∀ i, ((‖∑ b, c i b * x b‖ ^ 2 : ℝ) : 𝕜) = conj (∑ b, c i b * x b) * ∑ b, c i b * x b := by
      intro i; rw [RCLike.conj_mul]; norm_cast
    push_cast
    simp only [Finset.mul_sum]
    have e' : ∀ i, (‖∑ b, c i b * x b‖ : 𝕜) ^ 2 = ∑ a, ∑ b, conj (x a) * conj (c i a) * c i b * x b := by
      intro i
      have := e i
      push_cast at this
      rw [this, map_sum, Finset.sum_mul]
      apply Finset.sum_congr rfl
      intro a _
      rw [Finset.mul_sum]
      apply Finset.sum_congr rfl
      intro b _
      rw [map_mul]; ring
    simp only [e', hM, Finset.mul_sum, Finset.sum_mul]
    symm
    rw [Finset.sum_comm]
    apply Finset.sum_congr rfl
    intro a _
    rw [Finset.sum_comm]
    apply Finset.sum_congr rfl
    intro b _
    apply Finset.sum_congr rfl
    intro i _
    ring

/-- **C23, jackknife.** -/
theorem jackknife_cov_psd {n m : ℕ} (v : Fin n → Fin m → 𝕜) (hn : 0 < n) :
    ∃ M, covJackknife v = some M ∧ IsHermitian' M ∧ NonNeg M := by
  refine ⟨_, if_neg hn.ne', ?_⟩
  refine weighted_cov (1 - 1 / (n : ℝ)) ?_ (fun _ => 1) (fun _ => zero_le_one) (centred v) _ ?_
  · have : (1 : ℝ) ≤ n := by exact_mod_cast hn
    have := (div_le_one (by linarith : (0 : ℝ) < n)).2 this
    linarith
  · intro a b; simp

/-- **C23, bootstrap and marked bootstrap.** -/
theorem bootstrap_cov_psd {n m : ℕ} (v : Fin n → Fin m → 𝕜) (hn : 1 < n) :
    ∃ M, covBootstrap v = some M ∧ IsHermitian' M ∧ NonNeg M := by
  refine ⟨_, if_neg hn.ne', ?_⟩
  refine weighted_cov (1 / ((n : ℝ) - 1)) ?_ (fun _ => 1) (fun _ => zero_le_one) (centred v) _ ?_
  · have : (1 : ℝ) < n := by exact_mod_cast hn
    exact div_nonneg zero_le_one (by linarith)
  · intro a b; simp

/-- **C23, sample**, for positive row weights.  Missing: weights of both signs, for which it is false
(`sample_cov_negative`). -/
theorem sample_cov_psd_partial {n m : ℕ} (v : Fin n → Fin m → 𝕜) (w : Fin n → ℝ) (hw : ∀ i, 0 < w i) (hn : 1 < n) :
    ∃ M, covSample v w = some M ∧ IsHermitian' M ∧ NonNeg M := by
  refine ⟨_, if_neg (by rintro (⟨i, h⟩ | h); exacts [(hw i).ne' h, hn.ne' h]), ?_⟩
  refine weighted_cov (1 / ((n : ℝ) - 1)) ?_ (fun i => w i / ∑ j, w j) ?_ (centred v) _ ?_
  · have : (1 : ℝ) < n := by exact_mod_cast hn
    exact div_nonneg zero_le_one (by linarith)
  · exact fun i => div_nonneg (hw i).le (Finset.sum_nonneg fun j _ => (hw j).le)
  · intro a b; rfl

theorem centred_add {n m : ℕ} (v : Fin n → Fin m → 𝕜) (u : Fin m → 𝕜) (hn : 0 < n) :
    centred (fun i a => v i a + u a) = centred v := by
  funext i a
  have : (n : 𝕜) ≠ 0 := by exact_mod_cast hn.ne'
  simp only [centred, Finset.sum_add_distrib, Finset.sum_const, Finset.card_univ, Fintype.card_fin, nsmul_eq_mul]
  field_simp
  ring

/-- **C23, shift.** Adding the same vector to every row changes no covariance. -/
theorem cov_shift {n m : ℕ} (v : Fin n → Fin m → 𝕜) (u : Fin m → 𝕜) (w : Fin n → ℝ) :
    covJackknife (fun i a => v i a + u a) = covJackknife v ∧ covBootstrap (fun i a => v i a + u a) = covBootstrap v ∧
      covSample (fun i a => v i a + u a) w = covSample v w := by
  rcases Nat.eq_zero_or_pos n with rfl | hn
  · simp [covJackknife, covBootstrap, covSample]
  · simp only [covJackknife, covBootstrap, covSample, centred_add v u hn, and_self]

end

/-- **C23, negation.** Rows 2, −1, −1 with weights −1, 1, 1: the sample variance is −1. -/
theorem sample_cov_negative : ∃ M, covSample (𝕜 := ℝ) (n := 3) (m := 1) (fun i _ => if i = 0 then 2 else -1)
    (fun i => if i = 0 then -1 else 1) = some M ∧ M 0 0 = -1 := by
  refine ⟨_, if_neg (by
    rintro (⟨i, h⟩ | h)
    · by_cases hi : i = 0 <;> simp [hi] at h
    · norm_num at h), ?_⟩
  simp [centred, Fin.sum_univ_three]
  norm_num

example : ∃ M, covJackknife (𝕜 := ℝ) (n := 2) (m := 1) (fun i _ => if i = 0 then 3 else 1) = some M ∧ M 0 0 = 1 := by
  refine ⟨_, if_neg (by norm_num), ?_⟩
  simp [centred, Fin.sum_univ_two]
  norm_num

end
end TreeCorr
