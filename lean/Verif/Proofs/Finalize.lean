import Verif.Model.Finalize
import Verif.Proofs.Accum
import Verif.Proofs.LogBin
import Verif.Proofs.Patch
import Verif.Spec.Brute
import Mathlib.Analysis.Convex.SpecificFunctions.Basic

/-! Weighted means over the calls that hit a bin. -/

namespace TreeCorr
open Classical
variable {P : Type}

/-- The calls that add to bin `k`, in the forward or the reversed direction (twice if both). -/
noncomputable def hits (es : List (Emit P)) (k : ℤ) : List (Emit P) :=
  es.flatMap (fun e => (if e.k = k then [e] else []) ++ (if e.k2 = some k then [e] else []))

theorem hits_cons (e : Emit P) (es : List (Emit P)) (k : ℤ) :
    hits (e :: es) k = (if e.k = k then [e] else []) ++ (if e.k2 = some k then [e] else []) ++ hits es k := by
  simp [hits]

theorem mem_hits {es : List (Emit P)} {k : ℤ} {e : Emit P} (h : e ∈ hits es k) :
    e ∈ es ∧ (e.k = k ∨ e.k2 = some k) := by
  simp only [hits, List.mem_flatMap, List.mem_append] at h
  obtain ⟨a, ha, h⟩ := h
  rcases h with h | h
  all_goals
    split at h
    · simp only [List.mem_singleton] at h
      subst h
      exact ⟨ha, by tauto⟩
    · simp at h

theorem accumulate_hits (A : Acc) (es : List (Emit P)) (k : ℤ) :
    (accumulate A es).weight k = A.weight k + ((hits es k).map (fun e => e.c1.w * e.c2.w)).sum ∧
    (accumulate A es).meanr k = A.meanr k + ((hits es k).map (fun e => e.c1.w * e.c2.w * e.r)).sum ∧
    (accumulate A es).meanlogr k
      = A.meanlogr k + ((hits es k).map (fun e => e.c1.w * e.c2.w * e.logr)).sum ∧
    (accumulate A es).kk k = A.kk k + ((hits es k).map (fun e => e.c1.wk * e.c2.wk)).sum := by
  induction es generalizing A with
  | nil => simp [accumulate, hits]
  | cons e es ih =>
    have hacc : accumulate A (e :: es) = accumulate (finishProcess A e) es := rfl
    obtain ⟨i1, i2, i3, i4⟩ := ih (finishProcess A e)
    rw [hacc, i1, i2, i3, i4, hits_cons]
    simp only [finishProcess, addAt2_apply, List.map_append, List.sum_append]
    by_cases h1 : e.k = k <;> by_cases h2 : e.k2 = some k <;> simp [h1, h2] <;>
      (try (refine ⟨?_, ?_, ?_, ?_⟩)) <;> (try ring)

theorem accumulate_hits_zero (es : List (Emit P)) (k : ℤ) :
    (accumulate Acc.zero es).weight k = ((hits es k).map (fun e => e.c1.w * e.c2.w)).sum ∧
    (accumulate Acc.zero es).meanr k = ((hits es k).map (fun e => e.c1.w * e.c2.w * e.r)).sum ∧
    (accumulate Acc.zero es).meanlogr k = ((hits es k).map (fun e => e.c1.w * e.c2.w * e.logr)).sum ∧
    (accumulate Acc.zero es).kk k = ((hits es k).map (fun e => e.c1.wk * e.c2.wk)).sum := by
  obtain ⟨a1, a2, a3, a4⟩ := accumulate_hits Acc.zero es k
  rw [a1, a2, a3, a4]
  simp [Acc.zero]

theorem wmean_le {α : Type} (l : List α) (w r : α → ℝ) (hi : ℝ) (hw : ∀ x ∈ l, 0 ≤ w x)
    (h : ∀ x ∈ l, r x ≤ hi) : (l.map (fun x => w x * r x)).sum ≤ hi * (l.map w).sum := by
  induction l with
  | nil => simp
  | cons a t ih =>
    simp only [List.map_cons, List.sum_cons]
    have h1 := ih (fun x hx => hw x (by simp [hx])) (fun x hx => h x (by simp [hx]))
    have h2 := mul_le_mul_of_nonneg_left (h a (by simp)) (hw a (by simp))
    linarith

theorem le_wmean {α : Type} (l : List α) (w r : α → ℝ) (lo : ℝ) (hw : ∀ x ∈ l, 0 ≤ w x)
    (h : ∀ x ∈ l, lo ≤ r x) : lo * (l.map w).sum ≤ (l.map (fun x => w x * r x)).sum := by
  induction l with
  | nil => simp
  | cons a t ih =>
    simp only [List.map_cons, List.sum_cons]
    have h1 := ih (fun x hx => hw x (by simp [hx])) (fun x hx => h x (by simp [hx]))
    have h2 := mul_le_mul_of_nonneg_left (h a (by simp)) (hw a (by simp))
    linarith

theorem wmean_lt {α : Type} (l : List α) (w r : α → ℝ) (hi : ℝ) (hw : ∀ x ∈ l, 0 ≤ w x)
    (h : ∀ x ∈ l, r x < hi) (hpos : (l.map w).sum ≠ 0) :
    (l.map (fun x => w x * r x)).sum < hi * (l.map w).sum := by
  induction l with
  | nil => simp at hpos
  | cons a t ih =>
    simp only [List.map_cons, List.sum_cons] at hpos ⊢
    have ha := hw a (by simp)
    have hra := h a (by simp)
    have ht : ∀ x ∈ t, 0 ≤ w x := fun x hx => hw x (by simp [hx])
    by_cases h0 : (t.map w).sum = 0
    · have h1 := wmean_le t w r hi ht (fun x hx => (h x (by simp [hx])).le)
      have : 0 < w a := lt_of_le_of_ne ha (by intro h; rw [← h, h0] at hpos; simp at hpos)
      have h2 := mul_lt_mul_of_pos_left hra this
      linarith
    · have h1 := ih ht (fun x hx => h x (by simp [hx])) h0
      have h2 := mul_le_mul_of_nonneg_left hra.le ha
      linarith

theorem sum_w_nonneg {α : Type} (l : List α) (w : α → ℝ) (hw : ∀ x ∈ l, 0 ≤ w x) : 0 ≤ (l.map w).sum := by
  induction l with
  | nil => simp
  | cons a t ih =>
    simp only [List.map_cons, List.sum_cons]
    exact add_nonneg (hw a (by simp)) (ih fun x hx => hw x (by simp [hx]))

theorem sum_mul_neg {α : Type} (l : List α) (w r : α → ℝ) :
    (l.map (fun x => w x * -r x)).sum = - (l.map (fun x => w x * r x)).sum := by
  induction l with
  | nil => simp
  | cons a t ih =>
    simp only [List.map_cons, List.sum_cons]
    rw [ih]
    ring

/-- Jensen: the weighted mean of the logarithms is at most the logarithm of the weighted mean. -/
theorem wmean_log {α : Type} (l : List α) (w r : α → ℝ) (hw : ∀ x ∈ l, 0 ≤ w x)
    (h : ∀ x ∈ l, 0 < r x) (hpos : (l.map w).sum ≠ 0) :
    (l.map (fun x => w x * Real.log (r x))).sum / (l.map w).sum
      ≤ Real.log ((l.map (fun x => w x * r x)).sum / (l.map w).sum) := by
  have hW : 0 < (l.map w).sum := lt_of_le_of_ne (sum_w_nonneg l w hw) (Ne.symm hpos)
  set W := (l.map w).sum with hWd
  set m := (l.map (fun x => w x * r x)).sum / W with hm
  have hmpos : 0 < m := by
    have := wmean_lt l w (fun x => - r x) 0 hw (fun x hx => by simpa using h x hx) hpos
    have e := sum_mul_neg l w r
    rw [e] at this
    rw [hm]
    apply div_pos _ hW
    linarith
  -- log y ≤ log m + (y - m)/m
  have key : ∀ x ∈ l, Real.log (r x) ≤ Real.log m + (r x / m - 1) := by
    intro x hx
    have h1 := Real.log_le_sub_one_of_pos (div_pos (h x hx) hmpos)
    rw [Real.log_div (h x hx).ne' hmpos.ne'] at h1
    linarith
  have h2 : (l.map (fun x => w x * Real.log (r x))).sum
      ≤ (l.map (fun x => w x * (Real.log m + (r x / m - 1)))).sum := by
    apply List.sum_le_sum
    intro x hx
    exact mul_le_mul_of_nonneg_left (key x hx) (hw x hx)
  have h3 : (l.map (fun x => w x * (Real.log m + (r x / m - 1)))).sum
      = (Real.log m - 1) * W + (l.map (fun x => w x * r x)).sum / m := by
    rw [hWd]
    clear_value m
    clear hm h2 key hpos hW hWd hw h
    clear_value W
    induction l with
    | nil => simp
    | cons a t ih =>
      simp only [List.map_cons, List.sum_cons]
      rw [ih]
      ring
  have h4 : (l.map (fun x => w x * r x)).sum / m = W := by
    rw [hm]
    field_simp
    have : (l.map (fun x => w x * r x)).sum ≠ 0 := by
      intro h0
      rw [hm, h0] at hmpos
      simp at hmpos
    field_simp
  rw [div_le_iff₀ hW]
  rw [h3, h4] at h2
  linarith

theorem FinParams.unitR_mono {F : FinParams} (hu : 0 < F.units) {x y : ℝ} (h : x ≤ y) :
    F.unitR x ≤ F.unitR y := by
  unfold FinParams.unitR
  apply div_le_div_of_nonneg_right _ hu.le
  split
  · have := Real.monotone_arcsin (div_le_div_of_nonneg_right h (by norm_num : (0:ℝ) ≤ 2))
    linarith
  · exact h

theorem FinParams.unitLogr_mono {F : FinParams} {x y : ℝ} (h : x ≤ y) :
    F.unitLogr x ≤ F.unitLogr y := by
  unfold FinParams.unitLogr
  apply sub_le_sub_right
  split
  · have h1 : Real.exp x / 2 ≤ Real.exp y / 2 :=
      div_le_div_of_nonneg_right (Real.exp_le_exp.2 h) (by norm_num)
    have h2 := Real.monotone_arcsin h1
    have h3 : 0 < Real.arcsin (Real.exp x / 2) := Real.arcsin_pos.2 (by positivity)
    exact Real.log_le_log (by linarith) (by linarith)
  · exact h

/-- A call made by the log-binned traversal: its `r` is in its bin, whatever the metric and the slop. -/
theorem log_emit {p : Params} (hm : 0 < p.minsep) (hbs : 0 < p.binsize)
    (hmax : p.maxsep = p.minsep * Real.exp (p.nbins * p.binsize)) {M : MetricHelper P} {R : Bool}
    {a b : Cell P} {e : Emit P} (h : decide11 (logBin P) M p R a b = .direct e) :
    e.rsq = (M.distSq a.pos b.pos a.size b.size).1 ∧ e.r = Real.sqrt e.rsq ∧ e.logr = Real.log e.r ∧
      InLogBin p.minsep p.binsize p.nbins e.k e.r := by
  unfold decide11 at h
  split at h
  · cases h
  simp only at h
  split at h
  · cases h
  split at h
  · cases h
  split at h
  · cases h
  split at h
  swap
  · cases h
  rename_i o ho
  split at h
  swap
  · cases h
  rename_i hin
  injection h with h
  set rsq := (M.distSq a.pos b.pos a.size b.size).1 with hrsq
  obtain ⟨hlo, hhi⟩ : rsq ≥ p.minsep ^ 2 ∧ rsq < p.maxsep ^ 2 := hin
  have hrp : 0 < rsq := lt_of_lt_of_le (by positivity) hlo
  set r := Real.sqrt rsq with hr
  have hr0 : 0 < r := Real.sqrt_pos.2 hrp
  have hrr : r ^ 2 = rsq := Real.sq_sqrt hrp.le
  have hmx : 0 < p.maxsep := by rw [hmax]; positivity
  have hlo' : p.minsep ≤ r := Real.le_sqrt_of_sq_le hlo
  have hhi' : r < p.maxsep := (Real.sqrt_lt' hmx).2 hhi
  have hll : Real.log p.minsep ≤ Real.log r := Real.log_le_log hm hlo'
  have hlmax : Real.log p.maxsep = Real.log p.minsep + p.nbins * p.binsize := by
    rw [hmax, Real.log_mul hm.ne' (Real.exp_pos _).ne', Real.log_exp]
  have hlh : Real.log r < Real.log p.minsep + p.nbins * p.binsize := by
    rw [← hlmax]; exact Real.log_lt_log hr0 hhi'
  have hhalf : 0.5 * Real.log rsq = Real.log r := by
    rw [hr, Real.log_sqrt hrp.le]; ring
  set kk := (Real.log r - Real.log p.minsep) / p.binsize with hkk
  have hkk' : kk * p.binsize = Real.log r - Real.log p.minsep := by rw [hkk]; field_simp
  have hkk0 : 0 ≤ kk := div_nonneg (by linarith) hbs.le
  have hkkn : kk < p.nbins := by rw [hkk, div_lt_iff₀ hbs]; linarith
  have hfl0 : 0 ≤ ⌊kk⌋ := Int.floor_nonneg.2 hkk0
  have hfln : ⌊kk⌋ < p.nbins := Int.floor_lt.2 hkkn
  have hf1 := Int.floor_le kk
  have hf2 := Int.lt_floor_add_one kk
  have ho' : o = {} ∨ (o.k = ⌊kk⌋ ∧ o.r = r ∧ o.logr = Real.log r) := by
    split at ho
    swap
    · cases ho
    simp only [logBin, logSingleBin] at ho
    split at ho
    · left; injection ho with ho; exact ho.symm
    split at ho
    · cases ho
    split at ho
    · left; injection ho with ho; exact ho.symm
    split at ho
    · cases ho
    split at ho
    · cases ho
    split at ho
    · cases ho
    injection ho with ho
    right
    rw [← ho]
    refine ⟨?_, rfl, hhalf⟩
    show truncInt _ = _
    rw [hhalf, ← hkk, truncInt_nonneg hkk0]
  have hres : e.r = r ∧ e.logr = Real.log r ∧ e.k = ⌊kk⌋ ∧ e.rsq = rsq := by
    rw [← h]
    rcases ho' with rfl | ⟨h1, h2, h3⟩
    · refine ⟨?_, ?_, ?_, rfl⟩
      · simp only [directProcess11]; norm_num; rw [hr]
      · simp only [directProcess11]; norm_num; rw [hr]
      · simp only [directProcess11, logBin]
        norm_num
        rw [← hr, ← hkk, truncInt_nonneg hkk0, if_neg hfln.ne]
    · have g1 : ¬ o.k < 0 := by rw [h1]; exact not_lt.2 hfl0
      have g2 : o.k ≠ p.nbins := by rw [h1]; exact hfln.ne
      simp only [directProcess11, g1, g2, if_false]
      exact ⟨h2, h3, h1, trivial⟩
  obtain ⟨e1, e2, e3, e4⟩ := hres
  refine ⟨e4, by rw [e1, e4], by rw [e2, e1], ?_⟩
  rw [e1, e3]
  refine ⟨hfl0, hfln, ?_, ?_⟩
  · rw [logEdge, ← Real.log_le_log_iff (by positivity) hr0, Real.log_mul hm.ne' (Real.exp_pos _).ne',
      Real.log_exp]
    have := mul_le_mul_of_nonneg_right hf1 hbs.le
    linarith
  · rw [logEdge, ← Real.log_lt_log_iff hr0 (by positivity), Real.log_mul hm.ne' (Real.exp_pos _).ne',
      Real.log_exp]
    have := mul_lt_mul_of_pos_right hf2 hbs
    push_cast
    linarith

/-- The same for linear bins. -/
theorem linear_emit {p : Params} (hm : 0 ≤ p.minsep) (hbs : 0 < p.binsize)
    (hmax : p.maxsep = p.minsep + p.nbins * p.binsize) (hn : 0 ≤ p.nbins) {M : MetricHelper P} {R : Bool}
    {a b : Cell P} {e : Emit P} (h : decide11 (linearBin P) M p R a b = .direct e) :
    e.rsq = (M.distSq a.pos b.pos a.size b.size).1 ∧ e.r = Real.sqrt e.rsq ∧ e.logr = Real.log e.r ∧
      InLinBin p.minsep p.binsize p.nbins e.k e.r := by
  unfold decide11 at h
  split at h
  · cases h
  simp only at h
  split at h
  · cases h
  split at h
  · cases h
  split at h
  · cases h
  split at h
  swap
  · cases h
  rename_i o ho
  split at h
  swap
  · cases h
  rename_i hin
  injection h with h
  set rsq := (M.distSq a.pos b.pos a.size b.size).1 with hrsq
  obtain ⟨hlo, hhi⟩ : rsq ≥ p.minsep ^ 2 ∧ rsq < p.maxsep ^ 2 := hin
  have hrp : 0 ≤ rsq := le_trans (by positivity) hlo
  set r := Real.sqrt rsq with hr
  have hmx : 0 ≤ p.maxsep := by
    rw [hmax]
    have : (0:ℝ) ≤ p.nbins := by exact_mod_cast hn
    positivity
  have hlo' : p.minsep ≤ r := Real.le_sqrt_of_sq_le hlo
  have hhi' : r < p.maxsep := by
    rw [hr, Real.sqrt_lt hrp hmx]; exact hhi
  set kk := (r - p.minsep) / p.binsize with hkk
  have hkk' : kk * p.binsize = r - p.minsep := by rw [hkk]; field_simp
  have hkk0 : 0 ≤ kk := div_nonneg (by linarith) hbs.le
  have hkkn : kk < p.nbins := by rw [hkk, div_lt_iff₀ hbs]; linarith
  have hfl0 : 0 ≤ ⌊kk⌋ := Int.floor_nonneg.2 hkk0
  have hfln : ⌊kk⌋ < p.nbins := Int.floor_lt.2 hkkn
  have hf1 := Int.floor_le kk
  have hf2 := Int.lt_floor_add_one kk
  have ho' : o = {} ∨ (o.k = ⌊kk⌋ ∧ o.r = r ∧ o.logr = Real.log r) := by
    split at ho
    swap
    · cases ho
    simp only [linearBin, linearSingleBin] at ho
    split at ho
    · cases ho
    split at ho
    · left; injection ho with ho; exact ho.symm
    split at ho
    · cases ho
    split at ho
    · cases ho
    injection ho with ho
    right
    rw [← ho]
    refine ⟨?_, rfl, rfl⟩
    show truncInt _ = _
    rw [← hr, ← hkk, truncInt_nonneg hkk0]
  have hres : e.r = r ∧ e.logr = Real.log r ∧ e.k = ⌊kk⌋ ∧ e.rsq = rsq := by
    rw [← h]
    rcases ho' with rfl | ⟨h1, h2, h3⟩
    · refine ⟨?_, ?_, ?_, rfl⟩
      · simp only [directProcess11]; norm_num; rw [hr]
      · simp only [directProcess11]; norm_num; rw [hr]
      · simp only [directProcess11, linearBin]
        norm_num
        rw [← hr, ← hkk, truncInt_nonneg hkk0, if_neg hfln.ne]
    · have g1 : ¬ o.k < 0 := by rw [h1]; exact not_lt.2 hfl0
      have g2 : o.k ≠ p.nbins := by rw [h1]; exact hfln.ne
      simp only [directProcess11, g1, g2, if_false]
      exact ⟨h2, h3, h1, trivial⟩
  obtain ⟨e1, e2, e3, e4⟩ := hres
  refine ⟨e4, by rw [e1, e4], by rw [e2, e1], ?_⟩
  rw [e1, e3]
  refine ⟨hfl0, hfln, ?_, ?_⟩
  · rw [linEdge]
    have := mul_le_mul_of_nonneg_right hf1 hbs.le
    linarith
  · rw [linEdge]
    have := mul_lt_mul_of_pos_right hf2 hbs
    push_cast
    linarith

end TreeCorr
