import Verif.Model.Finalize3
import Verif.Proofs.Finalize
import Verif.Proofs.Slop3
import Verif.Proofs.Sums3

/-! Means of the calls of `finishProcess` at one place of the arrays. -/

namespace TreeCorr
open Classical
variable {P : Type}

/-! ### Sums -/

/-- The product of the weights of the cells of a call. -/
def Emit3.www (e : Emit3 P) : ℝ := e.c1.w * e.c2.w * e.c3.w

theorem calls_sum {g : Acc3 → ℤ → ℝ} {x : Emit3 P → ℝ} (hg : ∀ A e, g (finish3 A e) = addAt (g A) e.index (e.www * x e))
    (es : List (Emit3 P)) (A : Acc3) (k : ℤ) :
    g (accumulate3 A es) k = g A k + ((es.filter fun e => decide (e.index = k)).map fun e => e.www * x e).sum := by
  induction es generalizing A with
  | nil => simp [accumulate3]
  | cons e es ih =>
    have hacc : accumulate3 A (e :: es) = accumulate3 (finish3 A e) es := rfl
    rw [hacc, ih, hg, addAt_apply]
    by_cases h : e.index = k
    · rw [if_pos h, List.filter_cons_of_pos (by simpa using h), List.map_cons, List.sum_cons]
      ring
    · rw [if_neg h, List.filter_cons_of_neg (by simpa using h), add_zero]

section
variable {es : List (Emit3 P)} {k : ℤ} (hw : ∀ e ∈ es, 0 ≤ e.www) {g : Acc3 → ℤ → ℝ} {x : Emit3 P → ℝ}
  (hg : ∀ A e, g (finish3 A e) = addAt (g A) e.index (e.www * x e)) (h0 : g Acc3.zero k = 0)
  (hne : (accumulate3 Acc3.zero es).weight k ≠ 0)
include hw hg h0 hne

theorem calls_weight : (accumulate3 Acc3.zero es).weight k = ((es.filter fun e => decide (e.index = k)).map fun e => e.www).sum := by
  have := calls_sum (g := Acc3.weight) (x := fun _ => 1) (fun A e => by simp [finish3, Emit3.www]) es Acc3.zero k
  rw [this]
  simp [Acc3.zero]

theorem calls_weight_pos : 0 < ((es.filter fun e => decide (e.index = k)).map fun e => e.www).sum := by
  rw [calls_weight hw hg h0 hne] at hne
  refine lt_of_le_of_ne (List.sum_nonneg ?_) (Ne.symm hne)
  intro y hy
  obtain ⟨e, he, rfl⟩ := List.mem_map.1 hy
  exact hw e (List.mem_of_mem_filter he)

theorem calls_mean_ge {lo : ℝ} (hx : ∀ e ∈ es, e.index = k → lo ≤ x e) :
    lo ≤ g (accumulate3 Acc3.zero es) k / (accumulate3 Acc3.zero es).weight k := by
  have hpos := calls_weight_pos hw hg h0 hne
  rw [calls_weight hw hg h0 hne, calls_sum hg, h0, zero_add, le_div_iff₀ hpos]
  refine le_wmean _ Emit3.www x lo (fun e he => hw e (List.mem_of_mem_filter he)) fun e he => ?_
  have := List.mem_filter.1 he
  exact hx e this.1 (by simpa using this.2)

theorem calls_mean_lt {hi : ℝ} (hx : ∀ e ∈ es, e.index = k → x e < hi) :
    g (accumulate3 Acc3.zero es) k / (accumulate3 Acc3.zero es).weight k < hi := by
  have hpos := calls_weight_pos hw hg h0 hne
  rw [calls_weight hw hg h0 hne, calls_sum hg, h0, zero_add, div_lt_iff₀ hpos]
  refine wmean_lt _ Emit3.www x hi (fun e he => hw e (List.mem_of_mem_filter he)) (fun e he => ?_) hpos.ne'
  have := List.mem_filter.1 he
  exact hx e this.1 (by simpa using this.2)

theorem calls_mean_le {hi : ℝ} (hx : ∀ e ∈ es, e.index = k → x e ≤ hi) :
    g (accumulate3 Acc3.zero es) k / (accumulate3 Acc3.zero es).weight k ≤ hi := by
  have hpos := calls_weight_pos hw hg h0 hne
  rw [calls_weight hw hg h0 hne, calls_sum hg, h0, zero_add, div_le_iff₀ hpos]
  refine wmean_le _ Emit3.www x hi (fun e he => hw e (List.mem_of_mem_filter he)) fun e he => ?_
  have := List.mem_filter.1 he
  exact hx e this.1 (by simpa using this.2)

theorem calls_mean_gt {lo : ℝ} (hx : ∀ e ∈ es, e.index = k → lo < x e) :
    lo < g (accumulate3 Acc3.zero es) k / (accumulate3 Acc3.zero es).weight k := by
  have hpos := calls_weight_pos hw hg h0 hne
  rw [calls_weight hw hg h0 hne, calls_sum hg, h0, zero_add, lt_div_iff₀ hpos]
  have := wmean_lt (es.filter fun e => decide (e.index = k)) Emit3.www (fun e => -x e) (-lo)
    (fun e he => hw e (List.mem_of_mem_filter he)) (fun e he => ?_) hpos.ne'
  · have hneg : ∀ l : List (Emit3 P), (l.map fun e => e.www * -x e).sum = -(l.map fun e => e.www * x e).sum := by
      intro l
      induction l with
      | nil => simp
      | cons e l ih => simp only [List.map_cons, List.sum_cons, ih]; ring
    rw [hneg] at this
    have h' : (((es.filter fun e => decide (e.index = k)).map Emit3.www).sum) =
      ((es.filter fun e => decide (e.index = k)).map fun e => e.www).sum := rfl
    rw [h'] at this
    linarith
  · have := List.mem_filter.1 he
    exact neg_lt_neg (hx e this.1 (by simpa using this.2))

theorem calls_some : ∃ e ∈ es, e.index = k := by
  by_contra hc
  have : es.filter (fun e => decide (e.index = k)) = [] := by
    rw [List.filter_eq_nil_iff]
    intro e he h
    exact hc ⟨e, he, by simpa using h⟩
  have hpos := calls_weight_pos hw hg h0 hne
  rw [this] at hpos
  simp at hpos

end

/-! ### Places -/

theorem pair_inj {n a a' l l' : ℤ} (h0 : 0 ≤ l) (h1 : l < n) (h0' : 0 ≤ l') (h1' : l' < n) (h : a * n + l = a' * n + l') :
    a = a' ∧ l = l' := by
  have hl : l = l' := by
    have e := congrArg (· % n) h
    simp only [Int.mul_add_emod_self_right, Int.add_comm (a * n), Int.add_comm (a' * n), Int.add_mul_emod_self_right] at e
    rwa [Int.emod_eq_of_lt h0 h1, Int.emod_eq_of_lt h0' h1'] at e
  subst hl
  refine ⟨?_, rfl⟩
  have : a * n = a' * n := by linarith
  exact Int.eq_of_mul_eq_mul_right (by omega) this

theorem ruvPlace_inj {p : Prm3} {kr ku kv kr' ku' kv' : ℤ} {c c' : Prop} (hu : 0 ≤ ku ∧ ku < p.nubins) (hu' : 0 ≤ ku' ∧ ku' < p.nubins)
    (hv : 0 ≤ kv ∧ kv < p.nvbins) (hv' : 0 ≤ kv' ∧ kv' < p.nvbins) (h : ruvPlace p kr ku kv c = ruvPlace p kr' ku' kv' c') :
    kr = kr' ∧ ku = ku' ∧ kv = kv' ∧ (c ↔ c') := by
  unfold ruvPlace at h
  have key : ∀ a a' l l' : ℤ, 0 ≤ l → l < 2 * p.nvbins → 0 ≤ l' → l' < 2 * p.nvbins → a * (2 * p.nvbins) + l = a' * (2 * p.nvbins) + l' →
    a = a' ∧ l = l' := fun a a' l l' h0 h1 h0' h1' h => pair_inj h0 h1 h0' h1' h
  by_cases hc : c <;> by_cases hc' : c' <;> simp only [hc, hc', if_true, if_false] at h <;>
    obtain ⟨h1, h2⟩ := key _ _ _ _ (by omega) (by omega) (by omega) (by omega) h <;>
    obtain ⟨h3, h4⟩ := pair_inj hu.1 hu.2 hu'.1 hu'.2 h1
  · exact ⟨h3, h4, by omega, by simp [hc, hc']⟩
  · omega
  · omega
  · exact ⟨h3, h4, by omega, by simp [hc, hc']⟩

theorem sasPlace_inj {p : Prm3} {k2 k3 kp k2' k3' kp' : ℤ} (h3 : 0 ≤ k3 ∧ k3 < p.nbins) (h3' : 0 ≤ k3' ∧ k3' < p.nbins)
    (hp : 0 ≤ kp ∧ kp < p.nubins) (hp' : 0 ≤ kp' ∧ kp' < p.nubins) (h : sasPlace p k2 k3 kp = sasPlace p k2' k3' kp') :
    k2 = k2' ∧ k3 = k3' ∧ kp = kp' := by
  obtain ⟨a, b⟩ := pair_inj hp.1 hp.2 hp'.1 hp'.2 h
  obtain ⟨c, d⟩ := pair_inj h3.1 h3.2 h3'.1 h3'.2 a
  exact ⟨c, d, b⟩

/-! ### Calls are in their own bin -/

variable [PseudoMetricSpace P]

/-- The values recorded by a call belong to the place it adds to; the weight is not negative. -/
def OwnRuv (p : Prm3) (e : Emit3 P) : Prop :=
  0 ≤ e.www ∧ ∃ kr ku kv c, e.index = ruvPlace p kr ku kv c ∧ InLogBin p.minsep p.binsize p.nbins kr e.d2 ∧
    InLinBin p.minu p.ubinsize p.nubins ku e.u ∧ InLinBin p.minv p.vbinsize p.nvbins kv (if c then e.v else -e.v) ∧
    e.logd2 = Real.log e.d2

def OwnSas (p : Prm3) (e : Emit3 P) : Prop :=
  0 ≤ e.www ∧ ∃ k2 k3 kp, e.index = sasPlace p k2 k3 kp ∧ InLogBin p.minsep p.binsize p.nbins k2 e.d2 ∧
    InLogBin p.minsep p.binsize p.nbins k3 e.d3 ∧ InLinBin p.minu p.ubinsize p.nubins kp e.u ∧
    e.logd2 = Real.log e.d2 ∧ e.logd3 = Real.log e.d3

theorem valid_w {δ : ℝ} {c : Cell P} (h : ValidCell δ c) : 0 ≤ c.w := by
  rw [h.1.2.w_eq]
  refine List.sum_nonneg ?_
  intro y hy
  obtain ⟨o, ho, rfl⟩ := List.mem_map.1 hy
  exact (h.2 o ho).1

theorem ruv_own3 {p : Prm3} (hp : RuvParams p) {M : Metric3 P} (hM : M.Of) {δ : ℝ} : Safe3 (binRUV p M) M (ValidCell δ) (OwnRuv p) where
  leaf12 := by
    intro O c1 c2 q1 q2 hs
    refine lt_of_le_of_ne q2.1.1.size_nonneg fun h0 => hs ?_
    simp [skip12, binRUV, ← h0]
  split := by
    intro O c1 c2 c3 f1 f2 f3 q1 q2 q3 h
    obtain ⟨a, b, c, d⟩ := ruvSplit_some (by rw [hM.distSq]; positivity) q1.1.1.size_nonneg q2.1.1.size_nonneg (ruvAct_split h)
    exact splitCells_isSome a b c d
  direct := by
    intro O c1 c2 c3 e q1 q2 q3 _ h
    obtain ⟨hstop, hsp, i, v, hi, rfl⟩ := ruvAct_direct h
    refine ⟨⟨rfl, rfl, rfl⟩, mul_nonneg (mul_nonneg (valid_w q1) (valid_w q2)) (valid_w q3), ?_⟩
    have s1 := q1.1.1.size_nonneg
    have s2 := q2.1.1.size_nonneg
    obtain ⟨hO, kr, ku, kv, b1, b2, b3⟩ := ruvIndex_inv hp hi
    have hm := hp.minsep
    have hd2 : 0 < Real.sqrt (M.distSq c1.pos c3.pos) := by
      refine lt_of_lt_of_le ?_ b1.2.2.1
      unfold logEdge
      positivity
    have hd3 : 0 < Real.sqrt (M.distSq c1.pos c2.pos) := by
      rw [Real.sqrt_pos]
      refine lt_of_le_of_ne (by rw [hM.distSq]; positivity) fun hz => hstop ?_
      have hsp' := hsp
      rw [← hz] at hsp'
      obtain ⟨z1, z2⟩ := ruvSplit_none_zero s1 s2 hsp'
      unfold ruvStop
      simp only
      right; right; right; right; right; right; right; right; right
      exact ⟨z1, z2, hz.symm⟩
    have hi' := ruvIndex_some hp (c := M.ccw c1.pos c2.pos c3.pos) hd3 hd2 hO b1 b2 b3
    rw [hi'] at hi
    simp only [Option.some.injEq, Prod.mk.injEq] at hi
    refine ⟨kr, ku, kv, M.ccw c1.pos c2.pos c3.pos, hi.1.symm, b1, b2, ?_, rfl⟩
    simp only
    rw [← hi.2]
    by_cases hc : M.ccw c1.pos c2.pos c3.pos <;> simp only [hc, if_true, if_false, neg_neg] <;> exact b3

theorem sas_own3 {p : Prm3} (hp : SasParams p) {M : Metric3 P} {δ : ℝ} : Safe3 (binSAS p M) M (ValidCell δ) (OwnSas p) where
  leaf12 := by
    intro O c1 c2 q1 q2 hs
    refine lt_of_le_of_ne q2.1.1.size_nonneg fun h0 => hs ?_
    simp [skip12, binSAS, ← h0]
  split := by
    intro O c1 c2 c3 f1 f2 f3 q1 q2 q3 h
    obtain ⟨a, b, c, d⟩ := sasSplit_some q2.1.1.size_nonneg q3.1.1.size_nonneg (sasAct_split h)
    exact splitCells_isSome a b c d
  direct := by
    intro O c1 c2 c3 e q1 q2 q3 _ h
    obtain ⟨-, hsp, i, hi, rfl⟩ := sasAct_direct h
    refine ⟨⟨rfl, rfl, rfl⟩, mul_nonneg (mul_nonneg (valid_w q1) (valid_w q2)) (valid_w q3), ?_⟩
    obtain ⟨hO, k2, k3, kphi, b1, b2, b3⟩ := sasIndex_inv hp hi
    have hm := hp.minsep
    have pos : ∀ {k : ℤ} {d : ℝ}, InLogBin p.minsep p.binsize p.nbins k d → 0 < d := by
      intro k d hb
      refine lt_of_lt_of_le ?_ hb.2.2.1
      unfold logEdge
      positivity
    have hi' := sasIndex_some hp (c := M.ccw c1.pos c3.pos c2.pos) (pos b2) (pos b1) hO b1 b2 b3
    rw [hi'] at hi
    simp only [Option.some.injEq] at hi
    exact ⟨k2, k3, kphi, hi.symm, b1, b2, b3, rfl, rfl⟩

end TreeCorr
