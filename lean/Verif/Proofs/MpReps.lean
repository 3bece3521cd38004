import Verif.Proofs.MpSums

/-! What the scratch arrays of the multipole algorithm hold when there is no slop, and the entries of the output arrays. -/

namespace TreeCorr
open Classical
variable {P : Type}

theorem addAt_rows {R : ℤ → Multiset (Obj P)} {f : ℤ → ℝ} {g : Obj P → ℝ} {os : List (Obj P)} {v : ℝ} (k : ℤ)
    (hf : ∀ j, f j = ((R j).map g).sum) (hv : v = (os.map g).sum) (j : ℤ) :
    addAt f k v j = ((R j + if j = k then (os : Multiset (Obj P)) else 0).map g).sum := by
  unfold addAt
  split
  · rw [Multiset.map_add, Multiset.sum_add, hf, hv, Multiset.map_coe, Multiset.sum_coe]
  · rw [add_zero, hf]

theorem addPowers_sum {R : ℤ → Multiset (Obj P)} {f : ℤ → ℕ → ℂ} {g : Obj P → ℂ} {os : List (Obj P)} {v : ℝ} {z : ℂ} {maxn n : ℕ}
    (hn : n ≤ maxn) (k : ℤ) (hf : ∀ j, f j n = ((R j).map g).sum) (hv : (v : ℂ) * z ^ n = (os.map g).sum) (j : ℤ) :
    addPowers f maxn k v z j n = ((R j + if j = k then (os : Multiset (Obj P)) else 0).map g).sum := by
  unfold addPowers
  by_cases h : j = k
  · rw [if_pos ⟨h, hn⟩, if_pos h, Multiset.map_add, Multiset.sum_add, hf, hv, Multiset.map_coe, Multiset.sum_coe]
  · rw [if_neg (by simp [h]), if_neg h, add_zero, hf]

section
variable [PseudoMetricSpace P]

/-- The cells of a tree with leaves of size zero. -/
def MpCell (apart : Prop) (c : Cell P) : Prop := (c.Bounded 0 ∧ c.SumsOK) ∧ (apart → Apart c.objs)

theorem hered_mpCell (apart : Prop) : Hered (MpCell (P := P) apart) := by
  apply ((hered_bounded 0).and hered_sumsOK).and
  intro d s l r h
  constructor
  · intro ha; exact (List.pairwise_append.1 (h ha)).1
  · intro ha; exact (List.pairwise_append.1 (h ha)).2.1

theorem apart_single {d : CellData P} {os : List (Obj P)} (hb : (Cell.leaf d os).Bounded 0) (hs : (Cell.leaf d os).SumsOK)
    (ha : Apart os) : ∃ o, os = [o] := by
  match os, hb, hs, ha with
  | [], _, hs, _ => exact absurd rfl hs.1
  | [o], _, _, _ => exact ⟨o, rfl⟩
  | a :: b :: t, hb, _, ha =>
    exfalso
    have h1 := hb a (by simp)
    have h2 := hb b (by simp)
    have h3 := (List.pairwise_cons.1 ha).1 b (by simp)
    have h4 := dist_triangle a.pos d.pos b.pos
    rw [dist_comm d.pos b.pos] at h4
    have h5 := dist_nonneg (x := a.pos) (y := b.pos)
    exact h3 (by linarith)

theorem node_n_ne {d : CellData P} {s : ℝ} {l r : Cell P} (h : (Cell.node d s l r).SumsOK) : d.n ≠ 1 := by
  obtain ⟨h1, -, -, h2, h3⟩ := h
  have := List.length_pos_iff.2 h2.ne_nil
  have := List.length_pos_iff.2 h3.ne_nil
  rw [h1]
  simp only [Cell.objs, List.length_append]
  omega

theorem sumWSq_eq {c : Cell P} (hb : c.Bounded 0) (hs : c.SumsOK) (ha : Apart c.objs) :
    c.sumWSq = (c.objs.map fun o => o.w ^ 2).sum := by
  induction c with
  | leaf d os =>
    obtain ⟨o, rfl⟩ := apart_single hb hs ha
    simp only [Cell.sumWSq, Cell.objs, hs.2.2.1]
    simp
  | node d s l r ihl ihr =>
    obtain ⟨bl, br⟩ := hered_bounded 0 _ _ _ _ hb
    obtain ⟨sl, sr⟩ := hered_sumsOK _ _ _ _ hs
    obtain ⟨al, ar, -⟩ := List.pairwise_append.1 ha
    unfold Cell.sumWSq
    rw [if_neg hb.1.ne', if_neg (node_n_ne hs), ihl bl sl al, ihr br sr ar]
    simp [Cell.objs]

theorem sumWKSq_eq {c : Cell P} (hb : c.Bounded 0) (hs : c.SumsOK) (ha : Apart c.objs) :
    c.sumWKSq = (c.objs.map fun o => o.wk ^ 2).sum := by
  induction c with
  | leaf d os =>
    obtain ⟨o, rfl⟩ := apart_single hb hs ha
    simp only [Cell.sumWKSq, Cell.objs, hs.2.2.2]
    simp
  | node d s l r ihl ihr =>
    obtain ⟨bl, br⟩ := hered_bounded 0 _ _ _ _ hb
    obtain ⟨sl, sr⟩ := hered_sumsOK _ _ _ _ hs
    obtain ⟨al, ar, -⟩ := List.pairwise_append.1 ha
    unfold Cell.sumWKSq
    rw [if_neg hb.1.ne', if_neg (node_n_ne hs), ihl bl sl al, ihr br sr ar]
    simp [Cell.objs]

/-- The scratch arrays hold the rows `R k` in bin `k`. -/
structure MpRep (p : Params) (ph : P → P → ℂ) (maxn : ℕ) (ww : Bool) (apart : Prop) (x : P) (mp : Scratch)
    (R : ℤ → Multiset (Obj P)) : Prop where
  npairs : ∀ k, mp.npairs k = ((R k).map fun _ => (1 : ℝ)).sum
  sumw : ∀ k, mp.sumw k = ((R k).map fun o => o.w).sum
  sumwr : p.a = 0 → ∀ k, mp.sumwr k = ((R k).map fun o => o.w * dist x o.pos).sum
  sumwlogr : p.a = 0 → ∀ k, mp.sumwlogr k = ((R k).map fun o => o.w * Real.log (dist x o.pos)).sum
  sumww : ww = true → apart → ∀ k, mp.sumww k = ((R k).map fun o => o.w ^ 2).sum
  sumwwr : ww = true → apart → p.a = 0 → ∀ k, mp.sumwwr k = ((R k).map fun o => o.w ^ 2 * dist x o.pos).sum
  sumwwlogr : ww = true → apart → p.a = 0 → ∀ k, mp.sumwwlogr k = ((R k).map fun o => o.w ^ 2 * Real.log (dist x o.pos)).sum
  sumwwkk : ww = true → apart → ∀ k, mp.sumwwkk k = ((R k).map fun o => o.wk ^ 2).sum
  Wn : ∀ n ≤ maxn, (n = 0 ∨ p.a = 0 ∧ SamePhase ph) → ∀ k, mp.Wn k n = ((R k).map fun o => (o.w : ℂ) * ph x o.pos ^ n).sum
  Gn : ∀ n ≤ maxn, (n = 0 ∨ p.a = 0 ∧ SamePhase ph) → ∀ k, mp.Gn k n = ((R k).map fun o => (o.wk : ℂ) * ph x o.pos ^ n).sum

theorem mpRep_clear (p : Params) (ph : P → P → ℂ) (maxn : ℕ) (ww : Bool) (apart : Prop) (x : P) :
    MpRep p ph maxn ww apart x Scratch.clear (fun _ => 0) := by
  constructor <;> intros <;> simp [Scratch.clear]

theorem sum_scale_list {K : Type} [CommRing K] (os : List (Obj P)) (g h : Obj P → K) (t : K) (ht : ∀ o ∈ os, h o = t) :
    (os.map g).sum * t = (os.map fun o => g o * h o).sum := by
  rw [← List.sum_map_mul_right]
  congr 1
  apply List.map_congr_left
  intro o ho
  rw [ht o ho]

theorem cast_sum_list (os : List (Obj P)) (g : Obj P → ℝ) : (((os.map g).sum : ℝ) : ℂ) = (os.map fun o => (g o : ℂ)).sum := by
  induction os with
  | nil => simp
  | cons a l ih => simp only [List.map_cons, List.sum_cons, Complex.ofReal_add, ih]

theorem mpRep_step {p : Params} (hp : LogParams p) {ph : P → P → ℂ} {maxn : ℕ} {ww : Bool} {apart : Prop} {x : P} {c1 : Cell P}
    (hb : c1.Bounded 0) (h0 : c1.size = 0) (hx : ∃ o ∈ c1.objs, o.pos = x) :
    GnRep p (calculateGn ph maxn ww) (MpCell apart) c1 (MpRep p ph maxn ww apart x) := by
  obtain ⟨o1, ho1, rfl⟩ := hx
  refine ⟨?_⟩
  intro c2 mp R k r logr q2 huse hR
  obtain ⟨⟨b2, s2⟩, a2⟩ := q2
  obtain ⟨g1, g2, -, -, -, bo, ho⟩ := mpPair_use hp huse
  have d1 : dist c1.pos o1.pos = 0 := by
    have := hb.dist_le le_rfl ho1
    rw [dist_comm] at this
    exact le_antisymm (by linarith) dist_nonneg
  have z2 : p.a = 0 → ∀ o ∈ c2.objs, dist c2.pos o.pos = 0 := by
    intro ha o hm
    have hz := sharp_size (P := P) ha ho
    have := b2.dist_le le_rfl hm
    rw [dist_comm] at this
    have := b2.size_nonneg
    exact le_antisymm (by linarith) dist_nonneg
  have dd : p.a = 0 → ∀ o ∈ c2.objs, dist o1.pos o.pos = r := by
    intro ha o hm
    rw [g1]
    exact dist_of_zero (by rw [dist_comm]; exact d1.le) (by rw [dist_comm]; exact (z2 ha o hm).le)
  have pp : ∀ n, (n = 0 ∨ p.a = 0 ∧ SamePhase ph) → ∀ o ∈ c2.objs, ph o1.pos o.pos ^ n = ph c1.pos c2.pos ^ n := by
    intro n hn o hm
    rcases hn with rfl | ⟨ha, hph⟩
    · simp
    · rw [hph _ _ _ _ d1 (z2 ha o hm)]
  constructor
  · exact addAt_rows k hR.npairs (by rw [s2.n_eq]; simp)
  · exact addAt_rows k hR.sumw s2.w_eq
  · intro ha
    exact addAt_rows k (hR.sumwr ha) (by rw [s2.w_eq]; exact sum_scale_list _ _ _ _ (dd ha))
  · intro ha
    exact addAt_rows k (hR.sumwlogr ha) (by
      rw [s2.w_eq]
      exact sum_scale_list _ _ _ _ (fun o hm => by rw [dd ha o hm, g2]))
  · intro hw hap
    subst hw
    exact addAt_rows k (hR.sumww rfl hap) (sumWSq_eq b2 s2 (a2 hap))
  · intro hw hap ha
    subst hw
    exact addAt_rows k (hR.sumwwr rfl hap ha) (by rw [sumWSq_eq b2 s2 (a2 hap)]; exact sum_scale_list _ _ _ _ (dd ha))
  · intro hw hap ha
    subst hw
    exact addAt_rows k (hR.sumwwlogr rfl hap ha) (by
      rw [sumWSq_eq b2 s2 (a2 hap)]
      exact sum_scale_list _ _ _ _ (fun o hm => by rw [dd ha o hm, g2]))
  · intro hw hap
    subst hw
    exact addAt_rows k (hR.sumwwkk rfl hap) (sumWKSq_eq b2 s2 (a2 hap))
  · intro n hn hz
    exact addPowers_sum hn k (hR.Wn n hn hz) (by
      rw [s2.w_eq, cast_sum_list]
      exact sum_scale_list _ _ _ _ (pp n hz))
  · intro n hn hz
    exact addPowers_sum hn k (hR.Gn n hn hz) (by
      rw [s2.wk_eq, cast_sum_list]
      exact sum_scale_list _ _ _ _ (pp n hz))

theorem both_sum (m : Multiset (Obj P)) (v : Obj P → ℝ) (z : Obj P → ℂ) (f : ℕ → ℂ) (n : ℤ)
    (h : f n.natAbs = (m.map fun o => (v o : ℂ) * z o ^ n.natAbs).sum) :
    both f n = (m.map fun o => (v o : ℂ) * upow (z o) n).sum := by
  unfold both upow
  by_cases h0 : 0 ≤ n
  · simp only [if_pos h0]; exact h
  · simp only [if_neg h0]
    rw [h, map_multiset_sum, Multiset.map_map]
    congr 1
    apply Multiset.map_congr rfl
    intro o _
    simp

/-- For a direction of modulus one `upow` is the power. -/
theorem upow_zpow {z : ℂ} (hz : Complex.normSq z = 1) (n : ℤ) : upow z n = z ^ n := by
  have h0 : z ≠ 0 := by rintro rfl; simp at hz
  unfold upow
  split
  · rename_i h
    rw [← zpow_natCast, Int.natAbs_of_nonneg h]
  · rename_i h
    have hc : (starRingEnd ℂ) z = z⁻¹ := by rw [Complex.inv_def, hz]; simp
    rw [hc, inv_pow, ← zpow_natCast, ← zpow_neg]
    congr 1
    omega

theorem upow_phase {z y : ℂ} (hz : Complex.normSq z = 1) (hy : Complex.normSq y = 1) (n : ℤ) :
    (starRingEnd ℂ) (upow y n) * upow z n = (z / y) ^ n := by
  have h0 : y ≠ 0 := by rintro rfl; simp at hy
  have hn : Complex.normSq (y ^ n) = 1 := by rw [map_zpow₀, hy, one_zpow]
  rw [upow_zpow hz, upow_zpow hy, div_zpow, div_eq_mul_inv, Complex.inv_def, hn]
  simp [mul_comm]

theorem upow_unit {z : ℂ} (hz : Complex.normSq z = 1) (n : ℤ) : (starRingEnd ℂ) (upow z n) * upow z n = 1 := by
  have h0 : z ≠ 0 := by rintro rfl; simp at hz
  rw [upow_phase hz hz, div_self h0, one_zpow]

end

end TreeCorr
