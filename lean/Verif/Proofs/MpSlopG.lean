import Verif.Proofs.MpShearRuns
import Verif.Proofs.MpSlopSums
import Verif.Spec.MpSlopG

/-! The scratch arrays of shear with slop, and the entries as sums over the triangles seen. -/

namespace TreeCorr
open Classical ComplexConjugate
variable {P : Type}

section
variable {sh : Obj P → ℂ} {wg : Cell P → ℂ} [PseudoMetricSpace P]

theorem sumWGSq_eq (hw : AddsShear sh wg) {c : Cell P} (hb : c.Bounded 0) (hs : c.SumsOK) (ha : Apart c.objs) :
    c.sumWGSq wg = (c.objs.map fun o => sh o ^ 2).sum := by
  induction c with
  | leaf d os =>
    obtain ⟨o, rfl⟩ := apart_single hb hs ha
    simp only [Cell.sumWGSq, hw _, Cell.objs]
    simp
  | node d s l r ihl ihr =>
    obtain ⟨bl, br⟩ := hered_bounded 0 _ _ _ _ hb
    obtain ⟨sl, sr⟩ := hered_sumsOK _ _ _ _ hs
    obtain ⟨al, ar, -⟩ := List.pairwise_append.1 ha
    unfold Cell.sumWGSq
    rw [if_neg hb.1.ne', if_neg (node_n_ne hs), ihl bl sl al, ihr br sr ar]
    simp [Cell.objs]

theorem sumAbsWGSq_eq (hw : AddsShear sh wg) {c : Cell P} (hb : c.Bounded 0) (hs : c.SumsOK) (ha : Apart c.objs) :
    c.sumAbsWGSq wg = (c.objs.map fun o => Complex.normSq (sh o)).sum := by
  induction c with
  | leaf d os =>
    obtain ⟨o, rfl⟩ := apart_single hb hs ha
    simp only [Cell.sumAbsWGSq, hw _, Cell.objs]
    simp
  | node d s l r ihl ihr =>
    obtain ⟨bl, br⟩ := hered_bounded 0 _ _ _ _ hb
    obtain ⟨sl, sr⟩ := hered_sumsOK _ _ _ _ hs
    obtain ⟨al, ar, -⟩ := List.pairwise_append.1 ha
    unfold Cell.sumAbsWGSq
    rw [if_neg hb.1.ne', if_neg (node_n_ne hs), ihl bl sl al, ihr br sr ar]
    simp [Cell.objs]

end

/-- What a row seen adds to `Gn`. -/
noncomputable def gnSeen (ph fac : P → P → ℂ) (sh : Obj P → ℂ) (n : ℤ) (m : Seen P) : ℂ :=
  sh m.row * fac m.eye m.spot * upow (ph m.eye m.spot) n

section
variable [PseudoMetricSpace P]

/-- The scratch arrays hold the rows seen. -/
structure GSeenRep (p : Params) (ph fac : P → P → ℂ) (sh : Obj P → ℂ) (maxn : ℕ) (ww : Bool) (apart : Prop) (mp : GScratch)
    (M : List (Seen P)) : Prop where
  base : MpSeenRep p ph maxn ww apart mp.base M
  Gn : ∀ n : ℤ, n.natAbs ≤ maxn + 1 → ∀ k, mp.Gn k n = ((seenAt p k M).map (gnSeen ph fac sh n)).sum
  gg0 : ww = true → apart → ∀ k, mp.gg0 k = ((seenAt p k M).map fun m =>
    (sh m.row * fac m.eye m.spot) ^ 2 * conj (ph m.eye m.spot * ph m.eye m.spot)).sum
  gg1 : ww = true → apart → ∀ k, mp.gg1 k = ((seenAt p k M).map fun m =>
    (sh m.row * fac m.eye m.spot) ^ 2 * (ph m.eye m.spot * ph m.eye m.spot)).sum
  gg2 : ww = true → apart → ∀ k, mp.gg2 k = ((seenAt p k M).map fun m =>
    (Complex.normSq (sh m.row) : ℂ) * conj (ph m.eye m.spot * ph m.eye m.spot)).sum

variable {p : Params} {ph fac : P → P → ℂ} {sh : Obj P → ℂ} {wg : Cell P → ℂ} {maxn : ℕ}

theorem gSeen_clear (ww : Bool) (apart : Prop) : GSeenRep p ph fac sh maxn ww apart GScratch.clear [] := by
  refine ⟨mpSeen_clear p ph maxn ww apart, ?_, ?_, ?_, ?_⟩ <;> intros <;> simp [GScratch.clear, seenAt]

theorem addAtC_seen (hp : LogParams p) {c1 c2 : Cell P} {k : ℤ} {r logr : ℝ} (h : mpPair p c1 c2 = .use k r logr)
    {M : List (Seen P)} {f : ℤ → ℂ} {g : Seen P → ℂ} {v : ℂ} (hf : ∀ j, f j = ((seenAt p j M).map g).sum)
    (hv : v = (c2.objs.map fun o => g ⟨o, c1.pos, c2.pos⟩).sum) (j : ℤ) :
    addAtC f k v j = ((seenAt p j (M ++ c2.objs.map fun o => ⟨o, c1.pos, c2.pos⟩)).map g).sum := by
  unfold addAtC
  rw [seenAt_append, seenAt_use hp h, Multiset.map_add, Multiset.sum_add, ← hf]
  split
  · rw [hv, Multiset.map_coe, Multiset.sum_coe, List.map_map]; rfl
  · simp

theorem addPowersG_seen (hp : LogParams p) {c1 c2 : Cell P} {k : ℤ} {r logr : ℝ} (h : mpPair p c1 c2 = .use k r logr)
    {M : List (Seen P)} {f : ℤ → ℤ → ℂ} {g : Seen P → ℂ} {v z : ℂ} {n : ℤ} (hn : n.natAbs ≤ maxn + 1)
    (hf : ∀ j, f j n = ((seenAt p j M).map g).sum) (hv : v * upow z n = (c2.objs.map fun o => g ⟨o, c1.pos, c2.pos⟩).sum) (j : ℤ) :
    addPowersG f maxn k v z j n = ((seenAt p j (M ++ c2.objs.map fun o => ⟨o, c1.pos, c2.pos⟩)).map g).sum := by
  unfold addPowersG
  rw [seenAt_append, seenAt_use hp h, Multiset.map_add, Multiset.sum_add, ← hf]
  by_cases e : j = k
  · rw [if_pos ⟨e, hn⟩, if_pos e, Multiset.map_coe, Multiset.sum_coe, List.map_map]
    refine congrArg _ (Eq.trans ?_ hv)
    rfl
  · rw [if_neg (by simp [e]), if_neg e]; simp

theorem gSeen_step (hp : LogParams p) (hw : AddsShear sh wg) {ww : Bool} {δ : ℝ} {apart : Prop} :
    SeenRep p (calculateGnG ph fac wg maxn ww) (SlopCell δ False) (SlopCell δ apart) (GSeenRep p ph fac sh maxn ww apart) := by
  intro c1 c2 mp M k r logr q1 q2 h hR
  have s2 := q2.1.1.2
  have ap : apart → c2.Bounded 0 ∧ Apart c2.objs := q2.2
  refine ⟨mpSeen_step hp c1 c2 mp.base M k r logr q1 q2 h hR.base, ?_, ?_, ?_, ?_⟩
  · intro n hn
    refine addPowersG_seen hp h hn (hR.Gn n hn) ?_
    rw [hw, mul_assoc, ← List.sum_map_mul_right]
    refine congrArg _ (List.map_congr_left fun o _ => ?_)
    unfold gnSeen; ring
  · intro hww hap
    subst hww
    refine addAtC_seen hp h (hR.gg0 rfl hap) ?_
    rw [sumWGSq_eq hw (ap hap).1 s2 (ap hap).2, mul_assoc, ← List.sum_map_mul_right]
    refine congrArg _ (List.map_congr_left fun o _ => ?_)
    ring
  · intro hww hap
    subst hww
    refine addAtC_seen hp h (hR.gg1 rfl hap) ?_
    rw [sumWGSq_eq hw (ap hap).1 s2 (ap hap).2, mul_assoc, ← List.sum_map_mul_right]
    refine congrArg _ (List.map_congr_left fun o _ => ?_)
    ring
  · intro hww hap
    subst hww
    refine addAtC_seen hp h (hR.gg2 rfl hap) ?_
    rw [sumAbsWGSq_eq hw (ap hap).1 s2 (ap hap).2, cast_sum_list, ← List.sum_map_mul_right]

/-- The factors of points 2 and 3 in `gam_μ` of index `n`. -/
noncomputable def gam2s (ph fac : P → P → ℂ) (sh : Obj P → ℂ) (n : ℤ) (μ : Fin 4) (m : Seen P) : ℂ :=
  match μ with
  | 0 => gnSeen ph fac sh (-n - 1) m
  | 1 => gnSeen ph fac sh (-n + 1) m
  | 2 => conj (gnSeen ph fac sh (n + 1) m)
  | 3 => gnSeen ph fac sh (-n - 1) m
noncomputable def gam3s (ph fac : P → P → ℂ) (sh : Obj P → ℂ) (n : ℤ) (μ : Fin 4) (m : Seen P) : ℂ :=
  match μ with
  | 0 => gnSeen ph fac sh (n - 1) m
  | 1 => gnSeen ph fac sh (n + 1) m
  | 2 => gnSeen ph fac sh (n - 1) m
  | 3 => conj (gnSeen ph fac sh (-n + 1) m)

/-- What is taken off for a row used twice. -/
noncomputable def gamSqs (ph fac : P → P → ℂ) (sh : Obj P → ℂ) (μ : Fin 4) (m : Seen P) : ℂ :=
  match μ with
  | 0 => (sh m.row * fac m.eye m.spot) ^ 2 * conj (ph m.eye m.spot * ph m.eye m.spot)
  | 1 => (sh m.row * fac m.eye m.spot) ^ 2 * (ph m.eye m.spot * ph m.eye m.spot)
  | 2 => (Complex.normSq (sh m.row) : ℂ) * conj (ph m.eye m.spot * ph m.eye m.spot)
  | 3 => (Complex.normSq (sh m.row) : ℂ) * conj (ph m.eye m.spot * ph m.eye m.spot)

/-- Direction and factor are of modulus one. -/
def GoodSeen (ph fac : P → P → ℂ) (m : Seen P) : Prop :=
  Complex.normSq (ph m.eye m.spot) = 1 ∧ Complex.normSq (fac m.eye m.spot) = 1

theorem gams_sq {n : ℤ} {μ : Fin 4} {m : Seen P} (h : GoodSeen ph fac m) :
    gamSqs ph fac sh μ m = gam2s ph fac sh n μ m * gam3s ph fac sh n μ m := by
  obtain ⟨h1, h2⟩ := h
  have z0 := unit_ne h1
  have f0 := unit_ne h2
  fin_cases μ <;> simp only [gamSqs, gam2s, gam3s, gnSeen, upow_zpow h1, map_mul, map_zpow₀, unit_conj h1, unit_conj h2,
    ← Complex.mul_conj]
  all_goals
    generalize ph m.eye m.spot = z at *
    generalize fac m.eye m.spot = f at *
  · have e1 : z ^ (-n - 1) * z ^ (n - 1) = z⁻¹ * z⁻¹ := by
      rw [← zpow_add₀ z0, ← zpow_neg_one, ← zpow_add₀ z0]; congr 1; ring
    linear_combination -(sh m.row * f) ^ 2 * e1
  · have e2 : z ^ (-n + 1) * z ^ (n + 1) = z * z := by
      rw [← zpow_add₀ z0, ← zpow_two]; congr 1; ring
    linear_combination -(sh m.row * f) ^ 2 * e2
  · have e3 : z⁻¹ ^ (n + 1) * z ^ (n - 1) = z⁻¹ * z⁻¹ := by
      rw [inv_zpow', ← zpow_add₀ z0, ← zpow_neg_one, ← zpow_add₀ z0]; congr 1; ring
    have ef : f⁻¹ * f = 1 := inv_mul_cancel₀ f0
    linear_combination -((conj (sh m.row) * sh m.row) * (f⁻¹ * f) * e3 + (conj (sh m.row) * sh m.row) * (z⁻¹ * z⁻¹) * ef)
  · have e4 : z ^ (-n - 1) * z⁻¹ ^ (-n + 1) = z⁻¹ * z⁻¹ := by
      rw [inv_zpow', ← zpow_add₀ z0, ← zpow_neg_one, ← zpow_add₀ z0]; congr 1; ring
    have ef : f⁻¹ * f = 1 := inv_mul_cancel₀ f0
    linear_combination -((conj (sh m.row) * sh m.row) * (f⁻¹ * f) * e4 + (conj (sh m.row) * sh m.row) * (z⁻¹ * z⁻¹) * ef)

theorem gams_prod {n : ℤ} {μ : Fin 4} {q : Obj P × Seen P × Seen P} (h2 : GoodSeen ph fac q.2.1) (h3 : GoodSeen ph fac q.2.2) :
    gam1st sh μ q.1 * (gam2s ph fac sh n μ q.2.1 * gam3s ph fac sh n μ q.2.2) =
      seenX ph fac sh μ q * (ph q.2.2.eye q.2.2.spot / ph q.2.1.eye q.2.1.spot) ^ n := by
  obtain ⟨h1, -⟩ := h2
  obtain ⟨h3, -⟩ := h3
  have y0 := unit_ne h1
  have z0 := unit_ne h3
  fin_cases μ <;> simp only [gam1st, gam2s, gam3s, gnSeen, seenX, natural, upow_zpow h1, upow_zpow h3, map_mul, map_zpow₀,
    unit_conj h1, unit_conj h3, map_inv₀, inv_inv, div_zpow]
  all_goals
    generalize ph q.2.1.eye q.2.1.spot = y at *
    generalize ph q.2.2.eye q.2.2.spot = z at *
    rw [div_eq_mul_inv, ← zpow_neg]
  · have e1 : y ^ (-n - 1) = y ^ (-n) * y⁻¹ := by rw [zpow_sub_one₀ y0]
    have e2 : z ^ (n - 1) = z ^ n * z⁻¹ := by rw [zpow_sub_one₀ z0]
    rw [e1, e2]; ring
  · have e1 : y ^ (-n + 1) = y ^ (-n) * y := by rw [zpow_add_one₀ y0]
    have e2 : z ^ (n + 1) = z ^ n * z := by rw [zpow_add_one₀ z0]
    rw [e1, e2]; ring
  · have e1 : y⁻¹ ^ (n + 1) = y ^ (-n) * y⁻¹ := by rw [inv_zpow', neg_add, ← sub_eq_add_neg, zpow_sub_one₀ y0]
    have e2 : z ^ (n - 1) = z ^ n * z⁻¹ := by rw [zpow_sub_one₀ z0]
    rw [e1, e2]; ring
  · have e1 : y ^ (-n - 1) = y ^ (-n) * y⁻¹ := by rw [zpow_sub_one₀ y0]
    have e2 : z⁻¹ ^ (-n + 1) = z ^ n * z⁻¹ := by rw [inv_zpow', neg_add, neg_neg, ← sub_eq_add_neg, zpow_sub_one₀ z0]
    rw [e1, e2]; ring

theorem gVal_seen {n : ℤ} (hn : n.natAbs ≤ maxn) (hwg : AddsShear sh wg) {k2 k3 : ℤ} (μ : Fin 4) (c : Cell P) (mp : GScratch)
    (M : List (Seen P)) (hR : GSeenRep p ph fac sh maxn true True mp M) :
    (gVal maxn wg c mp k2 k3).gam μ n = (c.objs.map (gam1st sh μ)).sum * (((seenAt p k3 M).map (gam2s ph fac sh n μ)).sum *
      ((seenAt p k2 M).map (gam3s ph fac sh n μ)).sum - if k2 = k3 then ((seenAt p k2 M).map (gamSqs ph fac sh μ)).sum else 0) := by
  have a1 : (n - 1).natAbs ≤ maxn + 1 := by omega
  have a2 : (n + 1).natAbs ≤ maxn + 1 := by omega
  have a3 : (-n - 1).natAbs ≤ maxn + 1 := by omega
  have a4 : (-n + 1).natAbs ≤ maxn + 1 := by omega
  match μ with
  | 0 =>
    simp only [GVals.gam]
    rw [gVal_gam0 wg c mp k2 k3 hn, hwg, hR.Gn _ a3, hR.Gn _ a1, hR.gg0 rfl trivial]
    rfl
  | 1 =>
    simp only [GVals.gam]
    rw [gVal_gam1 wg c mp k2 k3 hn, hwg, hR.Gn _ a4, hR.Gn _ a2, hR.gg1 rfl trivial, conj_sum_list]
    rfl
  | 2 =>
    simp only [GVals.gam]
    rw [gVal_gam2 wg c mp k2 k3 hn, hwg, hR.Gn _ a2, hR.Gn _ a1, hR.gg2 rfl trivial, conj_sum']
    rfl
  | 3 =>
    simp only [GVals.gam]
    rw [gVal_gam3 wg c mp k2 k3 hn, hwg, hR.Gn _ a3, hR.Gn _ a4, hR.gg2 rfl trivial, conj_sum']
    rfl

theorem gamOrd_seen {n : ℤ} (hn : n.natAbs ≤ maxn) (hwg : AddsShear sh wg) {k2 k3 : ℤ} (μ : Fin 4) (c : Cell P) (mp2 mp3 : GScratch)
    (M2 M3 : List (Seen P)) (hR2 : GSeenRep p ph fac sh maxn false False mp2 M2) (hR3 : GSeenRep p ph fac sh maxn false False mp3 M3) :
    (gamOrd maxn wg false c mp2 mp3 k2 k3).gam μ n = (c.objs.map (gam1st sh μ)).sum *
      (((seenAt p k3 M2).map (gam2s ph fac sh n μ)).sum * ((seenAt p k2 M3).map (gam3s ph fac sh n μ)).sum) := by
  have a1 : (n - 1).natAbs ≤ maxn + 1 := by omega
  have a2 : (n + 1).natAbs ≤ maxn + 1 := by omega
  have a3 : (-n - 1).natAbs ≤ maxn + 1 := by omega
  have a4 : (-n + 1).natAbs ≤ maxn + 1 := by omega
  match μ with
  | 0 => rw [gamOrd_gam0 hn, hwg, hR2.Gn _ a3, hR3.Gn _ a1]; rfl
  | 1 => rw [gamOrd_gam1 hn, hwg, hR2.Gn _ a4, hR3.Gn _ a2, conj_sum_list]; rfl
  | 2 => rw [gamOrd_gam2 hn, hwg, hR2.Gn _ a2, hR3.Gn _ a1, conj_sum']; rfl
  | 3 => rw [gamOrd_gam3 hn, hwg, hR2.Gn _ a3, hR3.Gn _ a4, conj_sum']; rfl

/-! ### Runs -/

theorem mpTotal_base {V : Type} [AddCommMonoid V] (f : MpVals → V) (l : List (ℤ × ℤ × GVals)) (k2 k3 : ℤ) :
    mpTotal f (baseOut l) k2 k3 = mpTotal (fun v => f v.base) l k2 k3 := by
  induction l with
  | nil => rfl
  | cons x l ih =>
    rw [show baseOut (x :: l) = [(x.1, x.2.1, x.2.2.base)] ++ baseOut l from rfl, show x :: l = [x] ++ l from rfl, mpTotal_append,
      mpTotal_append, ih]
    congr 1
    simp only [mpTotal, List.filter_singleton]
    cases decide (x.1 = k2 ∧ x.2.1 = k3) <;> simp

theorem base_append (a b : List (ℤ × ℤ × GVals)) : baseOut (a ++ b) = baseOut a ++ baseOut b := List.map_append

/-- The arrays which the shear class has in common with the others. -/
theorem runSums_base {δ : ℝ} {ww : Bool} {apart : Prop} {zeta : Cell P → GScratch → GScratch → ℤ → ℤ → List (ℤ × ℤ × GVals)}
    {zeta' : Cell P → Scratch → Scratch → ℤ → ℤ → List (ℤ × ℤ × MpVals)}
    (hz : ∀ c mp2 mp3 a b, zeta' c mp2.base mp3.base a b = baseOut (zeta c mp2 mp3 a b)) {L : List (View P)} {out : List (ℤ × ℤ × GVals)}
    (hr : RunSums p (SlopCell δ False) (GSeenRep p ph fac sh maxn ww apart) zeta L out) :
    RunSums p (SlopCell δ False) (MpSeenRep p ph maxn ww apart) zeta' L (baseOut out) := by
  intro V _ tot j vo ha
  refine hr V (fun l => tot (baseOut l)) j vo ⟨ha.nil, fun a b => by rw [base_append, ha.append], ?_, ha.loc⟩
  intro c mp2 mp3 M2 M3 q r2 r3 ks mink h1 h2
  rw [← hz]
  exact ha.eq c _ _ M2 M3 q r2.base r3.base ks mink h1 h2

theorem gamCross_adds (hwg : AddsShear sh wg) {swap23 : Bool} {k2 k3 : ℤ} {n : ℤ} (hn : n.natAbs ≤ maxn) (μ : Fin 4) {δ : ℝ}
    (h2 : p.hasBin k2) (h3 : p.hasBin k3) :
    Adds p (SlopCell δ False) (GSeenRep p ph fac sh maxn false False) (calculateZetaG2 maxn p.nbins wg swap23)
      (fun l => mpTotal (fun v : GVals => v.gam μ n) l k2 k3) (min k2 k3)
      (fun o M2 M3 => gam1st sh μ o * (((seenAt p k3 M2).map (gam2s ph fac sh n μ)).sum * ((seenAt p k2 M3).map (gam3s ph fac sh n μ)).sum) +
        if swap23 then gam1st sh μ o * (((seenAt p k3 M3).map (gam2s ph fac sh n μ)).sum * ((seenAt p k2 M2).map (gam3s ph fac sh n μ)).sum)
          else 0) where
  nil := mpTotal_nil _ k2 k3
  append := fun x y => mpTotal_append _ x y k2 k3
  eq := by
    intro c mp2 mp3 M2 M3 q1 r2 r3 ks mink _ _
    refine (total_entries2 (fun v : GVals => v.gam μ n) h2.2 h3.2 (gamOrd maxn wg swap23 c mp2 mp3) ks mink).trans ?_
    split
    · rw [gamOrd_swap, gamOrd_seen hn hwg μ c _ _ _ _ r2 r3]
      cases swap23
      · simp only [Bool.false_eq_true, if_false, add_zero]
        rw [List.sum_map_mul_right]
      · simp only [if_true]
        rw [gamOrd_seen hn hwg μ c _ _ _ _ r3 r2, List.sum_map_add, List.sum_map_mul_right, List.sum_map_mul_right]
    · rfl
  loc := by
    intro o M2 M3 M2' M3' h
    have z2 : ∀ k, min k2 k3 ≤ k → seenAt p k M2' = 0 := fun k hk => seenAt_none fun m hm => h m (List.mem_append_left _ hm) k hk
    have z3 : ∀ k, min k2 k3 ≤ k → seenAt p k M3' = 0 := fun k hk => seenAt_none fun m hm => h m (List.mem_append_right _ hm) k hk
    simp only [seenAt_append, z2 _ (min_le_left _ _), z2 _ (min_le_right _ _), z3 _ (min_le_left _ _), z3 _ (min_le_right _ _), add_zero]

theorem gamAuto_adds (hwg : AddsShear sh wg) {k2 k3 : ℤ} {n : ℤ} (hn : n.natAbs ≤ maxn) (μ : Fin 4) {δ : ℝ}
    (h2 : p.hasBin k2) (h3 : p.hasBin k3) :
    Adds p (SlopCell δ False) (GSeenRep p ph fac sh maxn true True) (fun c mp _ => calculateZetaG maxn p.nbins wg c mp)
      (fun l => mpTotal (fun v : GVals => v.gam μ n) l k2 k3) (min k2 k3)
      (fun o M _ => gam1st sh μ o * (((seenAt p k3 M).map (gam2s ph fac sh n μ)).sum * ((seenAt p k2 M).map (gam3s ph fac sh n μ)).sum -
        if k2 = k3 then ((seenAt p k2 M).map (gamSqs ph fac sh μ)).sum else 0)) where
  nil := mpTotal_nil _ k2 k3
  append := fun x y => mpTotal_append _ x y k2 k3
  eq := by
    intro c mp2 mp3 M2 M3 q1 r2 _ ks mink _ _
    rw [total_calculateZetaG _ maxn h2.2 h3.2]
    split
    · rw [gVal_seen hn hwg μ c _ _ r2, List.sum_map_mul_right]
    · rfl
  loc := by
    intro o M2 M3 M2' M3' h
    have z2 : ∀ k, min k2 k3 ≤ k → seenAt p k M2' = 0 := fun k hk => seenAt_none fun m hm => h m (List.mem_append_left _ hm) k hk
    simp only [seenAt_append, z2 _ (min_le_left _ _), z2 _ (min_le_right _ _), add_zero]

/-- The directions in which rows are seen, and the factors, are of modulus one. -/
def GoodViews (ph fac : P → P → ℂ) (L : List (View P)) : Prop := ∀ v ∈ L, ∀ m ∈ v.2.1 ++ v.2.2, GoodSeen ph fac m

theorem gam_sum {n : ℤ} {μ : Fin 4} {k2 k3 : ℤ} {T : Multiset (Obj P × Seen P × Seen P)}
    (hg : ∀ q ∈ T, GoodSeen ph fac q.2.1 ∧ GoodSeen ph fac q.2.2) :
    ((T.filter (SeenIn p k2 k3)).map fun q => gam1st sh μ q.1 * (gam2s ph fac sh n μ q.2.1 * gam3s ph fac sh n μ q.2.2)).sum =
      ((T.filter (SeenIn p k2 k3)).map fun q => seenX ph fac sh μ q * (ph q.2.2.eye q.2.2.spot / ph q.2.1.eye q.2.1.spot) ^ n).sum := by
  congr 1
  apply Multiset.map_congr rfl
  intro q hq
  obtain ⟨u1, u2⟩ := hg q (Multiset.mem_filter.1 hq).1
  exact gams_prod u1 u2

theorem good_swap {L : List (View P)} (h : GoodViews ph fac L) (s : Bool) :
    ∀ q ∈ seenSwap s L, GoodSeen ph fac q.2.1 ∧ GoodSeen ph fac q.2.2 := by
  intro q hq
  rcases Multiset.mem_add.1 hq with hq | hq
  · obtain ⟨v, hv, -, h1, h2⟩ := mem_seenTriples.1 hq
    exact ⟨h v hv _ (List.mem_append_left _ h1), h v hv _ (List.mem_append_right _ h2)⟩
  · split at hq
    · obtain ⟨v, hv, -, h1, h2⟩ := mem_seenTriples.1 hq
      obtain ⟨u, hu, rfl⟩ := List.mem_map.1 hv
      exact ⟨h u hu _ (List.mem_append_right _ h1), h u hu _ (List.mem_append_left _ h2)⟩
    · simp at hq

theorem good_pairs {L : List (View P)} (h : GoodViews ph fac L) : ∀ q ∈ seenPairs L, GoodSeen ph fac q.2.1 ∧ GoodSeen ph fac q.2.2 := by
  intro q hq
  obtain ⟨v, hv, -, h1, h2⟩ := mem_seenPairs hq
  exact ⟨h v hv _ (List.mem_append_left _ h1), h v hv _ (List.mem_append_left _ h2)⟩

theorem seenZ2_base (swap23 : Bool) (c : Cell P) (mp2 mp3 : GScratch) (a b : ℤ) :
    calculateZeta2 maxn p.nbins swap23 c mp2.base mp3.base a b = baseOut (calculateZetaG2 maxn p.nbins wg swap23 c mp2 mp3 a b) := by
  simp only [calculateZeta2, calculateZetaG2, baseOut, List.map_flatMap, List.map_map]
  rfl

theorem seenZ_base (c : Cell P) (mp mp' : GScratch) (a b : ℤ) :
    calculateZeta maxn p.nbins c mp.base a b = baseOut (calculateZetaG maxn p.nbins wg c mp a b) := by
  simp only [calculateZeta, calculateZetaG, baseOut, List.map_flatMap, List.map_cons, List.map_nil]
  rfl

/-- Everything a run over two lists adds up to. -/
theorem runG2_seen (hp : LogParams p) (hwg : AddsShear sh wg) {δ : ℝ} (hδ : 0 ≤ δ) (swap23 : Bool) (cells1 cells2 cells3 : List (Cell P))
    (q1 : ∀ c ∈ cells1, SlopCell δ False c) (q2 : ∀ c ∈ cells2, SlopCell δ False c) (q3 : ∀ c ∈ cells3, SlopCell δ False c) :
    ∃ out L, multipoleG3 p maxn ph fac wg swap23 cells1 cells2 cells3 = some out ∧
      SeenViews p δ (objsOf cells1) (objsOf cells2) (objsOf cells3) L ∧
      SeenCounts p (seenSwap swap23 L) (baseOut out) ∧
      (∀ n : ℤ, n.natAbs ≤ maxn → SeenUnit ph n L → SeenPhases p ph n (seenSwap swap23 L) (baseOut out)) ∧
      SeenMeans p (seenSwap swap23 L) (baseOut out) ∧ (swap23 = false → SeenLog3 p (seenSwap swap23 L) (baseOut out)) ∧
      (GoodViews ph fac L → ∀ n : ℤ, n.natAbs ≤ maxn → SeenGam p ph fac sh n (seenSwap swap23 L) out) := by
  obtain ⟨out, L, e, hv, hr⟩ := run2_slop hp (hered_slopCell δ False) (hered_slopCell δ False) (slop_pairOk hp hδ False)
    (gSeen_step hp (ph := ph) (fac := fac) (maxn := maxn) hwg (ww := false)) (zeta := calculateZetaG2 maxn p.nbins wg swap23)
    (clear := GScratch.clear) (gSeen_clear false False) cells2 cells3 q2 q3 cells1 q1
  obtain ⟨b1, b2, b3, b4⟩ := run2_seen_of (runSums_base (zeta' := calculateZeta2 maxn p.nbins swap23) (seenZ2_base swap23) hr)
  refine ⟨out, L, e, ⟨by rw [hv.fst], hv.sees2, hv.sees3⟩, b1, b2, b3, b4, ?_⟩
  intro hg n hn k2 k3 h2 h3 μ
  rw [← gam_sum (good_swap hg swap23), hr ℂ _ _ _ (gamCross_adds hwg hn μ h2 h3),
    if_pos ⟨le_min h2.1 h3.1, lt_of_le_of_lt (min_le_left _ _) h2.2⟩]
  unfold seenSwap
  rw [Multiset.filter_add, Multiset.map_add, Multiset.sum_add, seenTriples_sum, List.sum_map_add]
  congr 1
  cases swap23
  · simp
  · simp only [if_true]
    rw [seenTriples_sum]
    unfold swapViews
    rw [List.map_map]
    rfl

/-- Everything a run over one list adds up to. -/
theorem runG_seen (hp : LogParams p) (hwg : AddsShear sh wg) {δ : ℝ} (hδ : 0 ≤ δ) (cells1 cells2 : List (Cell P))
    (q1 : ∀ c ∈ cells1, SlopCell δ False c) (q2 : ∀ c ∈ cells2, SlopCell δ True c) :
    ∃ out L, multipoleG p maxn ph fac wg cells1 cells2 = some out ∧
      SeenViews p δ (objsOf cells1) (objsOf cells2) [] L ∧ SeenCounts p (seenPairs L) (baseOut out) ∧
      (∀ n : ℤ, n.natAbs ≤ maxn → SeenUnit ph n L → SeenPhases p ph n (seenPairs L) (baseOut out)) ∧
      SeenMeans p (seenPairs L) (baseOut out) ∧ SeenLog3 p (seenPairs L) (baseOut out) ∧
      (GoodViews ph fac L → ∀ n : ℤ, n.natAbs ≤ maxn → SeenGam p ph fac sh n (seenPairs L) out) := by
  unfold multipoleG
  rw [← run_one]
  obtain ⟨out, L, e, hv, hr⟩ := run2_slop hp (hered_slopCell δ False) (hered_slopCell δ True) (slop_pairOk hp hδ True)
    (gSeen_step hp (ph := ph) (fac := fac) (maxn := maxn) hwg (ww := true)) (zeta := fun c mp _ => calculateZetaG maxn p.nbins wg c mp)
    (clear := GScratch.clear) (gSeen_clear true True) cells2 [] q2 (by simp) cells1 q1
  obtain ⟨b1, b2, b3, b4⟩ := run_seen_of hp (runSums_base (zeta' := fun c mp _ => calculateZeta maxn p.nbins c mp) seenZ_base hr)
  refine ⟨out, L, e, ⟨by rw [hv.fst], hv.sees2, hv.sees3⟩, b1, b2, b3, b4, ?_⟩
  intro hg n hn k2 k3 h2 h3 μ
  rw [← gam_sum (good_pairs hg), hr ℂ _ _ _ (gamAuto_adds hwg hn μ h2 h3),
    if_pos ⟨le_min h2.1 h3.1, lt_of_le_of_lt (min_le_left _ _) h2.2⟩, seenPairs_sum hp]
  congr 1
  apply List.map_congr_left
  intro v hvL
  have : (seenAt p k2 v.2.1).map (gamSqs ph fac sh μ) = (seenAt p k2 v.2.1).map fun m => gam2s ph fac sh n μ m * gam3s ph fac sh n μ m :=
    Multiset.map_congr rfl fun m hm => gams_sq (hg v hvL m (List.mem_append_left _ (Multiset.mem_coe.1 (Multiset.mem_filter.1 hm).1)))
  rw [this]

theorem SeenGam.append {n : ℤ} {T T' : Multiset (Obj P × Seen P × Seen P)} {a b : List (ℤ × ℤ × GVals)} (h : SeenGam p ph fac sh n T a)
    (h' : SeenGam p ph fac sh n T' b) : SeenGam p ph fac sh n (T + T') (a ++ b) := by
  intro k2 k3 h2 h3 μ
  rw [mpTotal_append, h k2 k3 h2 h3, h' k2 k3 h2 h3]
  simp [Multiset.filter_add]

end

end TreeCorr
