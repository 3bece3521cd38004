import Verif.Proofs.MpSlop
import Verif.Proofs.MpFields

/-! What the scratch arrays of the multipole algorithm hold with slop, and the entries of the output arrays as sums over the triangles
seen. -/

namespace TreeCorr
open Classical
variable {P : Type} [PseudoMetricSpace P]

/-- The cells of a tree. -/
def SlopCell (δ : ℝ) (apart : Prop) (c : Cell P) : Prop :=
  ((c.Bounded δ ∧ c.SumsOK) ∧ c.Nested) ∧ (apart → c.Bounded 0 ∧ Apart c.objs)

theorem hered_slopCell (δ : ℝ) (apart : Prop) : Hered (SlopCell (P := P) δ apart) := by
  apply (((hered_bounded δ).and hered_sumsOK).and hered_nested).and
  intro d s l r h
  constructor
  · intro ha; exact ⟨(hered_bounded 0 _ _ _ _ (h ha).1).1, (List.pairwise_append.1 (h ha).2).1⟩
  · intro ha; exact ⟨(hered_bounded 0 _ _ _ _ (h ha).1).2, (List.pairwise_append.1 (h ha).2).2.1⟩

theorem single_size {p : Params} (ha : 0 ≤ p.a) {r s : ℝ} (hr : 0 ≤ r) (hs : 0 ≤ s) {o : BinOut}
    (h : logSingleBin (r ^ 2) s p = some o) : s ≤ p.a * r := by
  unfold logSingleBin at h
  split at h
  · rename_i h0; rw [h0]; positivity
  · simp only at h
    split at h
    · cases h
    · rename_i h1
      rw [not_lt] at h1
      have : s ^ 2 ≤ (p.a * r) ^ 2 := by nlinarith
      exact (sq_le_sq₀ hs (by positivity)).1 this

theorem use_bin {p : Params} (hp : LogParams p) {c1 c2 : Cell P} {k : ℤ} {r logr : ℝ} (h : mpPair p c1 c2 = .use k r logr) :
    InLogBin p.minsep p.binsize p.nbins k (dist c1.pos c2.pos) := by
  obtain ⟨g1, g2, g3, g4, g5, -⟩ := mpPair_use hp h
  rw [g3, ← g1]
  exact (truncInt_log hp g4 g5).2.2

theorem slop_pairOk {p : Params} (hp : LogParams p) {δ : ℝ} (hδ : 0 ≤ δ) (apart : Prop) :
    PairOk p (SlopCell (P := P) δ False) (SlopCell δ apart) (SeenNear p δ) (fun o x => OutsideLog p (2 * δ) (dist o.pos x.pos)) where
  size1 := fun c h => h.1.1.1.size_nonneg
  size := fun c h => h.1.1.1.size_nonneg
  nested1 := fun c h => h.1.2
  nested := fun c h => h.1.2
  use := by
    intro c1 c2 k r logr q1 q2 h o1 h1 o2 h2
    have b1 := q1.1.1.1
    have b2 := q2.1.1.1
    have := mpPair_decide11 hp c1 c2
    rw [h] at this
    obtain ⟨e, he, hk, -⟩ := this
    have hd := log_direct hp hδ (wake_bounded b1) (wake_bounded b2) he (o1 := o1) (o2 := o2) (by rwa [wake_objs]) (by rwa [wake_objs])
    rw [hk] at hd
    obtain ⟨g1, -, -, -, -, o, ho⟩ := mpPair_use hp h
    refine ⟨⟨k, use_bin hp h, hd⟩, ?_⟩
    have s := single_size hp.a (by rw [g1]; exact dist_nonneg) (add_nonneg b1.size_nonneg b2.size_nonneg) ho
    have t1 := b1.dist_le hδ h1
    have t2 := b2.dist_le hδ h2
    rw [g1] at s
    unfold Seen.sep
    simp only
    linarith
  skip := by
    intro c1 c2 q1 q2 h o1 h1 o2 h2
    have := mpPair_decide11 hp c1 c2
    rw [h] at this
    obtain ⟨d', hd, hc⟩ := log_drop hp hδ (wake_bounded q1.1.1.1) (wake_bounded q2.1.1.1) (by rw [wake_w]; norm_num)
      (by rw [wake_w]; norm_num) this (o1 := o1) (o2 := o2) (by rwa [wake_objs]) (by rwa [wake_objs])
    exact ⟨d', hd, hc.imp le_of_lt id⟩

/-- The rows seen in bin `k`. -/
noncomputable def seenAt (p : Params) (k : ℤ) (M : List (Seen P)) : Multiset (Seen P) :=
  (M : Multiset (Seen P)).filter fun m => InLogBin p.minsep p.binsize p.nbins k m.sep

theorem seenAt_append (p : Params) (k : ℤ) (M N : List (Seen P)) : seenAt p k (M ++ N) = seenAt p k M + seenAt p k N := by
  unfold seenAt
  rw [← Multiset.coe_add, Multiset.filter_add]

theorem seenAt_none {p : Params} {k : ℤ} {M : List (Seen P)} (h : ∀ m ∈ M, ¬ InLogBin p.minsep p.binsize p.nbins k (dist m.eye m.spot)) :
    seenAt p k M = 0 := by
  unfold seenAt
  rw [Multiset.filter_eq_nil]
  intro m hm
  exact h m (Multiset.mem_coe.1 hm)

/-- The rows of a cell that is used are seen in the bin of the cell only. -/
theorem seenAt_use {p : Params} (hp : LogParams p) {c1 c2 : Cell P} {k : ℤ} {r logr : ℝ} (h : mpPair p c1 c2 = .use k r logr) (j : ℤ) :
    seenAt p j (c2.objs.map fun o => ⟨o, c1.pos, c2.pos⟩) =
      if j = k then ((c2.objs.map fun o => (⟨o, c1.pos, c2.pos⟩ : Seen P)) : Multiset (Seen P)) else 0 := by
  have hb := use_bin hp h
  split
  · rename_i e
    subst e
    unfold seenAt
    rw [Multiset.filter_eq_self]
    intro m hm
    obtain ⟨o, -, rfl⟩ := List.mem_map.1 (Multiset.mem_coe.1 hm)
    exact hb
  · rename_i e
    apply seenAt_none
    intro m hm hj
    obtain ⟨o, -, rfl⟩ := List.mem_map.1 hm
    exact e (inLogBin_unique hp hj hb)

/-- The scratch arrays hold the rows seen. -/
structure MpSeenRep (p : Params) (ph : P → P → ℂ) (maxn : ℕ) (ww : Bool) (apart : Prop) (mp : Scratch) (M : List (Seen P)) : Prop where
  npairs : ∀ k, mp.npairs k = ((seenAt p k M).map fun _ => (1 : ℝ)).sum
  sumw : ∀ k, mp.sumw k = ((seenAt p k M).map fun m => m.row.w).sum
  sumwr : ∀ k, mp.sumwr k = ((seenAt p k M).map fun m => m.row.w * m.sep).sum
  sumwlogr : ∀ k, mp.sumwlogr k = ((seenAt p k M).map fun m => m.row.w * Real.log m.sep).sum
  sumww : ww = true → apart → ∀ k, mp.sumww k = ((seenAt p k M).map fun m => m.row.w ^ 2).sum
  sumwwr : ww = true → apart → ∀ k, mp.sumwwr k = ((seenAt p k M).map fun m => m.row.w ^ 2 * m.sep).sum
  sumwwlogr : ww = true → apart → ∀ k, mp.sumwwlogr k = ((seenAt p k M).map fun m => m.row.w ^ 2 * Real.log m.sep).sum
  sumwwkk : ww = true → apart → ∀ k, mp.sumwwkk k = ((seenAt p k M).map fun m => m.row.wk ^ 2).sum
  Wn : ∀ n ≤ maxn, ∀ k, mp.Wn k n = ((seenAt p k M).map fun m => (m.row.w : ℂ) * ph m.eye m.spot ^ n).sum
  Gn : ∀ n ≤ maxn, ∀ k, mp.Gn k n = ((seenAt p k M).map fun m => (m.row.wk : ℂ) * ph m.eye m.spot ^ n).sum

theorem mpSeen_clear (p : Params) (ph : P → P → ℂ) (maxn : ℕ) (ww : Bool) (apart : Prop) :
    MpSeenRep p ph maxn ww apart Scratch.clear [] := by
  constructor <;> intros <;> simp [Scratch.clear, seenAt]

theorem MpSeenRep.weaken {p : Params} {ph : P → P → ℂ} {maxn : ℕ} {ww : Bool} {apart : Prop} {mp : Scratch} {M : List (Seen P)}
    (h : MpSeenRep p ph maxn ww apart mp M) : MpSeenRep p ph maxn ww False mp M :=
  ⟨h.npairs, h.sumw, h.sumwr, h.sumwlogr, fun _ => False.elim, fun _ => False.elim, fun _ => False.elim, fun _ => False.elim, h.Wn, h.Gn⟩

theorem addAt_seen {p : Params} (hp : LogParams p) {c1 c2 : Cell P} {k : ℤ} {r logr : ℝ} (h : mpPair p c1 c2 = .use k r logr)
    {M : List (Seen P)} {f : ℤ → ℝ} {g : Seen P → ℝ} {v : ℝ} (hf : ∀ j, f j = ((seenAt p j M).map g).sum)
    (hv : v = (c2.objs.map fun o => g ⟨o, c1.pos, c2.pos⟩).sum) (j : ℤ) :
    addAt f k v j = ((seenAt p j (M ++ c2.objs.map fun o => ⟨o, c1.pos, c2.pos⟩)).map g).sum := by
  unfold addAt
  rw [seenAt_append, seenAt_use hp h, Multiset.map_add, Multiset.sum_add, ← hf]
  split
  · rw [hv, Multiset.map_coe, Multiset.sum_coe, List.map_map]; rfl
  · simp

theorem addPowers_seen {p : Params} (hp : LogParams p) {c1 c2 : Cell P} {k : ℤ} {r logr : ℝ} (h : mpPair p c1 c2 = .use k r logr)
    {M : List (Seen P)} {f : ℤ → ℕ → ℂ} {g : Seen P → ℂ} {v : ℝ} {z : ℂ} {maxn n : ℕ} (hn : n ≤ maxn)
    (hf : ∀ j, f j n = ((seenAt p j M).map g).sum) (hv : (v : ℂ) * z ^ n = (c2.objs.map fun o => g ⟨o, c1.pos, c2.pos⟩).sum) (j : ℤ) :
    addPowers f maxn k v z j n = ((seenAt p j (M ++ c2.objs.map fun o => ⟨o, c1.pos, c2.pos⟩)).map g).sum := by
  unfold addPowers
  rw [seenAt_append, seenAt_use hp h, Multiset.map_add, Multiset.sum_add, ← hf]
  by_cases e : j = k
  · rw [if_pos ⟨e, hn⟩, if_pos e, hv, Multiset.map_coe, Multiset.sum_coe, List.map_map]; rfl
  · rw [if_neg (by simp [e]), if_neg e]; simp

theorem mpSeen_step {p : Params} (hp : LogParams p) {ph : P → P → ℂ} {maxn : ℕ} {ww : Bool} {δ : ℝ} {apart : Prop} :
    SeenRep p (calculateGn ph maxn ww) (SlopCell δ False) (SlopCell δ apart) (MpSeenRep p ph maxn ww apart) := by
  intro c1 c2 mp M k r logr q1 q2 h hR
  obtain ⟨g1, g2, -⟩ := mpPair_use hp h
  have s2 := q2.1.1.2
  have ap : apart → c2.Bounded 0 ∧ Apart c2.objs := q2.2
  constructor
  · exact addAt_seen hp h hR.npairs (by rw [s2.n_eq]; simp)
  · exact addAt_seen hp h hR.sumw s2.w_eq
  · exact addAt_seen hp h hR.sumwr (by simp only [Seen.sep]; rw [s2.w_eq, ← g1, List.sum_map_mul_right])
  · exact addAt_seen hp h hR.sumwlogr (by simp only [Seen.sep]; rw [s2.w_eq, ← g1, List.sum_map_mul_right, g2])
  · intro hw hap
    subst hw
    exact addAt_seen hp h (hR.sumww rfl hap) (sumWSq_eq (ap hap).1 s2 (ap hap).2)
  · intro hw hap
    subst hw
    exact addAt_seen hp h (hR.sumwwr rfl hap) (by
      simp only [Seen.sep]; rw [sumWSq_eq (ap hap).1 s2 (ap hap).2, ← g1, List.sum_map_mul_right])
  · intro hw hap
    subst hw
    exact addAt_seen hp h (hR.sumwwlogr rfl hap) (by
      simp only [Seen.sep]; rw [sumWSq_eq (ap hap).1 s2 (ap hap).2, ← g1, List.sum_map_mul_right, g2])
  · intro hw hap
    subst hw
    exact addAt_seen hp h (hR.sumwwkk rfl hap) (sumWKSq_eq (ap hap).1 s2 (ap hap).2)
  · intro n hn
    exact addPowers_seen hp h hn (hR.Wn n hn) (by rw [s2.w_eq, cast_sum_list]; exact (List.sum_map_mul_right ..).symm)
  · intro n hn
    exact addPowers_seen hp h hn (hR.Gn n hn) (by rw [s2.wk_eq, cast_sum_list]; exact (List.sum_map_mul_right ..).symm)

/-! ### Entries -/

section
variable {K : Type} [CommRing K] {p : Params} {ph : P → P → ℂ} {maxn : ℕ} {k2 k3 : ℤ}

/-- The phase factor of a row seen. -/
noncomputable def seenPhase (ph : P → P → ℂ) (n : ℤ) (v : Obj P → ℝ) (m : Seen P) : ℂ := (v m.row : ℂ) * upow (ph m.eye m.spot) n

theorem both_seen (S : Multiset (Seen P)) (v : Obj P → ℝ) (f : ℕ → ℂ) (n : ℤ)
    (h : f n.natAbs = (S.map fun m => (v m.row : ℂ) * ph m.eye m.spot ^ n.natAbs).sum) :
    both f n = (S.map (seenPhase ph n v)).sum := by
  unfold both
  by_cases h0 : 0 ≤ n
  · simp only [if_pos h0]
    rw [h]
    congr 1
    apply Multiset.map_congr rfl
    intro m _
    unfold seenPhase upow
    rw [if_pos h0]
  · simp only [if_neg h0]
    rw [h, map_multiset_sum, Multiset.map_map]
    congr 1
    apply Multiset.map_congr rfl
    intro m _
    unfold seenPhase upow
    rw [if_neg h0]
    simp

/-- An entry of the form `Σ g1(o1) a(2) b(3)`. -/
structure SeenCross (p : Params) (ph : P → P → ℂ) (maxn : ℕ) (k2 k3 : ℤ) (f : MpVals → K) (g1 : Obj P → K) (a b : Seen P → K) : Prop where
  val : ∀ (c : Cell P), c.SumsOK → ∀ (mp2 mp3 : Scratch) (M2 M3 : List (Seen P)),
    MpSeenRep p ph maxn false False mp2 M2 → MpSeenRep p ph maxn false False mp3 M3 →
    f (mpVal2 maxn false c mp2 mp3 k2 k3) = (c.objs.map g1).sum * (((seenAt p k3 M2).map a).sum * ((seenAt p k2 M3).map b).sum)

/-- The same for one list. -/
structure SeenAuto (p : Params) (ph : P → P → ℂ) (maxn : ℕ) (apart : Prop) (k2 k3 : ℤ) (f : MpVals → K) (g1 : Obj P → K)
    (a b d : Seen P → K) : Prop where
  val : ∀ (c : Cell P), c.SumsOK → ∀ (mp : Scratch) (M : List (Seen P)), MpSeenRep p ph maxn true apart mp M →
    f (mpVal maxn c mp k2 k3) = (c.objs.map g1).sum * (((seenAt p k3 M).map a).sum * ((seenAt p k2 M).map b).sum -
      if k2 = k3 then ((seenAt p k2 M).map d).sum else 0)

theorem seenCross_adds {swap23 : Bool} {f : MpVals → K} {g1 : Obj P → K} {a b : Seen P → K} {δ : ℝ}
    (hs : SeenCross p ph maxn k2 k3 f g1 a b) (hsw : SwapOk P maxn k2 k3 swap23 f) (h2 : p.hasBin k2) (h3 : p.hasBin k3) :
    Adds p (SlopCell δ False) (MpSeenRep p ph maxn false False) (calculateZeta2 maxn p.nbins swap23) (fun l => mpTotal f l k2 k3)
      (min k2 k3) (fun o M2 M3 => g1 o * (((seenAt p k3 M2).map a).sum * ((seenAt p k2 M3).map b).sum) +
        if swap23 then g1 o * (((seenAt p k3 M3).map a).sum * ((seenAt p k2 M2).map b).sum) else 0) where
  nil := mpTotal_nil f k2 k3
  append := fun x y => mpTotal_append f x y k2 k3
  eq := by
    intro c mp2 mp3 M2 M3 q1 r2 r3 ks mink _ _
    rw [total_calculateZeta2 f maxn swap23 h2.2 h3.2]
    split
    · rw [hsw, hs.val c q1.1.1.2 _ _ _ _ r2 r3]
      cases swap23
      · simp only [Bool.false_eq_true, if_false, add_zero]
        rw [List.sum_map_mul_right]
      · simp only [if_true]
        rw [hs.val c q1.1.1.2 _ _ _ _ r3 r2, List.sum_map_add, List.sum_map_mul_right, List.sum_map_mul_right]
    · rfl
  loc := by
    intro o M2 M3 M2' M3' h
    have z2 : ∀ k, min k2 k3 ≤ k → seenAt p k M2' = 0 := fun k hk => seenAt_none fun m hm => h m (List.mem_append_left _ hm) k hk
    have z3 : ∀ k, min k2 k3 ≤ k → seenAt p k M3' = 0 := fun k hk => seenAt_none fun m hm => h m (List.mem_append_right _ hm) k hk
    simp only [seenAt_append, z2 _ (min_le_left _ _), z2 _ (min_le_right _ _), z3 _ (min_le_left _ _), z3 _ (min_le_right _ _), add_zero]

theorem seenAuto_adds {f : MpVals → K} {g1 : Obj P → K} {a b d : Seen P → K} {δ : ℝ} {apart : Prop}
    (hs : SeenAuto p ph maxn apart k2 k3 f g1 a b d) (h2 : p.hasBin k2) (h3 : p.hasBin k3) :
    Adds p (SlopCell δ False) (MpSeenRep p ph maxn true apart) (fun c mp _ => calculateZeta maxn p.nbins c mp) (fun l => mpTotal f l k2 k3)
      (min k2 k3) (fun o M _ => g1 o * (((seenAt p k3 M).map a).sum * ((seenAt p k2 M).map b).sum -
        if k2 = k3 then ((seenAt p k2 M).map d).sum else 0)) where
  nil := mpTotal_nil f k2 k3
  append := fun x y => mpTotal_append f x y k2 k3
  eq := by
    intro c mp2 mp3 M2 M3 q1 r2 _ ks mink _ _
    rw [total_calculateZeta f maxn h2.2 h3.2]
    split
    · rw [hs.val c q1.1.1.2 _ _ r2, List.sum_map_mul_right]
    · rfl
  loc := by
    intro o M2 M3 M2' M3' h
    have z2 : ∀ k, min k2 k3 ≤ k → seenAt p k M2' = 0 := fun k hk => seenAt_none fun m hm => h m (List.mem_append_left _ hm) k hk
    simp only [seenAt_append, z2 _ (min_le_left _ _), z2 _ (min_le_right _ _), add_zero]

/-! ### Sums over the triangles seen -/

theorem bind_filter_sum {β : Type} (L : List (View P)) (F : View P → Multiset β) (A : Obj P × β → Prop) (g : Obj P × β → K) :
    (((((L : Multiset (View P)).bind fun v => (F v).map fun q => (v.1, q)).filter A).map g).sum) =
      (L.map fun v => (((F v).filter fun q => A (v.1, q)).map fun q => g (v.1, q)).sum).sum := by
  induction L with
  | nil => simp
  | cons v L ih =>
    rw [← Multiset.cons_coe, Multiset.cons_bind, Multiset.filter_add, Multiset.map_add, Multiset.sum_add, ih, List.map_cons, List.sum_cons]
    congr 1
    rw [filter_map_sum, filter_map_sum, Multiset.map_map]
    rfl

theorem seenTriples_sum (L : List (View P)) (g1 : Obj P → K) (a b : Seen P → K) :
    (((seenTriples L).filter (SeenIn p k2 k3)).map fun q => g1 q.1 * (a q.2.1 * b q.2.2)).sum =
      (L.map fun v => g1 v.1 * (((seenAt p k3 v.2.1).map a).sum * ((seenAt p k2 v.2.2).map b).sum)).sum := by
  unfold seenTriples
  refine (bind_filter_sum L (fun v => (v.2.1 : Multiset (Seen P)) ×ˢ (v.2.2 : Multiset (Seen P))) _ _).trans ?_
  congr 1
  apply List.map_congr_left
  intro v _
  refine (Multiset.sum_map_mul_left (a := g1 v.1) (f := fun q : Seen P × Seen P => a q.1 * b q.2)).trans ?_
  congr 1
  refine Eq.trans ?_ (crossPairs_filter_sum _ _ (fun m : Seen P => InLogBin p.minsep p.binsize p.nbins k3 m.sep)
    (fun m => InLogBin p.minsep p.binsize p.nbins k2 m.sep) a b)
  exact congrArg (fun s => (Multiset.map (fun q : Seen P × Seen P => a q.1 * b q.2) s).sum) (Multiset.filter_congr fun _ _ => Iff.rfl)

theorem seenAt_both (hp : LogParams p) (M : List (Seen P)) :
    ((M : Multiset (Seen P)).filter fun m => InLogBin p.minsep p.binsize p.nbins k3 m.sep ∧ InLogBin p.minsep p.binsize p.nbins k2 m.sep) =
      if k2 = k3 then seenAt p k2 M else 0 := by
  split
  · rename_i h; subst h
    exact Multiset.filter_congr fun m _ => and_self_iff
  · rename_i h
    rw [Multiset.filter_eq_nil]
    rintro m _ ⟨h1, h2⟩
    exact h (inLogBin_unique hp h2 h1)

theorem seenPairs_sum (hp : LogParams p) (L : List (View P)) (g1 : Obj P → K) (a b : Seen P → K) :
    (((seenPairs L).filter (SeenIn p k2 k3)).map fun q => g1 q.1 * (a q.2.1 * b q.2.2)).sum =
      (L.map fun v => g1 v.1 * (((seenAt p k3 v.2.1).map a).sum * ((seenAt p k2 v.2.1).map b).sum -
        if k2 = k3 then ((seenAt p k2 v.2.1).map fun m => a m * b m).sum else 0)).sum := by
  unfold seenPairs
  refine (bind_filter_sum L (fun v => orderedPairs v.2.1) _ _).trans ?_
  congr 1
  apply List.map_congr_left
  intro v _
  refine (Multiset.sum_map_mul_left (a := g1 v.1) (f := fun q : Seen P × Seen P => a q.1 * b q.2)).trans ?_
  congr 1
  have := orderedPairs_filter_sum v.2.1 (fun m : Seen P => InLogBin p.minsep p.binsize p.nbins k3 m.sep)
    (fun m => InLogBin p.minsep p.binsize p.nbins k2 m.sep) a b
  rw [seenAt_both hp] at this
  refine Eq.trans ?_ (this.trans ?_)
  · exact congrArg (fun s => (Multiset.map (fun q : Seen P × Seen P => a q.1 * b q.2) s).sum) (Multiset.filter_congr fun _ _ => Iff.rfl)
  unfold seenAt
  split <;> simp

/-! ### The entries of the arrays -/

theorem conj_sum' {α : Type} (m : Multiset α) (f : α → ℂ) : (starRingEnd ℂ) (m.map f).sum = (m.map fun o => (starRingEnd ℂ) (f o)).sum := by
  rw [map_multiset_sum, Multiset.map_map]; rfl

theorem cast_sum' {α : Type} (m : Multiset α) (g : α → ℝ) : (((m.map g).sum : ℝ) : ℂ) = (m.map fun o => (g o : ℂ)).sum := by
  induction m using Multiset.induction with
  | empty => simp
  | cons a m ih => simp only [Multiset.map_cons, Multiset.sum_cons, Complex.ofReal_add, ih]

theorem seen_Wn {ww : Bool} {apart : Prop} {mp : Scratch} {M : List (Seen P)} (hR : MpSeenRep p ph maxn ww apart mp M) {n : ℤ}
    (hn : n.natAbs ≤ maxn) (k : ℤ) : both (mp.Wn k) n = ((seenAt p k M).map (seenPhase ph n Obj.w)).sum :=
  both_seen _ Obj.w _ n (hR.Wn _ hn k)

theorem seen_Gn {ww : Bool} {apart : Prop} {mp : Scratch} {M : List (Seen P)} (hR : MpSeenRep p ph maxn ww apart mp M) {n : ℤ}
    (hn : n.natAbs ≤ maxn) (k : ℤ) : both (mp.Gn k) n = ((seenAt p k M).map (seenPhase ph n Obj.wk)).sum :=
  both_seen _ Obj.wk _ n (hR.Gn _ hn k)

theorem seenAuto_ntri : SeenAuto p ph maxn False k2 k3 MpVals.ntri (fun _ : Obj P => (1 : ℝ)) (fun _ => 1) (fun _ => 1)
    (fun _ => 1 * 1) where
  val := by
    intro c hs mp M hR
    rw [mpVal_ntri, hR.npairs, hR.npairs, hs.n_eq, one_sum]
    simp only [mul_one]

theorem seenAuto_d2 : SeenAuto p ph maxn True k2 k3 MpVals.meand2 (fun o : Obj P => o.w) (fun m => m.row.w)
    (fun m => m.row.w * m.sep) (fun m => m.row.w * (m.row.w * m.sep)) where
  val := by
    intro c hs mp M hR
    rw [mpVal_d2, hR.sumw, hR.sumwr, hR.sumwwr rfl trivial, hs.w_eq]
    simp only [pow_two, mul_assoc]

theorem seenAuto_logd2 : SeenAuto p ph maxn True k2 k3 MpVals.meanlogd2 (fun o : Obj P => o.w) (fun m => m.row.w)
    (fun m => m.row.w * Real.log m.sep) (fun m => m.row.w * (m.row.w * Real.log m.sep)) where
  val := by
    intro c hs mp M hR
    rw [mpVal_logd2, hR.sumw, hR.sumwlogr, hR.sumwwlogr rfl trivial, hs.w_eq]
    simp only [pow_two, mul_assoc]

theorem seenAuto_d3 : SeenAuto p ph maxn True k2 k3 MpVals.meand3 (fun o : Obj P => o.w) (fun m => m.row.w * m.sep)
    (fun m => m.row.w) (fun m => m.row.w * m.sep * m.row.w) where
  val := by
    intro c hs mp M hR
    rw [mpVal_d3, hR.sumw, hR.sumwr, hR.sumwwr rfl trivial, hs.w_eq]
    have : ∀ m : Seen P, m.row.w ^ 2 * m.sep = m.row.w * m.sep * m.row.w := fun m => by ring
    simp only [this]

theorem seenAuto_logd3 : SeenAuto p ph maxn True k2 k3 MpVals.meanlogd3 (fun o : Obj P => o.w) (fun m => m.row.w * Real.log m.sep)
    (fun m => m.row.w) (fun m => m.row.w * Real.log m.sep * m.row.w) where
  val := by
    intro c hs mp M hR
    rw [mpVal_logd3, hR.sumw, hR.sumwlogr, hR.sumwwlogr rfl trivial, hs.w_eq]
    have : ∀ m : Seen P, m.row.w ^ 2 * Real.log m.sep = m.row.w * Real.log m.sep * m.row.w := fun m => by ring
    simp only [this]

theorem seenAuto_weight {n : ℤ} (hn : n.natAbs ≤ maxn) : SeenAuto p ph maxn True k2 k3 (fun v => v.weight n) (fun o : Obj P => (o.w : ℂ))
    (fun m => (starRingEnd ℂ) (seenPhase ph n Obj.w m)) (seenPhase ph n Obj.w) (fun m => ((m.row.w ^ 2 : ℝ) : ℂ)) where
  val := by
    intro c hs mp M hR
    rw [mpVal_weight _ _ _ _ hn, seen_Wn hR hn, seen_Wn hR hn, hR.sumww rfl trivial, hs.w_eq, cast_sum_list, conj_sum', cast_sum']

theorem seenAuto_zeta {n : ℤ} (hn : n.natAbs ≤ maxn) : SeenAuto p ph maxn True k2 k3 (fun v => v.zeta n) (fun o : Obj P => (o.wk : ℂ))
    (fun m => (starRingEnd ℂ) (seenPhase ph n Obj.wk m)) (seenPhase ph n Obj.wk) (fun m => ((m.row.wk ^ 2 : ℝ) : ℂ)) where
  val := by
    intro c hs mp M hR
    rw [mpVal_zeta _ _ _ _ hn, seen_Gn hR hn, seen_Gn hR hn, hR.sumwwkk rfl trivial, hs.wk_eq, cast_sum_list, conj_sum', cast_sum']

theorem seenCross_ntri : SeenCross p ph maxn k2 k3 MpVals.ntri (fun _ : Obj P => (1 : ℝ)) (fun _ => 1) (fun _ => 1) where
  val := by
    intro c hs mp2 mp3 M2 M3 h2 h3
    simp only [mpVal2, Bool.false_eq_true, if_false, zetaOrd3]
    rw [h2.npairs, h3.npairs, hs.n_eq, one_sum]
    ring

theorem seenCross_d2 : SeenCross p ph maxn k2 k3 MpVals.meand2 (fun o : Obj P => o.w) (fun m => m.row.w) (fun m => m.row.w * m.sep) where
  val := by
    intro c hs mp2 mp3 M2 M3 h2 h3
    simp only [mpVal2, Bool.false_eq_true, if_false, zetaOrd3]
    rw [h2.sumw, h3.sumwr, hs.w_eq]
    ring

theorem seenCross_logd2 : SeenCross p ph maxn k2 k3 MpVals.meanlogd2 (fun o : Obj P => o.w) (fun m => m.row.w)
    (fun m => m.row.w * Real.log m.sep) where
  val := by
    intro c hs mp2 mp3 M2 M3 h2 h3
    simp only [mpVal2, Bool.false_eq_true, if_false, zetaOrd3]
    rw [h2.sumw, h3.sumwlogr, hs.w_eq]
    ring

theorem seenCross_d3 : SeenCross p ph maxn k2 k3 MpVals.meand3 (fun o : Obj P => o.w) (fun m => m.row.w * m.sep) (fun m => m.row.w) where
  val := by
    intro c hs mp2 mp3 M2 M3 h2 h3
    simp only [mpVal2, Bool.false_eq_true, if_false, zetaOrd3]
    rw [h2.sumwr, h3.sumw, hs.w_eq]
    ring

theorem seenCross_logd3 : SeenCross p ph maxn k2 k3 MpVals.meanlogd3 (fun o : Obj P => o.w) (fun m => m.row.w * Real.log m.sep)
    (fun m => m.row.w) where
  val := by
    intro c hs mp2 mp3 M2 M3 h2 h3
    simp only [mpVal2, Bool.false_eq_true, if_false, zetaOrd3]
    rw [h2.sumwlogr, h3.sumw, hs.w_eq]
    ring

theorem seenCross_weight {n : ℤ} (hn : n.natAbs ≤ maxn) : SeenCross p ph maxn k2 k3 (fun v => v.weight n) (fun o : Obj P => (o.w : ℂ))
    (fun m => (starRingEnd ℂ) (seenPhase ph n Obj.w m)) (seenPhase ph n Obj.w) where
  val := by
    intro c hs mp2 mp3 M2 M3 h2 h3
    simp only [mpVal2, Bool.false_eq_true, if_false, zetaOrd3]
    rw [spread_prod hn, seen_Wn h2 hn, seen_Wn h3 hn, hs.w_eq, cast_sum_list, conj_sum']
    ring

theorem seenCross_zeta {n : ℤ} (hn : n.natAbs ≤ maxn) : SeenCross p ph maxn k2 k3 (fun v => v.zeta n) (fun o : Obj P => (o.wk : ℂ))
    (fun m => (starRingEnd ℂ) (seenPhase ph n Obj.wk m)) (seenPhase ph n Obj.wk) where
  val := by
    intro c hs mp2 mp3 M2 M3 h2 h3
    simp only [mpVal2, Bool.false_eq_true, if_false, zetaOrd3]
    rw [spread_prod hn, seen_Gn h2 hn, seen_Gn h3 hn, hs.wk_eq, cast_sum_list, conj_sum']
    ring

/-! ### The phases -/

/-- The direction of a row seen is of modulus one, where it matters. -/
def SeenUnit1 (ph : P → P → ℂ) (n : ℤ) (m : Seen P) : Prop := n = 0 ∨ Complex.normSq (ph m.eye m.spot) = 1

theorem SeenUnit.one {n : ℤ} {L : List (View P)} (h : SeenUnit ph n L) {v : View P} (hv : v ∈ L) :
    (∀ m ∈ v.2.1, SeenUnit1 ph n m) ∧ ∀ m ∈ v.2.2, SeenUnit1 ph n m := by
  rcases h with h | h
  · exact ⟨fun _ _ => .inl h, fun _ _ => .inl h⟩
  · exact ⟨fun m hm => .inr (h v hv m (List.mem_append_left _ hm)), fun m hm => .inr (h v hv m (List.mem_append_right _ hm))⟩

theorem seenPhase_prod {n : ℤ} (v : Obj P → ℝ) {m m' : Seen P} (h : SeenUnit1 ph n m) (h' : SeenUnit1 ph n m') :
    (starRingEnd ℂ) (seenPhase ph n v m) * seenPhase ph n v m' =
      ((v m.row * v m'.row : ℝ) : ℂ) * (ph m'.eye m'.spot / ph m.eye m.spot) ^ n := by
  unfold seenPhase
  rw [map_mul, Complex.conj_ofReal]
  have : (starRingEnd ℂ) (upow (ph m.eye m.spot) n) * upow (ph m'.eye m'.spot) n = (ph m'.eye m'.spot / ph m.eye m.spot) ^ n := by
    rcases h with rfl | h
    · rw [upow_zero, upow_zero]; simp
    · rcases h' with rfl | h'
      · rw [upow_zero, upow_zero]; simp
      · exact upow_phase h' h n
  push_cast
  linear_combination ((v m.row : ℂ) * (v m'.row : ℂ)) * this

theorem seenPhase_sq {n : ℤ} (v : Obj P → ℝ) {m : Seen P} (h : SeenUnit1 ph n m) :
    ((v m.row ^ 2 : ℝ) : ℂ) = (starRingEnd ℂ) (seenPhase ph n v m) * seenPhase ph n v m := by
  unfold seenPhase
  rw [map_mul, Complex.conj_ofReal]
  have : (starRingEnd ℂ) (upow (ph m.eye m.spot) n) * upow (ph m.eye m.spot) n = 1 := by
    rcases h with rfl | h
    · rw [upow_zero]; simp
    · exact upow_unit h n
  push_cast
  linear_combination -((v m.row : ℂ) ^ 2) * this

/-- The rows of a triangle seen. -/
def UnitTri (ph : P → P → ℂ) (n : ℤ) (T : Multiset (Obj P × Seen P × Seen P)) : Prop :=
  ∀ q ∈ T, SeenUnit1 ph n q.2.1 ∧ SeenUnit1 ph n q.2.2

theorem phase_sum {n : ℤ} {T : Multiset (Obj P × Seen P × Seen P)} (hu : UnitTri ph n T) (v : Obj P → ℝ) :
    ((T.filter (SeenIn p k2 k3)).map fun q => (v q.1 : ℂ) * ((starRingEnd ℂ) (seenPhase ph n v q.2.1) * seenPhase ph n v q.2.2)).sum =
      ((T.filter (SeenIn p k2 k3)).map fun q => ((v q.1 * v q.2.1.row * v q.2.2.row : ℝ) : ℂ) *
        (ph q.2.2.eye q.2.2.spot / ph q.2.1.eye q.2.1.spot) ^ n).sum := by
  congr 1
  apply Multiset.map_congr rfl
  intro q hq
  obtain ⟨u1, u2⟩ := hu q (Multiset.mem_filter.1 hq).1
  rw [seenPhase_prod v u1 u2]
  push_cast; ring

theorem mem_seenTriples {L : List (View P)} {q : Obj P × Seen P × Seen P} :
    q ∈ seenTriples L ↔ ∃ v ∈ L, v.1 = q.1 ∧ q.2.1 ∈ v.2.1 ∧ q.2.2 ∈ v.2.2 := by
  obtain ⟨a, b, c⟩ := q
  unfold seenTriples
  simp only [Multiset.mem_bind, Multiset.mem_coe, Multiset.mem_map, Multiset.mem_product, Prod.exists, Prod.mk.injEq]
  constructor
  · rintro ⟨o, M2, M3, hv, x, y, ⟨hx, hy⟩, rfl, rfl, rfl⟩
    exact ⟨o, M2, M3, hv, rfl, hx, hy⟩
  · rintro ⟨o, M2, M3, hv, rfl, hx, hy⟩
    exact ⟨o, M2, M3, hv, _, _, ⟨hx, hy⟩, rfl, rfl, rfl⟩

theorem mem_orderedPairs {α : Type} {l : List α} {x y : α} (h : (x, y) ∈ orderedPairs l) : x ∈ l ∧ y ∈ l := by
  have hbc : (x, y) ∈ (l : Multiset α) ×ˢ (l : Multiset α) := by rw [self_product l]; exact Multiset.mem_add.2 (.inl h)
  exact Multiset.mem_product.1 hbc

theorem mem_seenPairs {L : List (View P)} {q : Obj P × Seen P × Seen P} (h : q ∈ seenPairs L) :
    ∃ v ∈ L, v.1 = q.1 ∧ q.2.1 ∈ v.2.1 ∧ q.2.2 ∈ v.2.1 := by
  unfold seenPairs at h
  obtain ⟨v, hv, h⟩ := Multiset.mem_bind.1 h
  obtain ⟨⟨x, y⟩, hxy, rfl⟩ := Multiset.mem_map.1 h
  exact ⟨v, Multiset.mem_coe.1 hv, rfl, (mem_orderedPairs hxy).1, (mem_orderedPairs hxy).2⟩

end

/-! ### Whole runs -/

/-- The triangles a run over two lists adds up to. -/
noncomputable def seenSwap (swap23 : Bool) (L : List (View P)) : Multiset (Obj P × Seen P × Seen P) :=
  seenTriples L + if swap23 then seenTriples (swapViews L) else 0

section
variable {p : Params} {ph : P → P → ℂ} {maxn : ℕ}

theorem unitTri_swap {n : ℤ} {L : List (View P)} (h : SeenUnit ph n L) (s : Bool) : UnitTri ph n (seenSwap s L) := by
  intro q hq
  rcases Multiset.mem_add.1 hq with hq | hq
  · obtain ⟨v, hv, -, h1, h2⟩ := mem_seenTriples.1 hq
    exact ⟨(h.one hv).1 _ h1, (h.one hv).2 _ h2⟩
  · split at hq
    · obtain ⟨v, hv, -, h1, h2⟩ := mem_seenTriples.1 hq
      obtain ⟨u, hu, rfl⟩ := List.mem_map.1 hv
      exact ⟨(h.one hu).2 _ h1, (h.one hu).1 _ h2⟩
    · simp at hq

theorem unitTri_pairs {n : ℤ} {L : List (View P)} (h : SeenUnit ph n L) : UnitTri ph n (seenPairs L) := by
  intro q hq
  obtain ⟨v, hv, -, h1, h2⟩ := mem_seenPairs hq
  exact ⟨(h.one hv).1 _ h1, (h.one hv).1 _ h2⟩

/-- An entry of a run over two lists. -/
theorem seenCross_total {K : Type} [CommRing K] {k2 k3 : ℤ} {swap23 : Bool} {f : MpVals → K} {g1 : Obj P → K} {a b : Seen P → K} {δ : ℝ}
    {L : List (View P)} {out : List (ℤ × ℤ × MpVals)}
    (hr : RunSums p (SlopCell δ False) (MpSeenRep p ph maxn false False) (calculateZeta2 maxn p.nbins swap23) L out)
    (hs : SeenCross p ph maxn k2 k3 f g1 a b) (hsw : SwapOk P maxn k2 k3 swap23 f) (h2 : p.hasBin k2) (h3 : p.hasBin k3) :
    mpTotal f out k2 k3 = (((seenSwap swap23 L).filter (SeenIn p k2 k3)).map fun q => g1 q.1 * (a q.2.1 * b q.2.2)).sum := by
  rw [hr K _ _ _ (seenCross_adds hs hsw h2 h3), if_pos ⟨le_min h2.1 h3.1, lt_of_le_of_lt (min_le_left _ _) h2.2⟩]
  unfold seenSwap
  rw [Multiset.filter_add, Multiset.map_add, Multiset.sum_add, seenTriples_sum, List.sum_map_add]
  congr 1
  cases swap23
  · simp
  · simp only [if_true]
    rw [seenTriples_sum]
    unfold swapViews
    rw [List.map_map]
    rfl

/-- An entry of a run over one list. -/
theorem seenAuto_total (hp : LogParams p) {K : Type} [CommRing K] {k2 k3 : ℤ} {f : MpVals → K} {g1 : Obj P → K} {a b d : Seen P → K} {δ : ℝ}
    {apart : Prop} {L : List (View P)} {out : List (ℤ × ℤ × MpVals)}
    (hr : RunSums p (SlopCell δ False) (MpSeenRep p ph maxn true apart) (fun c mp _ => calculateZeta maxn p.nbins c mp) L out)
    (hs : SeenAuto p ph maxn apart k2 k3 f g1 a b d) (hd : ∀ v ∈ L, ∀ m ∈ v.2.1, d m = a m * b m) (h2 : p.hasBin k2) (h3 : p.hasBin k3) :
    mpTotal f out k2 k3 = (((seenPairs L).filter (SeenIn p k2 k3)).map fun q => g1 q.1 * (a q.2.1 * b q.2.2)).sum := by
  rw [hr K _ _ _ (seenAuto_adds hs h2 h3), if_pos ⟨le_min h2.1 h3.1, lt_of_le_of_lt (min_le_left _ _) h2.2⟩, seenPairs_sum hp]
  congr 1
  apply List.map_congr_left
  intro v hv
  have : (seenAt p k2 v.2.1).map d = (seenAt p k2 v.2.1).map fun m => a m * b m :=
    Multiset.map_congr rfl fun m hm => hd v hv m (Multiset.mem_coe.1 (Multiset.mem_filter.1 hm).1)
  rw [this]

theorem seen_side2 (T : Multiset (Obj P × Seen P × Seen P)) (φ : ℝ → ℝ) :
    (T.map fun q => q.1.w * (q.2.1.row.w * (q.2.2.row.w * φ q.2.2.sep))).sum = seenSum (fun q => φ q.2.2.sep) T := by
  unfold seenSum; congr 1; exact Multiset.map_congr rfl fun q _ => by ring
theorem seen_side3 (T : Multiset (Obj P × Seen P × Seen P)) (φ : ℝ → ℝ) :
    (T.map fun q => q.1.w * (q.2.1.row.w * φ q.2.1.sep * q.2.2.row.w)).sum = seenSum (fun q => φ q.2.1.sep) T := by
  unfold seenSum; congr 1; exact Multiset.map_congr rfl fun q _ => by ring

/-- What the sums of a run over two lists mean. -/
theorem run2_seen_of {δ : ℝ} {swap23 : Bool} {L : List (View P)} {out : List (ℤ × ℤ × MpVals)}
    (hr : RunSums p (SlopCell δ False) (MpSeenRep p ph maxn false False) (calculateZeta2 maxn p.nbins swap23) L out) :
    SeenCounts p (seenSwap swap23 L) out ∧
      (∀ n : ℤ, n.natAbs ≤ maxn → SeenUnit ph n L → SeenPhases p ph n (seenSwap swap23 L) out) ∧
      SeenMeans p (seenSwap swap23 L) out ∧ (swap23 = false → SeenLog3 p (seenSwap swap23 L) out) := by
  refine ⟨?_, ?_, ?_, ?_⟩
  · intro k2 k3 h2 h3
    rw [seenCross_total hr seenCross_ntri (swapOk_ntri _) h2 h3]
    simp
  · intro n hn hu k2 k3 h2 h3
    have hu := unitTri_swap hu swap23
    rw [seenCross_total hr (seenCross_weight hn) (swapOk_weight _ n) h2 h3, seenCross_total hr (seenCross_zeta hn) (swapOk_zeta _ n) h2 h3]
    exact ⟨phase_sum hu Obj.w, phase_sum hu Obj.wk⟩
  · intro k2 k3 h2 h3
    rw [seenCross_total hr seenCross_d2 (swapOk_d2 _) h2 h3, seenCross_total hr seenCross_logd2 (swapOk_logd2 _) h2 h3,
      seenCross_total hr seenCross_d3 (swapOk_d3 _) h2 h3]
    exact ⟨seen_side2 _ id, seen_side2 _ Real.log, seen_side3 _ id⟩
  · intro hsw k2 k3 h2 h3
    rw [seenCross_total hr seenCross_logd3 (by rw [hsw]; exact swapOk_false _) h2 h3]
    exact seen_side3 _ Real.log

/-- Everything a run over two lists adds up to. -/
theorem run2_seen (hp : LogParams p) {δ : ℝ} (hδ : 0 ≤ δ) (swap23 : Bool) (cells1 cells2 cells3 : List (Cell P))
    (q1 : ∀ c ∈ cells1, SlopCell δ False c) (q2 : ∀ c ∈ cells2, SlopCell δ False c) (q3 : ∀ c ∈ cells3, SlopCell δ False c) :
    ∃ out L, multipole3 p maxn ph swap23 cells1 cells2 cells3 = some out ∧
      SeenViews p δ (objsOf cells1) (objsOf cells2) (objsOf cells3) L ∧
      SeenCounts p (seenSwap swap23 L) out ∧
      (∀ n : ℤ, n.natAbs ≤ maxn → SeenUnit ph n L → SeenPhases p ph n (seenSwap swap23 L) out) ∧
      SeenMeans p (seenSwap swap23 L) out ∧ (swap23 = false → SeenLog3 p (seenSwap swap23 L) out) := by
  obtain ⟨out, L, e, hv, hr⟩ := run2_slop hp (hered_slopCell δ False) (hered_slopCell δ False) (slop_pairOk hp hδ False)
    (mpSeen_step hp (ph := ph) (maxn := maxn) (ww := false)) (zeta := calculateZeta2 maxn p.nbins swap23) (clear := Scratch.clear)
    (mpSeen_clear p ph maxn false False) cells2 cells3 q2 q3 cells1 q1
  exact ⟨out, L, e, ⟨by rw [hv.fst], hv.sees2, hv.sees3⟩, run2_seen_of hr⟩

theorem run_seen_aux (hp : LogParams p) {δ : ℝ} (hδ : 0 ≤ δ) (apart : Prop) (cells1 cells2 : List (Cell P))
    (q1 : ∀ c ∈ cells1, SlopCell δ False c) (q2 : ∀ c ∈ cells2, SlopCell δ apart c) :
    ∃ out L, multipoleRun p (calculateGn ph maxn true) (calculateZeta maxn p.nbins) Scratch.clear cells1 cells2 = some out ∧
      SeenViews p δ (objsOf cells1) (objsOf cells2) [] L ∧
      RunSums p (SlopCell δ False) (MpSeenRep p ph maxn true apart) (fun c mp _ => calculateZeta maxn p.nbins c mp) L out := by
  rw [← run_one]
  obtain ⟨out, L, e, hv, hr⟩ := run2_slop hp (hered_slopCell δ False) (hered_slopCell δ apart) (slop_pairOk hp hδ apart)
    (mpSeen_step hp (ph := ph) (maxn := maxn) (ww := true)) (zeta := fun c mp _ => calculateZeta maxn p.nbins c mp) (clear := Scratch.clear)
    (mpSeen_clear p ph maxn true apart) cells2 [] q2 (by simp) cells1 q1
  exact ⟨out, L, e, ⟨by rw [hv.fst], hv.sees2, hv.sees3⟩, hr⟩

/-- The number of triangles of a run over one list. -/
theorem run_seen (hp : LogParams p) {δ : ℝ} (hδ : 0 ≤ δ) (cells1 cells2 : List (Cell P))
    (q1 : ∀ c ∈ cells1, SlopCell δ False c) (q2 : ∀ c ∈ cells2, SlopCell δ False c) :
    ∃ out L, multipoleRun p (calculateGn ph maxn true) (calculateZeta maxn p.nbins) Scratch.clear cells1 cells2 = some out ∧
      SeenViews p δ (objsOf cells1) (objsOf cells2) [] L ∧ SeenCounts p (seenPairs L) out := by
  obtain ⟨out, L, e, hv, hr⟩ := run_seen_aux (ph := ph) (maxn := maxn) hp hδ False cells1 cells2 q1 q2
  refine ⟨out, L, e, hv, ?_⟩
  intro k2 k3 h2 h3
  rw [seenAuto_total hp hr seenAuto_ntri (fun _ _ _ _ => rfl) h2 h3]
  simp

/-- What the sums of a run over one list mean. -/
theorem run_seen_of (hp : LogParams p) {δ : ℝ} {L : List (View P)} {out : List (ℤ × ℤ × MpVals)}
    (hr : RunSums p (SlopCell δ False) (MpSeenRep p ph maxn true True) (fun c mp _ => calculateZeta maxn p.nbins c mp) L out) :
    SeenCounts p (seenPairs L) out ∧
      (∀ n : ℤ, n.natAbs ≤ maxn → SeenUnit ph n L → SeenPhases p ph n (seenPairs L) out) ∧
      SeenMeans p (seenPairs L) out ∧ SeenLog3 p (seenPairs L) out := by
  refine ⟨?_, ?_, ?_, ?_⟩
  · intro k2 k3 h2 h3
    rw [seenAuto_total hp hr (apart := True) ⟨fun c hs mp M hR => seenAuto_ntri.val c hs mp M (hR.weaken)⟩ (fun _ _ _ _ => rfl) h2 h3]
    simp
  · intro n hn hu k2 k3 h2 h3
    have hu' := unitTri_pairs hu
    rw [seenAuto_total hp hr (seenAuto_weight hn) (fun v hv m hm => seenPhase_sq Obj.w ((hu.one hv).1 m hm)) h2 h3,
      seenAuto_total hp hr (seenAuto_zeta hn) (fun v hv m hm => seenPhase_sq Obj.wk ((hu.one hv).1 m hm)) h2 h3]
    exact ⟨phase_sum hu' Obj.w, phase_sum hu' Obj.wk⟩
  · intro k2 k3 h2 h3
    rw [seenAuto_total hp hr seenAuto_d2 (fun _ _ _ _ => rfl) h2 h3, seenAuto_total hp hr seenAuto_logd2 (fun _ _ _ _ => rfl) h2 h3,
      seenAuto_total hp hr seenAuto_d3 (fun _ _ _ _ => rfl) h2 h3]
    exact ⟨seen_side2 _ id, seen_side2 _ Real.log, seen_side3 _ id⟩
  · intro k2 k3 h2 h3
    rw [seenAuto_total hp hr seenAuto_logd3 (fun _ _ _ _ => rfl) h2 h3]
    exact seen_side3 _ Real.log

/-- Everything a run over one list adds up to. -/
theorem run_seen_apart (hp : LogParams p) {δ : ℝ} (hδ : 0 ≤ δ) (cells1 cells2 : List (Cell P))
    (q1 : ∀ c ∈ cells1, SlopCell δ False c) (q2 : ∀ c ∈ cells2, SlopCell δ True c) :
    ∃ out L, multipoleRun p (calculateGn ph maxn true) (calculateZeta maxn p.nbins) Scratch.clear cells1 cells2 = some out ∧
      SeenViews p δ (objsOf cells1) (objsOf cells2) [] L ∧ SeenCounts p (seenPairs L) out ∧
      (∀ n : ℤ, n.natAbs ≤ maxn → SeenUnit ph n L → SeenPhases p ph n (seenPairs L) out) ∧
      SeenMeans p (seenPairs L) out ∧ SeenLog3 p (seenPairs L) out := by
  obtain ⟨out, L, e, hv, hr⟩ := run_seen_aux (ph := ph) (maxn := maxn) hp hδ True cells1 cells2 q1 q2
  exact ⟨out, L, e, hv, run_seen_of hp hr⟩

/-! Putting runs together. -/

theorem SeenCounts.append {T T' : Multiset (Obj P × Seen P × Seen P)} {a b : List (ℤ × ℤ × MpVals)} (h : SeenCounts p T a)
    (h' : SeenCounts p T' b) : SeenCounts p (T + T') (a ++ b) := by
  intro k2 k3 h2 h3
  rw [mpTotal_append, h k2 k3 h2 h3, h' k2 k3 h2 h3]
  simp [Multiset.filter_add]

theorem SeenPhases.append {n : ℤ} {T T' : Multiset (Obj P × Seen P × Seen P)} {a b : List (ℤ × ℤ × MpVals)} (h : SeenPhases p ph n T a)
    (h' : SeenPhases p ph n T' b) : SeenPhases p ph n (T + T') (a ++ b) := by
  intro k2 k3 h2 h3
  obtain ⟨e1, e2⟩ := h k2 k3 h2 h3
  obtain ⟨f1, f2⟩ := h' k2 k3 h2 h3
  rw [mpTotal_append, mpTotal_append, e1, e2, f1, f2]
  simp [Multiset.filter_add]

theorem SeenMeans.append {T T' : Multiset (Obj P × Seen P × Seen P)} {a b : List (ℤ × ℤ × MpVals)} (h : SeenMeans p T a)
    (h' : SeenMeans p T' b) : SeenMeans p (T + T') (a ++ b) := by
  intro k2 k3 h2 h3
  obtain ⟨e1, e2, e3⟩ := h k2 k3 h2 h3
  obtain ⟨f1, f2, f3⟩ := h' k2 k3 h2 h3
  rw [mpTotal_append, mpTotal_append, mpTotal_append, e1, e2, e3, f1, f2, f3]
  simp [seenSum, Multiset.filter_add]

end

end TreeCorr
