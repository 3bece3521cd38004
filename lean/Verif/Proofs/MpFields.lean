import Verif.Proofs.MpTriples

/-! Each output array of the multipole algorithm is a sum of products over the three points. -/

namespace TreeCorr
open Classical
variable {P : Type} [PseudoMetricSpace P]

/-- The factor of point 3 in `weight` and `zeta` of index `n`; that of point 2 is its conjugate. -/
noncomputable def mpPhase (ph : P → P → ℂ) (n : ℤ) (v : Obj P → ℝ) (x : P) (o : Obj P) : ℂ := (v o : ℂ) * upow (ph x o.pos) n

/-- The index `n` for which the phases are exact. -/
def PhaseOk (p : Params) (ph : P → P → ℂ) (n : ℤ) : Prop := n = 0 ∨ p.a = 0 ∧ SamePhase ph

/-- The phase is of modulus one, unless it is not used. -/
def UnitAt (ph : P → P → ℂ) (n : ℤ) (x : P) (o : Obj P) : Prop := n = 0 ∨ Complex.normSq (ph x o.pos) = 1

theorem upow_zero (z : ℂ) : upow z 0 = 1 := by simp [upow]

theorem mpPhase_same {p : Params} {ph : P → P → ℂ} {n : ℤ} (h : PhaseOk p ph n) (v : Obj P → ℝ) {x x' : P} (o : Obj P)
    (hx : dist x x' = 0) : mpPhase ph n v x o = mpPhase ph n v x' o := by
  unfold mpPhase
  rcases h with rfl | ⟨-, h⟩
  · rw [upow_zero, upow_zero]
  · rw [h _ _ _ _ hx (dist_self o.pos)]

theorem mpPhase_sq {ph : P → P → ℂ} {n : ℤ} (v : Obj P → ℝ) {x : P} {o : Obj P} (h : UnitAt ph n x o) : (starRingEnd ℂ) (mpPhase ph n v x o) * mpPhase ph n v x o = ((v o ^ 2 : ℝ) : ℂ) := by
  unfold mpPhase
  rw [map_mul, Complex.conj_ofReal]
  have : (starRingEnd ℂ) (upow (ph x o.pos) n) * upow (ph x o.pos) n = 1 := by
    rcases h with rfl | h
    · rw [upow_zero]; simp
    · exact upow_unit h n
  push_cast
  linear_combination ((v o : ℂ) ^ 2) * this

theorem mpPhase_prod {ph : P → P → ℂ} {n : ℤ} (v : Obj P → ℝ) {x : P} {o o' : Obj P}
    (h : UnitAt ph n x o) (h' : UnitAt ph n x o') :
    (starRingEnd ℂ) (mpPhase ph n v x o) * mpPhase ph n v x o' = ((v o * v o' : ℝ) : ℂ) * (ph x o'.pos / ph x o.pos) ^ n := by
  unfold mpPhase
  rw [map_mul, Complex.conj_ofReal]
  have : (starRingEnd ℂ) (upow (ph x o.pos) n) * upow (ph x o'.pos) n = (ph x o'.pos / ph x o.pos) ^ n := by
    rcases h with rfl | h
    · rw [upow_zero, upow_zero]; simp
    · rcases h' with rfl | h'
      · rw [upow_zero, upow_zero]; simp
      · exact upow_phase h' h n
  push_cast
  linear_combination ((v o : ℂ) * (v o' : ℂ)) * this

theorem cast_sum_mul (m : Multiset (Obj P)) (g : Obj P → ℝ) : (((m.map g).sum : ℝ) : ℂ) = (m.map fun o => (g o : ℂ)).sum := by
  induction m using Multiset.induction with
  | empty => simp
  | cons a m ih => simp only [Multiset.map_cons, Multiset.sum_cons, Complex.ofReal_add, ih]

theorem one_sum (l : List (Obj P)) : (l.map fun _ => (1 : ℝ)).sum = (l.length : ℝ) := by simp

section
variable {p : Params} {ph : P → P → ℂ} {maxn : ℕ} {k2 k3 : ℤ}

theorem sep_ntri : SepAuto p ph maxn False k2 k3 MpVals.ntri (fun _ : Obj P => (1 : ℝ)) (fun _ _ => 1) (fun _ _ => 1) (fun _ _ => True) where
  val := by
    intro c hs x mp R hR _
    rw [mpVal_ntri, hR.npairs, hR.npairs, hs.n_eq, one_sum]
    simp only [mul_one]
  same := fun _ _ _ _ => ⟨rfl, rfl⟩

theorem sep_d2 (ha : p.a = 0) : SepAuto p ph maxn True k2 k3 MpVals.meand2 (fun o : Obj P => o.w) (fun _ o => o.w)
    (fun x o => o.w * dist x o.pos) (fun _ _ => True) where
  val := by
    intro c hs x mp R hR _
    rw [mpVal_d2, hR.sumw, hR.sumwr ha, hR.sumwwr rfl trivial ha, hs.w_eq]
    simp only [pow_two, mul_assoc]
  same := fun x x' o h => ⟨rfl, by rw [dist_of_zero (u := x') (v := o.pos) h.le (by rw [dist_self])]⟩

theorem sep_logd2 (ha : p.a = 0) : SepAuto p ph maxn True k2 k3 MpVals.meanlogd2 (fun o : Obj P => o.w) (fun _ o => o.w)
    (fun x o => o.w * Real.log (dist x o.pos)) (fun _ _ => True) where
  val := by
    intro c hs x mp R hR _
    rw [mpVal_logd2, hR.sumw, hR.sumwlogr ha, hR.sumwwlogr rfl trivial ha, hs.w_eq]
    simp only [pow_two, mul_assoc]
  same := fun x x' o h => ⟨rfl, by rw [dist_of_zero (u := x') (v := o.pos) h.le (by rw [dist_self])]⟩

theorem sep_d3 (ha : p.a = 0) : SepAuto p ph maxn True k2 k3 MpVals.meand3 (fun o : Obj P => o.w)
    (fun x o => o.w * dist x o.pos) (fun _ o => o.w) (fun _ _ => True) where
  val := by
    intro c hs x mp R hR _
    rw [mpVal_d3, hR.sumw, hR.sumwr ha, hR.sumwwr rfl trivial ha, hs.w_eq]
    have : ∀ o : Obj P, o.w ^ 2 * dist x o.pos = o.w * dist x o.pos * o.w := fun o => by ring
    simp only [this]
  same := fun x x' o h => ⟨by rw [dist_of_zero (u := x') (v := o.pos) h.le (by rw [dist_self])], rfl⟩

theorem sep_logd3 (ha : p.a = 0) : SepAuto p ph maxn True k2 k3 MpVals.meanlogd3 (fun o : Obj P => o.w)
    (fun x o => o.w * Real.log (dist x o.pos)) (fun _ o => o.w) (fun _ _ => True) where
  val := by
    intro c hs x mp R hR _
    rw [mpVal_logd3, hR.sumw, hR.sumwlogr ha, hR.sumwwlogr rfl trivial ha, hs.w_eq]
    have : ∀ o : Obj P, o.w ^ 2 * Real.log (dist x o.pos) = o.w * Real.log (dist x o.pos) * o.w := fun o => by ring
    simp only [this]
  same := fun x x' o h => ⟨by rw [dist_of_zero (u := x') (v := o.pos) h.le (by rw [dist_self])], rfl⟩

theorem rep_Wn {ww : Bool} {apart : Prop} {x : P} {mp : Scratch} {R : ℤ → Multiset (Obj P)} (hR : MpRep p ph maxn ww apart x mp R)
    {n : ℤ} (hn : n.natAbs ≤ maxn) (h : PhaseOk p ph n) (k : ℤ) :
    both (mp.Wn k) n = ((R k).map (mpPhase ph n Obj.w x)).sum :=
  both_sum (R k) Obj.w (fun o => ph x o.pos) _ n (hR.Wn _ hn (h.imp (fun e => by rw [e]; rfl) id) k)

theorem rep_Gn {ww : Bool} {apart : Prop} {x : P} {mp : Scratch} {R : ℤ → Multiset (Obj P)} (hR : MpRep p ph maxn ww apart x mp R)
    {n : ℤ} (hn : n.natAbs ≤ maxn) (h : PhaseOk p ph n) (k : ℤ) :
    both (mp.Gn k) n = ((R k).map (mpPhase ph n Obj.wk x)).sum :=
  both_sum (R k) Obj.wk (fun o => ph x o.pos) _ n (hR.Gn _ hn (h.imp (fun e => by rw [e]; rfl) id) k)

theorem conj_sum (m : Multiset (Obj P)) (f : Obj P → ℂ) : (starRingEnd ℂ) (m.map f).sum = (m.map fun o => (starRingEnd ℂ) (f o)).sum := by
  rw [map_multiset_sum, Multiset.map_map]; rfl

theorem sq_sum {n : ℤ} (v : Obj P → ℝ) {x : P} (m : Multiset (Obj P)) (hm : ∀ o ∈ m, UnitAt ph n x o) :
    (((m.map fun o => v o ^ 2).sum : ℝ) : ℂ) = (m.map fun o => (starRingEnd ℂ) (mpPhase ph n v x o) * mpPhase ph n v x o).sum := by
  rw [cast_sum_mul]
  congr 1
  apply Multiset.map_congr rfl
  intro o ho
  rw [mpPhase_sq v (hm o ho)]

theorem sep_weight {n : ℤ} (hn : n.natAbs ≤ maxn) (h : PhaseOk p ph n) :
    SepAuto p ph maxn True k2 k3 (fun v => v.weight n) (fun o : Obj P => (o.w : ℂ))
      (fun x o => (starRingEnd ℂ) (mpPhase ph n Obj.w x o)) (mpPhase ph n Obj.w) (UnitAt ph n) where
  val := by
    intro c hs x mp R hR g2
    rw [mpVal_weight _ _ _ _ hn, rep_Wn hR hn h, rep_Wn hR hn h, hR.sumww rfl trivial, hs.w_eq, cast_sum_list, conj_sum,
      sq_sum Obj.w _ g2]
  same := fun x x' o hx => by rw [mpPhase_same h Obj.w o hx]; exact ⟨rfl, rfl⟩

theorem sep_zeta {n : ℤ} (hn : n.natAbs ≤ maxn) (h : PhaseOk p ph n) :
    SepAuto p ph maxn True k2 k3 (fun v => v.zeta n) (fun o : Obj P => (o.wk : ℂ))
      (fun x o => (starRingEnd ℂ) (mpPhase ph n Obj.wk x o)) (mpPhase ph n Obj.wk) (UnitAt ph n) where
  val := by
    intro c hs x mp R hR g2
    rw [mpVal_zeta _ _ _ _ hn, rep_Gn hR hn h, rep_Gn hR hn h, hR.sumwwkk rfl trivial, hs.wk_eq, cast_sum_list, conj_sum,
      sq_sum Obj.wk _ g2]
  same := fun x x' o hx => by rw [mpPhase_same h Obj.wk o hx]; exact ⟨rfl, rfl⟩

/-! The same for two lists. -/

theorem cross_ntri : SepCross p ph maxn k2 k3 MpVals.ntri (fun _ : Obj P => (1 : ℝ)) (fun _ _ => 1) (fun _ _ => 1) where
  val := by
    intro c hs x mp2 mp3 R2 R3 h2 h3
    simp only [mpVal2, Bool.false_eq_true, if_false, zetaOrd3]
    rw [h2.npairs, h3.npairs, hs.n_eq, one_sum]
    ring
  same := fun _ _ _ _ => ⟨rfl, rfl⟩

theorem cross_d2 (ha : p.a = 0) : SepCross p ph maxn k2 k3 MpVals.meand2 (fun o : Obj P => o.w) (fun _ o => o.w)
    (fun x o => o.w * dist x o.pos) where
  val := by
    intro c hs x mp2 mp3 R2 R3 h2 h3
    simp only [mpVal2, Bool.false_eq_true, if_false, zetaOrd3]
    rw [h2.sumw, h3.sumwr ha, hs.w_eq]
    ring
  same := (sep_d2 (ph := ph) (maxn := maxn) (k2 := k2) (k3 := k3) ha).same

theorem cross_logd2 (ha : p.a = 0) : SepCross p ph maxn k2 k3 MpVals.meanlogd2 (fun o : Obj P => o.w) (fun _ o => o.w)
    (fun x o => o.w * Real.log (dist x o.pos)) where
  val := by
    intro c hs x mp2 mp3 R2 R3 h2 h3
    simp only [mpVal2, Bool.false_eq_true, if_false, zetaOrd3]
    rw [h2.sumw, h3.sumwlogr ha, hs.w_eq]
    ring
  same := (sep_logd2 (ph := ph) (maxn := maxn) (k2 := k2) (k3 := k3) ha).same

theorem cross_d3 (ha : p.a = 0) : SepCross p ph maxn k2 k3 MpVals.meand3 (fun o : Obj P => o.w)
    (fun x o => o.w * dist x o.pos) (fun _ o => o.w) where
  val := by
    intro c hs x mp2 mp3 R2 R3 h2 h3
    simp only [mpVal2, Bool.false_eq_true, if_false, zetaOrd3]
    rw [h2.sumwr ha, h3.sumw, hs.w_eq]
    ring
  same := (sep_d3 (ph := ph) (maxn := maxn) (k2 := k2) (k3 := k3) ha).same

theorem cross_logd3 (ha : p.a = 0) : SepCross p ph maxn k2 k3 MpVals.meanlogd3 (fun o : Obj P => o.w)
    (fun x o => o.w * Real.log (dist x o.pos)) (fun _ o => o.w) where
  val := by
    intro c hs x mp2 mp3 R2 R3 h2 h3
    simp only [mpVal2, Bool.false_eq_true, if_false, zetaOrd3]
    rw [h2.sumwlogr ha, h3.sumw, hs.w_eq]
    ring
  same := (sep_logd3 (ph := ph) (maxn := maxn) (k2 := k2) (k3 := k3) ha).same

theorem cross_weight {n : ℤ} (hn : n.natAbs ≤ maxn) (h : PhaseOk p ph n) :
    SepCross p ph maxn k2 k3 (fun v => v.weight n) (fun o : Obj P => (o.w : ℂ))
      (fun x o => (starRingEnd ℂ) (mpPhase ph n Obj.w x o)) (mpPhase ph n Obj.w) where
  val := by
    intro c hs x mp2 mp3 R2 R3 h2 h3
    simp only [mpVal2, Bool.false_eq_true, if_false, zetaOrd3]
    rw [spread_prod hn, rep_Wn h2 hn h, rep_Wn h3 hn h, hs.w_eq, cast_sum_list, conj_sum]
    ring
  same := (sep_weight (k2 := k2) (k3 := k3) hn h).same

theorem cross_zeta {n : ℤ} (hn : n.natAbs ≤ maxn) (h : PhaseOk p ph n) :
    SepCross p ph maxn k2 k3 (fun v => v.zeta n) (fun o : Obj P => (o.wk : ℂ))
      (fun x o => (starRingEnd ℂ) (mpPhase ph n Obj.wk x o)) (mpPhase ph n Obj.wk) where
  val := by
    intro c hs x mp2 mp3 R2 R3 h2 h3
    simp only [mpVal2, Bool.false_eq_true, if_false, zetaOrd3]
    rw [spread_prod hn, rep_Gn h2 hn h, rep_Gn h3 hn h, hs.wk_eq, cast_sum_list, conj_sum]
    ring
  same := (sep_zeta (k2 := k2) (k3 := k3) hn h).same

/-- With `swap23` the entry is that of both orders of the two lists. -/
def SwapOk (P : Type) {K : Type} [CommRing K] (maxn : ℕ) (k2 k3 : ℤ) (swap23 : Bool) (f : MpVals → K) : Prop :=
  ∀ (c : Cell P) mp2 mp3, f (mpVal2 maxn swap23 c mp2 mp3 k2 k3) =
      f (mpVal2 maxn false c mp2 mp3 k2 k3) + if swap23 then f (mpVal2 maxn false c mp3 mp2 k2 k3) else 0

theorem swapOk_false {K : Type} [CommRing K] (f : MpVals → K) : SwapOk P maxn k2 k3 false f := by
  intro c mp2 mp3; simp

theorem swapOk_ntri (s : Bool) : SwapOk P maxn k2 k3 s MpVals.ntri := by
  intro c mp2 mp3; cases s <;> simp only [mpVal2, Bool.false_eq_true, if_false, if_true, zetaOrd1, zetaOrd3] <;> ring
theorem swapOk_d2 (s : Bool) : SwapOk P maxn k2 k3 s MpVals.meand2 := by
  intro c mp2 mp3; cases s <;> simp only [mpVal2, Bool.false_eq_true, if_false, if_true, zetaOrd1, zetaOrd3] <;> ring
theorem swapOk_logd2 (s : Bool) : SwapOk P maxn k2 k3 s MpVals.meanlogd2 := by
  intro c mp2 mp3; cases s <;> simp only [mpVal2, Bool.false_eq_true, if_false, if_true, zetaOrd1, zetaOrd3] <;> ring
theorem swapOk_d3 (s : Bool) : SwapOk P maxn k2 k3 s MpVals.meand3 := by
  intro c mp2 mp3; cases s <;> simp only [mpVal2, Bool.false_eq_true, if_false, if_true, zetaOrd1, zetaOrd3] <;> ring

theorem spread_add (f g : ℕ → ℂ) (n : ℤ) : spread maxn (fun m => f m + g m) n = spread maxn f n + spread maxn g n := by
  unfold spread
  split
  · split <;> simp
  · simp

theorem swapOk_weight (s : Bool) (n : ℤ) : SwapOk P maxn k2 k3 s (fun v => v.weight n) := by
  intro c mp2 mp3; cases s <;> simp only [mpVal2, Bool.false_eq_true, if_false, if_true, zetaOrd1, zetaOrd3, spread_add, add_zero]
theorem swapOk_zeta (s : Bool) (n : ℤ) : SwapOk P maxn k2 k3 s (fun v => v.zeta n) := by
  intro c mp2 mp3; cases s <;> simp only [mpVal2, Bool.false_eq_true, if_false, if_true, zetaOrd1, zetaOrd3, spread_add, add_zero]

/-! The sums of products as the sums of the specification. -/

theorem sum_ntri (T : Multiset (Obj P × Obj P × Obj P)) :
    (T.map fun _ => (1 : ℝ) * 1 * 1).sum = brute3N T := by simp [brute3N]

/-- The phases in the triples are of modulus one. -/
def UnitOn (ph : P → P → ℂ) (n : ℤ) (T : Multiset (Obj P × Obj P × Obj P)) : Prop :=
  ∀ q ∈ T, (dist q.1.pos q.2.1.pos ≠ 0 → UnitAt ph n q.1.pos q.2.1) ∧ (dist q.1.pos q.2.2.pos ≠ 0 → UnitAt ph n q.1.pos q.2.2)

theorem sum_weight (hp : LogParams p) {n : ℤ} (T : Multiset (Obj P × Obj P × Obj P)) (hu : UnitOn ph n T) :
    ((T.filter (InSides p k2 k3)).map fun q => (q.1.w : ℂ) * (starRingEnd ℂ) (mpPhase ph n Obj.w q.1.pos q.2.1) *
      mpPhase ph n Obj.w q.1.pos q.2.2).sum = phaseW ph n (T.filter (InSides p k2 k3)) := by
  unfold phaseW
  congr 1
  apply Multiset.map_congr rfl
  intro q hq
  obtain ⟨e1, e2⟩ := (Multiset.mem_filter.1 hq).2.ne hp
  obtain ⟨u1, u2⟩ := hu q (Multiset.mem_filter.1 hq).1
  rw [mul_assoc, mpPhase_prod Obj.w (u1 e1) (u2 e2)]
  push_cast; ring

theorem sum_zeta (hp : LogParams p) {n : ℤ} (T : Multiset (Obj P × Obj P × Obj P)) (hu : UnitOn ph n T) :
    ((T.filter (InSides p k2 k3)).map fun q => (q.1.wk : ℂ) * (starRingEnd ℂ) (mpPhase ph n Obj.wk q.1.pos q.2.1) *
      mpPhase ph n Obj.wk q.1.pos q.2.2).sum = phaseZ ph n (T.filter (InSides p k2 k3)) := by
  unfold phaseZ
  congr 1
  apply Multiset.map_congr rfl
  intro q hq
  obtain ⟨e1, e2⟩ := (Multiset.mem_filter.1 hq).2.ne hp
  obtain ⟨u1, u2⟩ := hu q (Multiset.mem_filter.1 hq).1
  rw [mul_assoc, mpPhase_prod Obj.wk (u1 e1) (u2 e2)]
  push_cast; ring

theorem sum_side2 (T : Multiset (Obj P × Obj P × Obj P)) (φ : ℝ → ℝ) :
    (T.map fun q => q.1.w * q.2.1.w * (q.2.2.w * φ (dist q.1.pos q.2.2.pos))).sum = brute3 (fun q => φ (side2 q)) T := by
  unfold brute3 side2
  simp only [mul_assoc]

theorem sum_side3 (T : Multiset (Obj P × Obj P × Obj P)) (φ : ℝ → ℝ) :
    (T.map fun q => q.1.w * (q.2.1.w * φ (dist q.1.pos q.2.1.pos)) * q.2.2.w).sum = brute3 (fun q => φ (side3 q)) T := by
  unfold brute3 side3
  congr 1
  apply Multiset.map_congr rfl
  intro q _; ring

end

/-! ### The runs -/

section
variable {p : Params} {ph : P → P → ℂ} {maxn : ℕ}

theorem mpCell_weaken {apart : Prop} {c : Cell P} (h : MpCell apart c) : MpCell False c := ⟨h.1, False.elim⟩

theorem unitOn_cross12 {n : ℤ} {l1 l2 : List (Obj P)}
    (h : ∀ o1 ∈ l1, ∀ o2 ∈ l2, dist o1.pos o2.pos ≠ 0 → UnitAt ph n o1.pos o2) : UnitOn ph n (cross12Triples l1 l2) := by
  rintro ⟨a, b, c⟩ hq
  obtain ⟨h1, h2⟩ := Multiset.mem_product.1 hq
  have hm : b ∈ l2 ∧ c ∈ l2 := by
    have := self_product l2
    have hbc : (b, c) ∈ (l2 : Multiset (Obj P)) ×ˢ (l2 : Multiset (Obj P)) := by rw [this]; exact Multiset.mem_add.2 (.inl h2)
    obtain ⟨hb, hc⟩ := Multiset.mem_product.1 hbc
    exact ⟨hb, hc⟩
  exact ⟨h a h1 b hm.1, h a h1 c hm.2⟩

/-- Everything a run over one list adds up to. -/
theorem run_holds (hp : LogParams p) (hnb : 0 < p.nbins) (hsh : Sharp p) (cells1 cells2 : List (Cell P)) (q1 : ∀ c ∈ cells1, MpCell False c)
    (q2 : ∀ c ∈ cells2, MpCell False c) :
    ∃ out, multipoleRun p (calculateGn ph maxn true) (calculateZeta maxn p.nbins) Scratch.clear cells1 cells2 = some out ∧
      MpCounts p (cross12Triples (objsOf cells1) (objsOf cells2)) out ∧
      ((∀ c ∈ cells2, MpCell True c) →
        (∀ n : ℤ, n.natAbs ≤ maxn → PhaseOk p ph n →
          (∀ o1 ∈ objsOf cells1, ∀ o2 ∈ objsOf cells2, dist o1.pos o2.pos ≠ 0 → UnitAt ph n o1.pos o2) →
          MpPhases p ph n (cross12Triples (objsOf cells1) (objsOf cells2)) out) ∧
        (p.a = 0 → MpMeans p (cross12Triples (objsOf cells1) (objsOf cells2)) out ∧
          MpLog3 p (cross12Triples (objsOf cells1) (objsOf cells2)) out)) := by
  obtain ⟨out, e, -⟩ := auto_total (ph := ph) (maxn := maxn) hp hsh (sep_ntri (k2 := 0) (k3 := 0)) ⟨le_rfl, hnb⟩ ⟨le_rfl, hnb⟩ cells1 cells2 q1 q2 (fun _ _ _ _ _ => trivial)
  refine ⟨out, e, ?_, ?_⟩
  · intro k2 k3 h2 h3
    obtain ⟨out', e', t⟩ := auto_total (ph := ph) (maxn := maxn) hp hsh sep_ntri h2 h3 cells1 cells2 q1 q2 (fun _ _ _ _ _ => trivial)
    rw [e] at e'; cases e'
    rw [t, sum_ntri]
  · intro q2
    refine ⟨?_, ?_⟩
    · intro n hn hph hu k2 k3 h2 h3
      obtain ⟨out', e', t⟩ := auto_total hp hsh (sep_weight hn hph) h2 h3 cells1 cells2 q1 q2 hu
      rw [e] at e'; cases e'
      obtain ⟨out', e', t'⟩ := auto_total hp hsh (sep_zeta hn hph) h2 h3 cells1 cells2 q1 q2 hu
      rw [e] at e'; cases e'
      rw [t, t', sum_weight hp _ (unitOn_cross12 hu), sum_zeta hp _ (unitOn_cross12 hu)]
      exact ⟨rfl, rfl⟩
    · intro ha
      constructor
      · intro k2 k3 h2 h3
        obtain ⟨out', e', t⟩ := auto_total (ph := ph) (maxn := maxn) hp hsh (sep_d2 ha) h2 h3 cells1 cells2 q1 q2 (fun _ _ _ _ _ => trivial)
        rw [e] at e'; cases e'
        obtain ⟨out', e', t'⟩ := auto_total (ph := ph) (maxn := maxn) hp hsh (sep_logd2 ha) h2 h3 cells1 cells2 q1 q2 (fun _ _ _ _ _ => trivial)
        rw [e] at e'; cases e'
        obtain ⟨out', e', t''⟩ := auto_total (ph := ph) (maxn := maxn) hp hsh (sep_d3 ha) h2 h3 cells1 cells2 q1 q2 (fun _ _ _ _ _ => trivial)
        rw [e] at e'; cases e'
        rw [t, t', t'', sum_side2 _ Real.log]
        exact ⟨sum_side2 _ id, rfl, sum_side3 _ id⟩
      · intro k2 k3 h2 h3
        obtain ⟨out', e', t⟩ := auto_total (ph := ph) (maxn := maxn) hp hsh (sep_logd3 ha) h2 h3 cells1 cells2 q1 q2 (fun _ _ _ _ _ => trivial)
        rw [e] at e'; cases e'
        rw [t]
        exact sum_side3 _ Real.log

/-- The triples a run over two lists adds up to. -/
def swapTriples {α : Type} (swap23 : Bool) (l1 l2 l3 : List α) : Multiset (α × α × α) :=
  crossTriples l1 l2 l3 + if swap23 then crossTriples l1 l3 l2 else 0

/-- Everything a run over two lists adds up to. -/
theorem run2_holds (hp : LogParams p) (hnb : 0 < p.nbins) (hsh : Sharp p) (swap23 : Bool) (cells1 cells2 cells3 : List (Cell P))
    (q1 : ∀ c ∈ cells1, MpCell False c) (q2 : ∀ c ∈ cells2, MpCell False c) (q3 : ∀ c ∈ cells3, MpCell False c) :
    ∃ out, multipole3 p maxn ph swap23 cells1 cells2 cells3 = some out ∧
      MpCounts p (swapTriples swap23 (objsOf cells1) (objsOf cells2) (objsOf cells3)) out ∧
      (∀ n : ℤ, n.natAbs ≤ maxn → PhaseOk p ph n →
        UnitOn ph n (swapTriples swap23 (objsOf cells1) (objsOf cells2) (objsOf cells3)) →
        MpPhases p ph n (swapTriples swap23 (objsOf cells1) (objsOf cells2) (objsOf cells3)) out) ∧
      (p.a = 0 → MpMeans p (swapTriples swap23 (objsOf cells1) (objsOf cells2) (objsOf cells3)) out) ∧
      (p.a = 0 → swap23 = false → MpLog3 p (swapTriples swap23 (objsOf cells1) (objsOf cells2) (objsOf cells3)) out) := by
  obtain ⟨out, e, -⟩ := cross_total (ph := ph) (maxn := maxn) hp hsh (cross_ntri (k2 := 0) (k3 := 0)) (swapOk_ntri swap23)
    ⟨le_rfl, hnb⟩ ⟨le_rfl, hnb⟩ cells1 cells2 cells3 q1 q2 q3
  refine ⟨out, e, ?_, ?_, ?_, ?_⟩
  · intro k2 k3 h2 h3
    obtain ⟨out', e', t⟩ := cross_total (ph := ph) (maxn := maxn) hp hsh cross_ntri (swapOk_ntri swap23) h2 h3 cells1 cells2 cells3 q1 q2 q3
    rw [e] at e'; cases e'
    rw [t, sum_ntri]; rfl
  · intro n hn hph hu k2 k3 h2 h3
    obtain ⟨out', e', t⟩ := cross_total hp hsh (cross_weight hn hph) (swapOk_weight swap23 n) h2 h3 cells1 cells2 cells3 q1 q2 q3
    rw [e] at e'; cases e'
    obtain ⟨out', e', t'⟩ := cross_total hp hsh (cross_zeta hn hph) (swapOk_zeta swap23 n) h2 h3 cells1 cells2 cells3 q1 q2 q3
    rw [e] at e'; cases e'
    rw [t, t']
    exact ⟨sum_weight hp _ hu, sum_zeta hp _ hu⟩
  · intro ha k2 k3 h2 h3
    obtain ⟨out', e', t⟩ := cross_total (ph := ph) (maxn := maxn) hp hsh (cross_d2 ha) (swapOk_d2 swap23) h2 h3 cells1 cells2 cells3 q1 q2 q3
    rw [e] at e'; cases e'
    obtain ⟨out', e', t'⟩ := cross_total (ph := ph) (maxn := maxn) hp hsh (cross_logd2 ha) (swapOk_logd2 swap23) h2 h3 cells1 cells2 cells3 q1 q2 q3
    rw [e] at e'; cases e'
    obtain ⟨out', e', t''⟩ := cross_total (ph := ph) (maxn := maxn) hp hsh (cross_d3 ha) (swapOk_d3 swap23) h2 h3 cells1 cells2 cells3 q1 q2 q3
    rw [e] at e'; cases e'
    rw [t, t', t'', sum_side2 _ Real.log]
    exact ⟨sum_side2 _ id, rfl, sum_side3 _ id⟩
  · intro ha hsw k2 k3 h2 h3
    obtain ⟨out', e', t⟩ := cross_total (ph := ph) (maxn := maxn) (swap23 := swap23) hp hsh (cross_logd3 ha) (by rw [hsw]; exact swapOk_false _)
      h2 h3 cells1 cells2 cells3 q1 q2 q3
    rw [e] at e'; cases e'
    rw [t]
    exact sum_side3 _ Real.log

/-! Putting runs together. -/

theorem MpCounts.append {T T' : Multiset (Obj P × Obj P × Obj P)} {a b : List (ℤ × ℤ × MpVals)} (h : MpCounts p T a)
    (h' : MpCounts p T' b) : MpCounts p (T + T') (a ++ b) := by
  intro k2 k3 h2 h3
  rw [mpTotal_append, h k2 k3 h2 h3, h' k2 k3 h2 h3]
  simp [brute3N, Multiset.filter_add]

theorem MpPhases.append {n : ℤ} {T T' : Multiset (Obj P × Obj P × Obj P)} {a b : List (ℤ × ℤ × MpVals)} (h : MpPhases p ph n T a)
    (h' : MpPhases p ph n T' b) : MpPhases p ph n (T + T') (a ++ b) := by
  intro k2 k3 h2 h3
  obtain ⟨e1, e2⟩ := h k2 k3 h2 h3
  obtain ⟨f1, f2⟩ := h' k2 k3 h2 h3
  rw [mpTotal_append, mpTotal_append, e1, e2, f1, f2]
  simp [phaseW, phaseZ, Multiset.filter_add]

theorem MpMeans.append {T T' : Multiset (Obj P × Obj P × Obj P)} {a b : List (ℤ × ℤ × MpVals)} (h : MpMeans p T a)
    (h' : MpMeans p T' b) : MpMeans p (T + T') (a ++ b) := by
  intro k2 k3 h2 h3
  obtain ⟨e1, e2, e3⟩ := h k2 k3 h2 h3
  obtain ⟨f1, f2, f3⟩ := h' k2 k3 h2 h3
  rw [mpTotal_append, mpTotal_append, mpTotal_append, e1, e2, e3, f1, f2, f3]
  simp [brute3, Multiset.filter_add]

theorem MpCounts.congr {T T' : Multiset (Obj P × Obj P × Obj P)} {a : List (ℤ × ℤ × MpVals)} (h : MpCounts p T a)
    (hT : ∀ k2 k3, T.filter (InSides p k2 k3) = T'.filter (InSides p k2 k3)) : MpCounts p T' a := by
  intro k2 k3 h2 h3; rw [← hT]; exact h k2 k3 h2 h3
theorem MpPhases.congr {n : ℤ} {T T' : Multiset (Obj P × Obj P × Obj P)} {a : List (ℤ × ℤ × MpVals)} (h : MpPhases p ph n T a)
    (hT : ∀ k2 k3, T.filter (InSides p k2 k3) = T'.filter (InSides p k2 k3)) : MpPhases p ph n T' a := by
  intro k2 k3 h2 h3; rw [← hT]; exact h k2 k3 h2 h3
theorem MpMeans.congr {T T' : Multiset (Obj P × Obj P × Obj P)} {a : List (ℤ × ℤ × MpVals)} (h : MpMeans p T a)
    (hT : ∀ k2 k3, T.filter (InSides p k2 k3) = T'.filter (InSides p k2 k3)) : MpMeans p T' a := by
  intro k2 k3 h2 h3; rw [← hT]; exact h k2 k3 h2 h3
theorem MpLog3.congr {T T' : Multiset (Obj P × Obj P × Obj P)} {a : List (ℤ × ℤ × MpVals)} (h : MpLog3 p T a)
    (hT : ∀ k2 k3, T.filter (InSides p k2 k3) = T'.filter (InSides p k2 k3)) : MpLog3 p T' a := by
  intro k2 k3 h2 h3; rw [← hT]; exact h k2 k3 h2 h3

theorem apart_perm {l l' : List (Obj P)} (h : l.Perm l') (ha : Apart l') : Apart l :=
  h.symm.pairwise ha fun hxy => by rw [dist_comm]; exact hxy

theorem apart_cell {cells : List (Cell P)} (h : Apart (objsOf cells)) {c : Cell P} (hc : c ∈ cells) : Apart c.objs := by
  unfold objsOf at h
  exact (List.pairwise_flatMap.1 h).1 c hc

end

end TreeCorr
