import Verif.Proofs.RuvExact

/-! `LogSAS`: the decisions of the three-point traversal are exact for zero tolerances and the full range of angles. -/

namespace TreeCorr
open Classical
noncomputable section
variable {P : Type}

/-- The test for the wrong orientation is safe: when it says stop, no points within the cells have the right orientation. -/
def Metric3.Turn [PseudoMetricSpace P] (M : Metric3 P) : Prop :=
  ∀ (p1 p2 p3 q1 q2 q3 : P) (s1 s2 s3 : ℝ), dist q1 p1 ≤ s1 → dist q2 p2 ≤ s2 → dist q3 p3 ≤ s3 →
    s1 + s2 < dist p1 p2 → s1 + s3 < dist p1 p3 → ¬ M.ccw p1 p3 p2 →
    sasWrongSide (cosPhi (dist p2 p3 ^ 2) (dist p1 p3 ^ 2) (dist p1 p2 ^ 2) (dist p1 p3) (dist p1 p2)) (dist p1 p3) (dist p1 p2) s1 s2 s3 →
    ¬ M.ccw q1 q3 q2

/-- What is asked of a triple: no three rows on a line in range (unless the order is given), and for a given order a safe test. -/
def SasOK [PseudoMetricSpace P] (p : Prm3) (M : Metric3 P) (O : Ord3) (t : Obj P × Obj P × Obj P) : Prop :=
  (O ≠ .fixed → (∃ k2 k3 kphi, InSas p k2 k3 kphi t) → ¬ OnLine M.ccw t) ∧
    (O = .fixed → M.Turn)

theorem sasOK_of [PseudoMetricSpace P] {p : Prm3} {M : Metric3 P} {m : Multiset (Obj P × Obj P × Obj P)}
    (h : ∀ t ∈ m, (∃ k2 k3 kphi, InSas p k2 k3 kphi t) → ¬ OnLine M.ccw t) {t : Obj P × Obj P × Obj P} (ht : t ∈ m) {O : Ord3}
    (hO : O ≠ .fixed) : SasOK p M O t :=
  ⟨fun _ => h t ht, fun e => absurd e hO⟩

theorem sasPhi_eq (c : ℝ) : sasPhi c = Real.arccos c := by
  unfold sasPhi
  split
  · rfl
  · rename_i h
    split
    · rename_i h1
      exact (Real.arccos_of_le_neg_one h1).symm
    · rename_i h1
      push Not at h h1
      exact (Real.arccos_of_one_le (h h1)).symm

/-! ### The index -/

theorem sasIndex_some {p : Prm3} (hp : SasParams p) {O : Ord3} {c : Prop} {d2 d3 phi : ℝ} (hd3 : 0 < d3) (hd2 : 0 < d2)
    {k2 k3 kphi : ℤ} (hO : O = .fixed → c)
    (h1 : InLogBin p.minsep p.binsize p.nbins k2 d2) (h2 : InLogBin p.minsep p.binsize p.nbins k3 d3)
    (h3 : InLinBin p.minu p.ubinsize p.nubins kphi phi) :
    sasIndex p O c d2 d3 phi = some (sasPlace p k2 k3 kphi) := by
  have hm := hp.minsep
  have l1 := (log_lin hm hd2).1 h1
  have l2 := (log_lin hm hd3).1 h2
  have hM : Real.log p.maxsep = Real.log p.minsep + p.nbins * p.binsize := by rw [hp.maxsep, log_max hm]
  have hMpos : 0 < p.maxsep := by
    rw [hp.maxsep]
    positivity
  have g1 : p.minsep ≤ d2 := (Real.log_le_log_iff hm hd2).1 (l1.ge hp.binsize)
  have g2 : d2 < p.maxsep := (Real.log_lt_log_iff hd2 hMpos).1 (l1.lt hp.binsize hM)
  have g3 : p.minsep ≤ d3 := (Real.log_le_log_iff hm hd3).1 (l2.ge hp.binsize)
  have g4 : d3 < p.maxsep := (Real.log_lt_log_iff hd3 hMpos).1 (l2.lt hp.binsize hM)
  have e1 := lin_unique hp.binsize l1
  have e2 := lin_unique hp.binsize l2
  have e3 := lin_unique hp.phibinsize h3
  have hr := place_range (nb := p.nbins) (nu := p.nbins) (nv := p.nubins) h1.1 h1.2.1 h2.1 h2.2.1 h3.1 h3.2.1
  unfold sasIndex
  rw [if_neg (by push Not; exact ⟨g1, g2⟩), if_neg (by push Not; exact ⟨g3, g4⟩), if_neg (by rintro ⟨a, b⟩; exact b (hO a)),
    if_neg (by push Not; exact ⟨h3.ge hp.phibinsize, h3.lt hp.phibinsize hp.maxphi⟩)]
  simp only [e1, e2, e3, clampEq_lt h1.2.1, clampEq_lt h2.2.1, clampBin_lt h3.2.1]
  rw [if_neg (by push Not; exact hr)]
  rfl

theorem sasIndex_inv {p : Prm3} (hp : SasParams p) {O : Ord3} {c : Prop} {d2 d3 phi : ℝ} {i : ℤ}
    (h : sasIndex p O c d2 d3 phi = some i) :
    (O = .fixed → c) ∧ ∃ k2 k3 kphi, InLogBin p.minsep p.binsize p.nbins k2 d2 ∧ InLogBin p.minsep p.binsize p.nbins k3 d3 ∧
      InLinBin p.minu p.ubinsize p.nubins kphi phi := by
  unfold sasIndex at h
  split at h
  · exact absurd h (by simp)
  rename_i h0
  split at h
  · exact absurd h (by simp)
  rename_i h1
  split at h
  · exact absurd h (by simp)
  rename_i h2
  split at h
  · exact absurd h (by simp)
  rename_i h3
  push Not at h0 h1 h2 h3
  have hm := hp.minsep
  have hd2 : 0 < d2 := by linarith [h0.1]
  have hd3 : 0 < d3 := by linarith [h1.1]
  have hM : Real.log p.maxsep = Real.log p.minsep + p.nbins * p.binsize := by rw [hp.maxsep, log_max hm]
  exact ⟨h2, _, _, _, (log_lin hm hd2).2 (lin_floor hp.binsize hM (Real.log_le_log hm h0.1) (Real.log_lt_log hd2 h0.2)),
    (log_lin hm hd3).2 (lin_floor hp.binsize hM (Real.log_le_log hm h1.1) (Real.log_lt_log hd3 h1.2)),
    lin_floor hp.phibinsize hp.maxphi h3.1 h3.2⟩

/-! ### Stopping and splitting -/

/-- The first tests of `stop111`. -/
def SasFar (p : Prm3) (d1sq d2sq d3sq s1 s2 s3 : ℝ) : Prop :=
  (d2sq < p.minsep * p.minsep ∧ s1 + s3 < p.minsep ∧ (s1 + s3 = 0 ∨ d2sq < (p.minsep - s1 - s3) ^ 2)) ∨
  (d3sq < p.minsep * p.minsep ∧ s1 + s2 < p.minsep ∧ (s1 + s2 = 0 ∨ d3sq < (p.minsep - s1 - s2) ^ 2)) ∨
  (p.maxsep * p.maxsep ≤ d2sq ∧ (s1 + s3 = 0 ∨ (p.maxsep + s1 + s3) ^ 2 ≤ d2sq)) ∨
  (p.maxsep * p.maxsep ≤ d3sq ∧ (s1 + s2 = 0 ∨ (p.maxsep + s1 + s2) ^ 2 ≤ d3sq)) ∨
  (s2 = 0 ∧ s3 = 0 ∧ d1sq = 0) ∨ (s1 = 0 ∧ s3 = 0 ∧ d2sq = 0) ∨ (s1 = 0 ∧ s2 = 0 ∧ d3sq = 0)

theorem sasStop_true {p : Prm3} (hu0 : p.minu = 0) (hu1 : p.maxu = Real.pi) {O : Ord3} {c : Prop} {d1sq d2sq d3sq s1 s2 s3 : ℝ}
    (h : (sasStop p O c d1sq d2sq d3sq s1 s2 s3).stop = true) :
    SasFar p d1sq d2sq d3sq s1 s2 s3 ∨ (O = .fixed ∧ ¬ c ∧ s1 + s2 < Real.sqrt d3sq ∧ s1 + s3 < Real.sqrt d2sq ∧
      sasWrongSide (cosPhi d1sq d2sq d3sq (Real.sqrt d2sq) (Real.sqrt d3sq)) (Real.sqrt d2sq) (Real.sqrt d3sq) s1 s2 s3) := by
  unfold sasStop at h
  split at h
  · rename_i hf
    exact Or.inl hf
  · simp only at h
    split at h
    · exact absurd h (by simp)
    rename_i g1
    split at h
    · exact absurd h (by simp)
    rename_i g2
    push Not at g1 g2
    split at h
    · rename_i g3
      exact Or.inr ⟨g3.1, g3.2, g1, g2, of_decide_eq_true h⟩
    · exfalso
      have e : sasMinPhi p (cosPhi d1sq d2sq d3sq (Real.sqrt d2sq) (Real.sqrt d3sq)) d1sq d2sq d3sq (Real.sqrt d2sq)
          (Real.sqrt d3sq) s1 s2 s3 = none := by
        unfold sasMinPhi
        rw [if_neg]
        rw [hu0]
        exact fun a => lt_irrefl _ a.1
      have e' : sasMaxPhi p (cosPhi d1sq d2sq d3sq (Real.sqrt d2sq) (Real.sqrt d3sq)) (Real.sqrt d2sq)
          (Real.sqrt d3sq) s1 s2 s3 = false := by
        unfold sasMaxPhi
        rw [if_neg]
        rw [hu1]
        exact fun a => lt_irrefl _ a.1
      rw [e] at h
      simp only [e'] at h
      split at h <;> exact absurd h (by simp)

theorem sasStop_false {p : Prm3} {O : Ord3} {c : Prop} {d1sq d2sq d3sq : ℝ} (h2 : 0 ≤ d2sq) (h3 : 0 ≤ d3sq)
    (h : (sasStop p O c d1sq d2sq d3sq 0 0 0).stop = false) :
    0 < d2sq ∧ 0 < d3sq ∧ (sasStop p O c d1sq d2sq d3sq 0 0 0).d2 = Real.sqrt d2sq ∧
      (sasStop p O c d1sq d2sq d3sq 0 0 0).d3 = Real.sqrt d3sq ∧
      (sasStop p O c d1sq d2sq d3sq 0 0 0).cosphi = cosPhi d1sq d2sq d3sq (Real.sqrt d2sq) (Real.sqrt d3sq) := by
  have key : ¬ SasFar p d1sq d2sq d3sq 0 0 0 := by
    intro hf
    unfold sasStop at h
    unfold SasFar at hf
    rw [if_pos hf] at h
    exact absurd h (by simp)
  have g2 : 0 < d2sq := by
    refine lt_of_le_of_ne h2 fun e => key ?_
    right; right; right; right; right; left
    exact ⟨rfl, rfl, e.symm⟩
  have g3 : 0 < d3sq := by
    refine lt_of_le_of_ne h3 fun e => key ?_
    right; right; right; right; right; right
    exact ⟨rfl, rfl, e.symm⟩
  refine ⟨g2, g3, ?_⟩
  have f2 := Real.sqrt_pos.2 g2
  have f3 := Real.sqrt_pos.2 g3
  unfold sasStop
  unfold SasFar at key
  rw [if_neg key]
  simp only
  rw [if_neg (by linarith), if_neg (by linarith)]
  split
  · exact ⟨rfl, rfl, rfl⟩
  · split
    · exact ⟨rfl, rfl, rfl⟩
    · split <;> exact ⟨rfl, rfl, rfl⟩

theorem sasSplit_none {p : Prm3} (hb : p.b = 0) {d1sq d2 d3 cosphi s1 s2 s3 : ℝ} (h1 : 0 ≤ s1) (h2 : 0 ≤ s2) (h3 : 0 ≤ s3)
    (h : sasSplit p d1sq d2 d3 cosphi s1 s2 s3 = none) : s1 = 0 ∧ s2 = 0 ∧ s3 = 0 := by
  have e1 : s1 = 0 := by
    by_contra hne
    have hpos : 0 < s1 := lt_of_le_of_ne h1 (Ne.symm hne)
    unfold sasSplit at h
    simp only at h
    rw [if_pos (by
      refine ⟨hpos, Or.inl ?_⟩
      rw [hb, mul_zero]
      exact hpos)] at h
    exact absurd h (by simp)
  subst e1
  have e23 : ¬ (0 < s2 ∨ 0 < s3) := by
    intro hpos
    unfold sasSplit at h
    simp only at h
    rw [if_neg (by rintro ⟨a, _⟩; exact lt_irrefl _ a), if_pos hpos, if_pos] at h
    · exact absurd h (by simp)
    · rcases hpos with a | a
      · refine Or.inl ⟨a, Or.inr (Or.inl ⟨by simp, ?_⟩)⟩
        rw [hb, mul_zero]
        exact a
      · refine Or.inr ⟨a, Or.inr (Or.inl ⟨by simp, ?_⟩)⟩
        rw [hb, mul_zero]
        exact a
  push Not at e23
  exact ⟨rfl, le_antisymm e23.1 h2, le_antisymm e23.2 h3⟩

theorem sasSplit_some {p : Prm3} {d1sq d2 d3 cosphi s1 s2 s3 : ℝ} (h2 : 0 ≤ s2) (h3 : 0 ≤ s3)
    {f1 f2 f3 : Bool} (h : sasSplit p d1sq d2 d3 cosphi s1 s2 s3 = some (f1, f2, f3)) :
    (f1 = true → 0 < s1) ∧ (f2 = true → 0 < s2) ∧ (f3 = true → 0 < s3) ∧ (f2 = false → f3 = false → 0 < s1) := by
  unfold sasSplit at h
  simp only at h
  split at h
  · rename_i hs
    simp only [Option.some.injEq, Prod.mk.injEq] at h
    obtain ⟨rfl, rfl, rfl⟩ := h
    refine ⟨fun _ => hs.1, fun g => ?_, fun g => ?_, fun _ _ => hs.1⟩
    · have := of_decide_eq_true g
      have := hs.1
      linarith
    · have := of_decide_eq_true g
      have := hs.1
      linarith
  · split at h
    · rename_i hpos
      split at h
      · simp only [Option.some.injEq, Prod.mk.injEq] at h
        obtain ⟨rfl, rfl, rfl⟩ := h
        refine ⟨by simp, fun g => ?_, fun g => ?_, fun g1 g2 => ?_⟩
        · rcases of_decide_eq_true g with a | a
          · exact a.1
          · rcases hpos with b | b <;> linarith
        · rcases of_decide_eq_true g with a | a
          · exact a.1
          · rcases hpos with b | b <;> linarith
        · have a := of_decide_eq_false g1
          have b := of_decide_eq_false g2
          push Not at a b
          linarith [a.2, b.2]
      · exact absurd h (by simp)
    · exact absurd h (by simp)

/-- The value of `stop111` for three cells. -/
def sasOut (p : Prm3) (M : Metric3 P) (O : Ord3) (c1 c2 c3 : Cell P) : SasOut :=
  sasStop p O (M.ccw c1.pos c3.pos c2.pos) (M.distSq c2.pos c3.pos) (M.distSq c1.pos c3.pos) (M.distSq c1.pos c2.pos)
    c1.size c2.size c3.size

theorem sasAct_drop {p : Prm3} {M : Metric3 P} {O : Ord3} {c1 c2 c3 : Cell P} (h : sasAct p M O c1 c2 c3 = .drop) :
    (sasOut p M O c1 c2 c3).stop = true ∨ ((sasOut p M O c1 c2 c3).stop = false ∧
      sasSplit p (M.distSq c2.pos c3.pos) (sasOut p M O c1 c2 c3).d2 (sasOut p M O c1 c2 c3).d3 (sasOut p M O c1 c2 c3).cosphi
        c1.size c2.size c3.size = none ∧
      sasIndex p O (M.ccw c1.pos c3.pos c2.pos) (sasOut p M O c1 c2 c3).d2 (sasOut p M O c1 c2 c3).d3
        (sasPhi (sasOut p M O c1 c2 c3).cosphi) = none) := by
  unfold sasAct at h
  simp only at h
  change (if (sasOut p M O c1 c2 c3).stop = true then _ else _) = _ at h
  split at h
  · rename_i hs
    exact Or.inl hs
  · rename_i hs
    right
    split at h
    · exact absurd h (by simp)
    · rename_i hsp
      split at h
      · rename_i hi
        exact ⟨by simpa using hs, hsp, hi⟩
      · exact absurd h (by simp)

theorem sasAct_split {p : Prm3} {M : Metric3 P} {O : Ord3} {c1 c2 c3 : Cell P} {f1 f2 f3 : Bool}
    (h : sasAct p M O c1 c2 c3 = .split f1 f2 f3) :
      sasSplit p (M.distSq c2.pos c3.pos) (sasOut p M O c1 c2 c3).d2 (sasOut p M O c1 c2 c3).d3 (sasOut p M O c1 c2 c3).cosphi
        c1.size c2.size c3.size = some (f1, f2, f3) := by
  unfold sasAct at h
  simp only at h
  change (if (sasOut p M O c1 c2 c3).stop = true then _ else _) = _ at h
  split at h
  · exact absurd h (by simp)
  · split at h
    · rename_i hsp
      simp only [Act3.split.injEq] at h
      obtain ⟨rfl, rfl, rfl⟩ := h
      exact hsp
    · split at h <;> exact absurd h (by simp)

theorem sasAct_direct {p : Prm3} {M : Metric3 P} {O : Ord3} {c1 c2 c3 : Cell P} {e : Emit3 P}
    (h : sasAct p M O c1 c2 c3 = .direct e) :
    (sasOut p M O c1 c2 c3).stop = false ∧
      sasSplit p (M.distSq c2.pos c3.pos) (sasOut p M O c1 c2 c3).d2 (sasOut p M O c1 c2 c3).d3 (sasOut p M O c1 c2 c3).cosphi
        c1.size c2.size c3.size = none ∧
      ∃ i, sasIndex p O (M.ccw c1.pos c3.pos c2.pos) (sasOut p M O c1 c2 c3).d2 (sasOut p M O c1 c2 c3).d3
        (sasPhi (sasOut p M O c1 c2 c3).cosphi) = some i ∧
      e = ⟨c1, c2, c3, Real.sqrt (M.distSq c2.pos c3.pos), (sasOut p M O c1 c2 c3).d2, (sasOut p M O c1 c2 c3).d3,
        sasPhi (sasOut p M O c1 c2 c3).cosphi, (sasOut p M O c1 c2 c3).cosphi, Real.log (Real.sqrt (M.distSq c2.pos c3.pos)),
        Real.log (sasOut p M O c1 c2 c3).d2, Real.log (sasOut p M O c1 c2 c3).d3, i⟩ := by
  unfold sasAct at h
  simp only at h
  change (if (sasOut p M O c1 c2 c3).stop = true then _ else _) = _ at h
  split at h
  · exact absurd h (by simp)
  · rename_i hs
    split at h
    · exact absurd h (by simp)
    · rename_i hsp
      split at h
      · exact absurd h (by simp)
      · rename_i i hi
        refine ⟨by simpa using hs, hsp, i, hi, ?_⟩
        simp only [Act3.direct.injEq] at h
        exact h.symm

variable [PseudoMetricSpace P]

/-- What the arrangement of the cells says about their orientation. -/
theorem sas_arranged {p : Prm3} {M : Metric3 P} (hO : M.Oriented) {O : Ord3} {p1 p2 p3 : P}
    (h : Arranged (binSAS p M) M O p1 p2 p3) : O ≠ .any ∧ (O = .first → ¬ M.ccw p1 p2 p3) := by
  obtain ⟨O', q1, q2, q3, σ, hm, ha⟩ := h
  have no : ∀ {a b c : P}, M.ccw a c b → ¬ M.ccw a b c := fun {a b c} h => hO.anti _ _ _ h
  have cyc := hO.cyc
  cases O' with
  | any =>
    simp only [arrange, binSAS] at hm
    norm_num at hm
    split at hm
    · rename_i h1
      simp only [List.mem_cons, Prod.mk.injEq, List.not_mem_nil, or_false] at hm
      rcases hm with ⟨rfl, rfl⟩ | ⟨rfl, rfl⟩ | ⟨rfl, rfl⟩ <;> simp only [Perm3.apply, Prod.mk.injEq] at ha <;>
        obtain ⟨rfl, rfl, rfl⟩ := ha <;> refine ⟨by simp, fun _ => no ?_⟩
      · exact h1
      · exact cyc _ _ _ h1
      · exact cyc _ _ _ (cyc _ _ _ h1)
    · rename_i h1
      simp only [List.mem_cons, Prod.mk.injEq, List.not_mem_nil, or_false] at hm
      rcases hm with ⟨rfl, rfl⟩ | ⟨rfl, rfl⟩ | ⟨rfl, rfl⟩ <;> simp only [Perm3.apply, Prod.mk.injEq] at ha <;>
        obtain ⟨rfl, rfl, rfl⟩ := ha <;> refine ⟨by simp, fun _ g => h1 ?_⟩
      · exact g
      · exact cyc _ _ _ g
      · exact cyc _ _ _ (cyc _ _ _ g)
  | first =>
    simp only [arrange, binSAS] at hm
    norm_num at hm
    split at hm
    · rename_i h1
      simp only [List.mem_singleton, Prod.mk.injEq] at hm
      obtain ⟨rfl, rfl⟩ := hm
      simp only [Perm3.apply, Prod.mk.injEq] at ha
      obtain ⟨rfl, rfl, rfl⟩ := ha
      exact ⟨by simp, fun _ => no h1⟩
    · rename_i h1
      simp only [List.mem_singleton, Prod.mk.injEq] at hm
      obtain ⟨rfl, rfl⟩ := hm
      simp only [Perm3.apply, Prod.mk.injEq] at ha
      obtain ⟨rfl, rfl, rfl⟩ := ha
      exact ⟨by simp, fun _ => h1⟩
  | fixed =>
    simp only [arrange, List.mem_singleton, Prod.mk.injEq] at hm
    obtain ⟨rfl, rfl⟩ := hm
    exact ⟨by simp, fun h => absurd h (by simp)⟩

/-- Points at the same place have no orientation. -/
theorem ccw_degenerate {M : Metric3 P} (hM : M.Of) (hO : M.Oriented) {a b c : P} (h : dist b c = 0) : ¬ M.ccw a b c := by
  intro g
  have := (hM.ccw a a b c c b (dist_self a) h (by rw [dist_comm]; exact h)).1 g
  exact hO.anti _ _ _ g this

theorem ccw_degenerate' {M : Metric3 P} (hM : M.Of) (hO : M.Oriented) {a b c : P} (h : dist b c = 0 ∨ dist a b = 0 ∨ dist a c = 0) :
    ¬ M.ccw a b c := by
  intro g
  rcases h with h | h | h
  · exact ccw_degenerate hM hO h g
  · exact ccw_degenerate hM hO h (hO.cyc _ _ _ (hO.cyc _ _ _ g))
  · exact ccw_degenerate hM hO (by rw [dist_comm]; exact h) (hO.cyc _ _ _ g)

/-- The sides of a triple in range. -/
theorem inSas_range {p : Prm3} (hp : SasParams p) {k2 k3 kphi : ℤ} {t : Obj P × Obj P × Obj P} (h : InSas p k2 k3 kphi t) :
    p.minsep ≤ side2 t ∧ side2 t < p.maxsep ∧ p.minsep ≤ side3 t ∧ side3 t < p.maxsep := by
  obtain ⟨h1, h2, _⟩ := h
  have hm := hp.minsep
  have hy := h1.pos hm
  have hz := h2.pos hm
  have l1 := (log_lin hm hy).1 h1
  have l2 := (log_lin hm hz).1 h2
  have hM : Real.log p.maxsep = Real.log p.minsep + p.nbins * p.binsize := by rw [hp.maxsep, log_max hm]
  have hMpos : 0 < p.maxsep := by
    rw [hp.maxsep]
    positivity
  exact ⟨(Real.log_le_log_iff hm hy).1 (l1.ge hp.binsize), (Real.log_lt_log_iff hy hMpos).1 (l1.lt hp.binsize hM),
    (Real.log_le_log_iff hm hz).1 (l2.ge hp.binsize), (Real.log_lt_log_iff hz hMpos).1 (l2.lt hp.binsize hM)⟩

theorem triCos_congr {t : Obj P × Obj P × Obj P} {d1 d2 d3 : ℝ} (h1 : side1 t = d1) (h2 : side2 t = d2)
    (h3 : side3 t = d3) : triCos t = cosPhi (d1 ^ 2) (d2 ^ 2) (d3 ^ 2) d2 d3 := by
  rw [triCos, cosPhi, h1, h2, h3]

/-- The first tests of `stop111` are safe. -/
theorem sasFar_safe {p : Prm3} (hp : SasParams p) {M : Metric3 P} (hM : M.Of) (hO : M.Oriented) {c1 c2 c3 : Cell P}
    (q1 : ValidCell 0 c1) (q2 : ValidCell 0 c2) (q3 : ValidCell 0 c3) {o1 o2 o3 : Obj P} (h1 : o1 ∈ c1.objs) (h2 : o2 ∈ c2.objs)
    (h3 : o3 ∈ c3.objs)
    (hf : SasFar p (M.distSq c2.pos c3.pos) (M.distSq c1.pos c3.pos) (M.distSq c1.pos c2.pos) c1.size c2.size c3.size)
    {q : Obj P × Obj P × Obj P} (hq : q = (o1, o2, o3) ∨ q = (o1, o3, o2)) {k : ℤ} (hk : inSas p M.ccw k q) : False := by
  obtain ⟨k2, k3, kphi, hin, hc, -⟩ := hk
  have hr := inSas_range hp hin
  have a := side_close q2 q3 h2 h3
  have b := side_close q1 q3 h1 h3
  have c := side_close q1 q2 h1 h2
  have ha : 0 ≤ dist c2.pos c3.pos := dist_nonneg
  have hb : 0 ≤ dist c1.pos c3.pos := dist_nonneg
  have hc' : 0 ≤ dist c1.pos c2.pos := dist_nonneg
  have g1 := q1.1.1.size_nonneg
  have g2 := q2.1.1.size_nonneg
  have g3 := q3.1.1.size_nonneg
  have hm := hp.minsep
  have hmax : 0 < p.maxsep := by
    rw [hp.maxsep]
    positivity
  have hdeg : dist o2.pos o3.pos ≠ 0 ∧ dist o1.pos o3.pos ≠ 0 ∧ dist o1.pos o2.pos ≠ 0 := by
    rcases hq with rfl | rfl
    · refine ⟨fun g => ?_, fun g => ?_, fun g => ?_⟩ <;> refine ccw_degenerate' hM hO ?_ hc
      · exact Or.inl (by rw [dist_comm]; exact g)
      · exact Or.inr (Or.inl g)
      · exact Or.inr (Or.inr g)
    · refine ⟨fun g => ?_, fun g => ?_, fun g => ?_⟩ <;> refine ccw_degenerate' hM hO ?_ hc
      · exact Or.inl g
      · exact Or.inr (Or.inr g)
      · exact Or.inr (Or.inl g)
  have hr' : (p.minsep ≤ dist o1.pos o3.pos ∧ dist o1.pos o3.pos < p.maxsep) ∧
      (p.minsep ≤ dist o1.pos o2.pos ∧ dist o1.pos o2.pos < p.maxsep) := by
    rcases hq with rfl | rfl
    · exact ⟨⟨hr.1, hr.2.1⟩, hr.2.2⟩
    · exact ⟨hr.2.2, ⟨hr.1, hr.2.1⟩⟩
  rw [abs_le] at a b c
  simp only [SasFar, hM.distSq] at hf
  generalize dist o2.pos o3.pos = x at *
  generalize dist o1.pos o3.pos = y at *
  generalize dist o1.pos o2.pos = z at *
  generalize dist c2.pos c3.pos = X at *
  generalize dist c1.pos c3.pos = Y at *
  generalize dist c1.pos c2.pos = Z at *
  generalize c1.size = s1 at *
  generalize c2.size = s2 at *
  generalize c3.size = s3 at *
  rcases hf with ⟨e1, e2, e3⟩ | ⟨e1, e2, e3⟩ | ⟨e1, e3⟩ | ⟨e1, e3⟩ | ⟨rfl, rfl, e⟩ | ⟨rfl, rfl, e⟩ | ⟨rfl, rfl, e⟩
  · have : Y < p.minsep - s1 - s3 := by
      rcases e3 with e3 | e3
      · have : Y < p.minsep := lt_of_pow_lt_pow_left₀ 2 hm.le (lt_of_lt_of_eq e1 (sq p.minsep).symm)
        linarith
      · exact lt_of_pow_lt_pow_left₀ 2 (by linarith) e3
    linarith [hr'.1.1, b.2]
  · have : Z < p.minsep - s1 - s2 := by
      rcases e3 with e3 | e3
      · have : Z < p.minsep := lt_of_pow_lt_pow_left₀ 2 hm.le (lt_of_lt_of_eq e1 (sq p.minsep).symm)
        linarith
      · exact lt_of_pow_lt_pow_left₀ 2 (by linarith) e3
    linarith [hr'.2.1, c.2]
  · have : p.maxsep + s1 + s3 ≤ Y := by
      rcases e3 with e3 | e3
      · have : p.maxsep ≤ Y := le_of_sq_le_sq (le_of_eq_of_le (sq p.maxsep) e1) hb
        linarith
      · exact le_of_sq_le_sq e3 hb
    linarith [hr'.1.2, b.1]
  · have : p.maxsep + s1 + s2 ≤ Z := by
      rcases e3 with e3 | e3
      · have : p.maxsep ≤ Z := le_of_sq_le_sq (le_of_eq_of_le (sq p.maxsep) e1) hc'
        linarith
      · exact le_of_sq_le_sq e3 hc'
    linarith [hr'.2.2, c.1]
  · have : X = 0 := by simpa using e
    exact hdeg.1 (by linarith [a.1, a.2])
  · have : Y = 0 := by simpa using e
    exact hdeg.2.1 (by linarith [b.1, b.2])
  · have : Z = 0 := by simpa using e
    exact hdeg.2.2 (by linarith [c.1, c.2])

/-- The decisions for `LogSAS` are exact when the tolerance is zero and all angles are allowed. -/
theorem sas_exact3 {p : Prm3} (hp : SasParams p) (hu0 : p.minu = 0) (hu1 : p.maxu = Real.pi) (hb : p.b = 0)
    {M : Metric3 P} (hM : M.Of) (hO : M.Oriented) :
    Exact3 (binSAS p M) M p.minsep (ValidCell 0) (SasOK p M) (inSas p M.ccw) Weightless (Call3 triPhi triCos) where
  mono := by
    intro O p1 p2 p3 O' σ hm q h
    have : O' = .fixed ↔ O = .fixed := by
      cases O with
      | any =>
        simp only [arrange, binSAS] at hm
        norm_num at hm
        split at hm <;> simp at hm <;> rcases hm with ⟨rfl, _⟩ | ⟨rfl, _⟩ | ⟨rfl, _⟩ <;> simp
      | first =>
        simp only [arrange, binSAS] at hm
        norm_num at hm
        split at hm <;> simp at hm <;> simp [hm.1]
      | fixed => 
        simp [arrange] at hm
        simp [hm.1]
    exact ⟨fun g => h.1 fun e => g (this.2 e), fun g => h.2 (this.1 g)⟩
  direct := by
    intro O c1 c2 c3 e q1 q2 q3 hA h
    obtain ⟨hst, hsp, i, hi, rfl⟩ := sasAct_direct h
    obtain ⟨s1, s2, s3⟩ := sasSplit_none hb q1.1.1.size_nonneg q2.1.1.size_nonneg q3.1.1.size_nonneg hsp
    obtain ⟨hA1, hA2⟩ := sas_arranged hO hA
    have hst' := hst
    simp only [sasOut, hM.distSq, s1, s2, s3] at hst'
    obtain ⟨p2, p3, v2, v3, v4⟩ := sasStop_false (by positivity) (by positivity) hst'
    simp only [Real.sqrt_sq dist_nonneg] at v2 v3 v4
    simp only [sasOut, hM.distSq, s1, s2, s3, v2, v3, v4, sasPhi_eq] at hi ⊢
    have hd : ∀ {o1 o2 o3 : Obj P}, o1 ∈ c1.objs → o2 ∈ c2.objs → o3 ∈ c3.objs →
        side1 (o1, o2, o3) = dist c2.pos c3.pos ∧ side2 (o1, o2, o3) = dist c1.pos c3.pos ∧
        side3 (o1, o2, o3) = dist c1.pos c2.pos ∧
        (M.ccw c1.pos c3.pos c2.pos ↔ M.ccw o1.pos o3.pos o2.pos) ∧
        (M.ccw c1.pos c2.pos c3.pos ↔ M.ccw o1.pos o2.pos o3.pos) := by
      intro o1 o2 o3 h1 h2 h3
      have a := side_close q2 q3 h2 h3
      have b := side_close q1 q3 h1 h3
      have c := side_close q1 q2 h1 h2
      simp only [s1, s2, s3, add_zero, abs_nonpos_iff, sub_eq_zero] at a b c
      exact ⟨a, b, c, hM.ccw _ _ _ _ _ _ (size_zero_dist q1 s1 h1) (size_zero_dist q3 s3 h3) (size_zero_dist q2 s2 h2),
        hM.ccw _ _ _ _ _ _ (size_zero_dist q1 s1 h1) (size_zero_dist q2 s2 h2) (size_zero_dist q3 s3 h3)⟩
    have hd2 : 0 < dist c1.pos c3.pos := lt_of_le_of_ne dist_nonneg fun g => by rw [← g] at p2; simp at p2
    have hd3 : 0 < dist c1.pos c2.pos := lt_of_le_of_ne dist_nonneg fun g => by rw [← g] at p3; simp at p3
    obtain ⟨hc, k2, k3, kphi, j2, j3, jp⟩ := sasIndex_inv hp hi
    have hi' := sasIndex_some hp (c := M.ccw c1.pos c3.pos c2.pos) hd3 hd2 hc j2 j3 jp
    rw [hi', Option.some.injEq] at hi
    subst hi
    refine ⟨by simp, ⟨⟨q1.1.2, q2.1.2, q3.1.2⟩, ?_⟩, ?_⟩
    · intro o1 h1 o2 h2 o3 h3
      obtain ⟨a, b, c, d⟩ := hd h1 h2 h3
      simp only [Real.sqrt_sq dist_nonneg]
      exact ⟨⟨a.symm, b.symm, c.symm, by rw [a], by rw [b], by rw [c]⟩, by rw [triPhi, triCos_congr a b c],
        by rw [triCos_congr a b c]⟩
    · intro o1 h1 o2 h2 o3 h3 hG
      obtain ⟨a, b, c, d, d'⟩ := hd h1 h2 h3
      refine ⟨fun k => ⟨?_, ?_⟩, ?_⟩
      · rintro ⟨k2', k3', kphi', ⟨i2, i3, ip⟩, _, rfl⟩
        rw [b] at i2
        rw [c] at i3
        rw [triPhi, triCos_congr a b c] at ip
        have := sasIndex_some hp (c := M.ccw c1.pos c3.pos c2.pos) hd3 hd2 hc i2 i3 ip
        rw [hi', Option.some.injEq] at this
        exact this
      · rintro rfl
        have hin : InSas p k2 k3 kphi (o1, o2, o3) := by
          refine ⟨?_, ?_, ?_⟩
          · rw [b]
            exact j2
          · rw [c]
            exact j3
          · rw [triPhi, triCos_congr a b c]
            exact jp
        refine ⟨k2, k3, kphi, hin, ?_, rfl⟩
        by_cases hf : O = .fixed
        · exact d.1 (hc hf)
        · have hfirst : O = .first := by
            cases O with
            | any => exact absurd rfl hA1
            | first => rfl
            | fixed => exact absurd rfl hf
          have g := (hG (o1, o2, o3) (by rw [orders_eq]; simp)).1 hf ⟨_, _, _, hin⟩
          rw [OnLine, not_and_or, not_not, not_not] at g
          rcases g with g | g
          · exact g
          · exact absurd (d'.2 g) (hA2 hfirst)
      · intro q hq k hk
        cases O with
        | any => exact absurd rfl hA1
        | fixed => simp [Ord3.others] at hq
        | first =>
          simp only [Ord3.others, Multiset.mem_singleton] at hq
          subst hq
          obtain ⟨_, _, _, _, hcc, _⟩ := hk
          exact hA2 rfl (d'.2 hcc)
  drop := by
    intro O c1 c2 c3 q1 q2 q3 hA h o1 h1 o2 h2 o3 h3 q hq hG k hk
    exfalso
    obtain ⟨hA1, hA2⟩ := sas_arranged hO hA
    have hq' : q = (o1, o2, o3) ∨ (O = .first ∧ q = (o1, o3, o2)) := by
      cases O with
      | any => exact absurd rfl hA1
      | first => simpa [Ord3.orders, orders2] using hq
      | fixed => exact Or.inl (by simpa [Ord3.orders] using hq)
    rcases sasAct_drop h with hst | ⟨hst, hsp, hi⟩
    · rcases sasStop_true hu0 hu1 hst with hf | ⟨rfl, g1, g2, g3, g4⟩
      · exact sasFar_safe hp hM hO q1 q2 q3 h1 h2 h3 hf (by tauto) hk
      · rcases hq' with rfl | ⟨g, _⟩
        · obtain ⟨_, _, _, _, hcc, _⟩ := hk
          simp only [hM.distSq, Real.sqrt_sq dist_nonneg] at g2 g3 g4
          exact hG.2 rfl c1.pos c2.pos c3.pos o1.pos o2.pos o3.pos c1.size c2.size c3.size
            (by simpa using q1.1.1.dist_le le_rfl h1) (by simpa using q2.1.1.dist_le le_rfl h2)
            (by simpa using q3.1.1.dist_le le_rfl h3) g2 g3 g1 g4 hcc
        · exact absurd g (by simp)
    · obtain ⟨s1, s2, s3⟩ := sasSplit_none hb q1.1.1.size_nonneg q2.1.1.size_nonneg q3.1.1.size_nonneg hsp
      have hst' := hst
      simp only [sasOut, hM.distSq, s1, s2, s3] at hst'
      obtain ⟨p2, p3, v2, v3, v4⟩ := sasStop_false (by positivity) (by positivity) hst'
      simp only [Real.sqrt_sq dist_nonneg] at v2 v3 v4
      simp only [sasOut, hM.distSq, s1, s2, s3, v2, v3, v4, sasPhi_eq] at hi
      have a := side_close q2 q3 h2 h3
      have b := side_close q1 q3 h1 h3
      have c := side_close q1 q2 h1 h2
      simp only [s1, s2, s3, add_zero, abs_nonpos_iff, sub_eq_zero] at a b c
      have hcc1 := hM.ccw _ _ _ _ _ _ (size_zero_dist q1 s1 h1) (size_zero_dist q3 s3 h3) (size_zero_dist q2 s2 h2)
      have hcc2 := hM.ccw _ _ _ _ _ _ (size_zero_dist q1 s1 h1) (size_zero_dist q2 s2 h2) (size_zero_dist q3 s3 h3)
      rcases hq' with rfl | ⟨rfl, rfl⟩
      · obtain ⟨k2, k3, kphi, ⟨j2, j3, jp⟩, jc, -⟩ := hk
        have e := triCos_congr (t := (o1, o2, o3)) a b c
        rw [triPhi, e] at jp
        simp only [side2, side3, b, c] at j2 j3
        rw [sasIndex_some hp (j3.pos hp.minsep) (j2.pos hp.minsep) (fun _ => hcc1.2 jc) j2 j3 jp] at hi
        exact absurd hi (by simp)
      · obtain ⟨_, _, _, _, jc, -⟩ := hk
        exact hA2 rfl (hcc2.2 jc)
  split := by
    intro O c1 c2 c3 f1 f2 f3 q1 q2 q3 h
    obtain ⟨a, b, c, d⟩ := sasSplit_some q2.1.1.size_nonneg q3.1.1.size_nonneg (sasAct_split h)
    exact splitCells_isSome a b c d
  zero := by
    rintro c hc hw o ho q (rfl | rfl | rfl)
    · exact Or.inl (hc.zero hw ho)
    · exact Or.inr (Or.inl (hc.zero hw ho))
    · exact Or.inr (Or.inr (hc.zero hw ho))
  skip12 := by
    intro O c1 c2 hO' q1 q2 w1 w2 hs o1 h1 o2 h2 o3 h3 q hq _ k hk
    exfalso
    obtain ⟨k2, k3, kphi, hin, hc, -⟩ := hk
    have hr := inSas_range hp hin
    have hx : dist o2.pos o3.pos ≤ 2 * c2.size := by
      have := dist_triangle_right o2.pos o3.pos c2.pos
      have a := q2.1.1.dist_le le_rfl h2
      have b := q2.1.1.dist_le le_rfl h3
      linarith
    have hy := side_close q1 q2 h1 h3
    have hz := side_close q1 q2 h1 h2
    rw [abs_le] at hy hz
    have hs1 := q1.1.1.size_nonneg
    have hs2 := q2.1.1.size_nonneg
    have hd : 0 ≤ dist c1.pos c2.pos := dist_nonneg
    have hm := hp.minsep
    have hmc : p.maxCos = 1 := by
      simp [Prm3.maxCos, hu0, Real.cos_le_one]
    -- one of the two sides at the first point goes to `o1`
    have hside : (side2 q = dist o1.pos o2.pos ∨ side2 q = dist o1.pos o3.pos) ∨
        (side3 q = dist o1.pos o2.pos ∨ side3 q = dist o1.pos o3.pos) := by
      cases O with
      | any =>
        simp only [Ord3.orders, orders6, Multiset.mem_add, Multiset.mem_singleton] at hq
        rcases hq with ((((rfl | rfl) | rfl) | rfl) | rfl) | rfl <;> simp [side2, side3, dist_comm]
      | first =>
        simp only [Ord3.orders, orders2, Multiset.mem_add, Multiset.mem_singleton] at hq
        rcases hq with rfl | rfl <;> simp [side2, side3]
      | fixed => exact absurd rfl hO'
    have hdeg : dist o2.pos o3.pos ≠ 0 := by
      intro g
      have g' : dist o3.pos o2.pos = 0 := by rw [dist_comm]; exact g
      refine ccw_degenerate' hM hO ?_ hc
      cases O with
      | any =>
        simp only [Ord3.orders, orders6, Multiset.mem_add, Multiset.mem_singleton] at hq
        rcases hq with ((((rfl | rfl) | rfl) | rfl) | rfl) | rfl <;> simp [g, g']
      | first =>
        simp only [Ord3.orders, orders2, Multiset.mem_add, Multiset.mem_singleton] at hq
        rcases hq with rfl | rfl <;> simp [g, g']
      | fixed => exact absurd rfl hO'
    simp only [skip12, w1, w2, false_or, binSAS, hM.distSq, hu0, hmc, lt_irrefl, false_and, or_false, mul_zero] at hs
    rcases hs with (hs | hs) | hs | hs
    · exact hdeg (le_antisymm (by linarith) dist_nonneg)
    · linarith
    · obtain ⟨a, b, c⟩ := hs
      have := lt_of_pow_lt_pow_left₀ 2 (by linarith) c
      rcases hside with (g | g) | (g | g) <;> rw [g] at hr <;> linarith [hr.1, hr.2.1, hr.2.2.1, hr.2.2.2]
    · obtain ⟨a, b⟩ := hs
      have := le_of_sq_le_sq b hd
      rcases hside with (g | g) | (g | g) <;> rw [g] at hr <;> linarith [hr.1, hr.2.1, hr.2.2.1, hr.2.2.2]
  leaf12 := by
    intro O c1 c2 q1 q2 hs
    refine lt_of_le_of_ne q2.1.1.size_nonneg fun h0 => hs ?_
    simp [skip12, binSAS, ← h0]
  small3 := by
    intro c hc hs o1 h1 o2 h2 o3 h3 k hk
    exfalso
    obtain ⟨k2, k3, kphi, hin, -, -⟩ := hk
    have := (inSas_range hp hin).1
    have t := dist_triangle_right o1.pos o3.pos c.pos
    have a := hc.1.1.dist_le le_rfl h1
    have b := hc.1.1.dist_le le_rfl h3
    simp only [side2] at this
    linarith

end

end TreeCorr
