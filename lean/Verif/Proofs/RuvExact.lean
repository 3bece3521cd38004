import Verif.Proofs.Ruv
import Verif.Proofs.Exact
import Mathlib.Geometry.Euclidean.Inversion.Basic

/-! `LogRUV` at zero slop: the decisions of `process111` and `process12` are exact. -/

namespace TreeCorr
open Classical
variable {P : Type}

/-- A row of weight zero is among the three. -/
def Weightless (t : Obj P × Obj P × Obj P) : Prop :=
  (t.1.w = 0 ∧ t.1.wk = 0) ∨ (t.2.1.w = 0 ∧ t.2.1.wk = 0) ∨ (t.2.2.w = 0 ∧ t.2.2.wk = 0)

/-- What `finishProcess` is told about the sides is true of every triple of rows of the three cells. -/
structure TrueSides [PseudoMetricSpace P] (e : Emit3 P) (t : Obj P × Obj P × Obj P) : Prop where
  d1 : e.d1 = side1 t
  d2 : e.d2 = side2 t
  d3 : e.d3 = side3 t
  l1 : e.logd1 = Real.log (side1 t)
  l2 : e.logd2 = Real.log (side2 t)
  l3 : e.logd3 = Real.log (side3 t)

/-- The cells of a call hold correct sums, and the call has the true sides and the given values of `u` and `v`. -/
def Call3 [PseudoMetricSpace P] (fu fv : Obj P × Obj P × Obj P → ℝ) (e : Emit3 P) : Prop :=
  (e.c1.SumsOK ∧ e.c2.SumsOK ∧ e.c3.SumsOK) ∧
    ∀ o1 ∈ e.c1.objs, ∀ o2 ∈ e.c2.objs, ∀ o3 ∈ e.c3.objs,
      TrueSides e (o1, o2, o3) ∧ e.u = fu (o1, o2, o3) ∧ e.v = fv (o1, o2, o3)

/-- No triangle in range has its two longest sides equal (then either order of two of its points is as good). -/
def NoTie [PseudoMetricSpace P] (p : Prm3) (ccw : P → P → P → Prop) (O : Ord3) (t : Obj P × Obj P × Obj P) : Prop :=
  O = .any → (∃ k, inRuv p ccw k t) → side1 t ≠ side2 t

/-! ### The index -/

theorem floor_bin {m bs x : ℝ} (hbs : 0 < bs) :
    linEdge m bs ⌊(x - m) / bs⌋ ≤ x ∧ x < linEdge m bs (⌊(x - m) / bs⌋ + 1) := by
  have h1 := Int.floor_le ((x - m) / bs)
  have h2 := Int.lt_floor_add_one ((x - m) / bs)
  rw [le_div_iff₀ hbs] at h1
  rw [div_lt_iff₀ hbs] at h2
  simp only [linEdge]
  push_cast
  constructor <;> linarith

theorem lin_floor {m bs x M : ℝ} {n : ℤ} (hbs : 0 < bs) (hM : M = m + n * bs) (h1 : m ≤ x) (h2 : x < M) :
    InLinBin m bs n ⌊(x - m) / bs⌋ x := by
  obtain ⟨a, b⟩ := floor_bin (m := m) (x := x) hbs
  refine ⟨Int.floor_nonneg.2 (div_nonneg (by linarith) hbs.le), ?_, a, b⟩
  rw [Int.floor_lt, div_lt_iff₀ hbs]
  linarith

theorem lin_unique {m bs x : ℝ} {n k : ℤ} (hbs : 0 < bs) (h : InLinBin m bs n k x) : ⌊(x - m) / bs⌋ = k := by
  obtain ⟨_, _, h1, h2⟩ := h
  simp only [linEdge] at h1 h2
  push_cast at h2
  rw [Int.floor_eq_iff, le_div_iff₀ hbs, div_lt_iff₀ hbs]
  constructor <;> linarith

theorem InLinBin.ge {m bs x : ℝ} {n k : ℤ} (hbs : 0 < bs) (h : InLinBin m bs n k x) : m ≤ x := by
  obtain ⟨h0, _, h1, _⟩ := h
  simp only [linEdge] at h1
  have : (0 : ℝ) ≤ k := by exact_mod_cast h0
  nlinarith

theorem InLinBin.lt {m bs x M : ℝ} {n k : ℤ} (hbs : 0 < bs) (hM : M = m + n * bs) (h : InLinBin m bs n k x) : x < M := by
  obtain ⟨_, h0, _, h1⟩ := h
  simp only [linEdge] at h1
  have : ((k + 1 : ℤ) : ℝ) ≤ n := by exact_mod_cast h0
  nlinarith

theorem log_lin {minsep bs d : ℝ} {n k : ℤ} (hm : 0 < minsep) (hd : 0 < d) :
    InLogBin minsep bs n k d ↔ InLinBin (Real.log minsep) bs n k (Real.log d) := by
  have e : ∀ j : ℤ, Real.log (logEdge minsep bs j) = linEdge (Real.log minsep) bs j := by
    intro j
    rw [logEdge, Real.log_mul hm.ne' (Real.exp_pos _).ne', Real.log_exp, linEdge]
  have pos : ∀ j : ℤ, 0 < logEdge minsep bs j := fun j => mul_pos hm (Real.exp_pos _)
  rw [InLogBin, InLinBin, ← e, ← e, Real.log_le_log_iff (pos k) hd, Real.log_lt_log_iff hd (pos (k + 1))]

theorem log_max {minsep bs : ℝ} {n : ℤ} (hm : 0 < minsep) :
    Real.log (minsep * Real.exp (n * bs)) = Real.log minsep + n * bs := by
  rw [Real.log_mul hm.ne' (Real.exp_pos _).ne', Real.log_exp]

theorem clampEq_lt {n k : ℤ} (h : k < n) : clampEq n k = k := by simp [clampEq, h.ne]
theorem clampBin_lt {n k : ℤ} (h : k < n) : clampBin n k = k := by simp [clampBin, not_le.2 h]

theorem place_range {nb nu nv kr ku kv : ℤ} (h1 : 0 ≤ kr) (h2 : kr < nb) (h3 : 0 ≤ ku) (h4 : ku < nu) (h5 : 0 ≤ kv)
    (h6 : kv < nv) : 0 ≤ (kr * nu + ku) * nv + kv ∧ (kr * nu + ku) * nv + kv < nb * nu * nv := by
  have a : 0 ≤ kr * nu := mul_nonneg h1 (by omega)
  have b : 0 ≤ (kr * nu + ku) * nv := mul_nonneg (by omega) (by omega)
  refine ⟨by omega, ?_⟩
  have c : (kr + 1) * nu ≤ nb * nu := mul_le_mul_of_nonneg_right (by omega) (by omega)
  have d : (kr * nu + ku + 1) * nv ≤ nb * nu * nv := mul_le_mul_of_nonneg_right (by nlinarith) (by omega)
  nlinarith

/-- The code's index is the bin, and is there exactly for triangles in range. -/
theorem ruvIndex_some {p : Prm3} (hp : RuvParams p) {O : Ord3} {c : Prop} {d1 d2 d3 : ℝ} (hd3 : 0 < d3) (hd2 : 0 < d2) {kr ku kv : ℤ}
    (hO : O ≠ .any → d2 ≤ d1 ∧ d3 ≤ d2)
    (h1 : InLogBin p.minsep p.binsize p.nbins kr d2) (h2 : InLinBin p.minu p.ubinsize p.nubins ku (d3 / d2))
    (h3 : InLinBin p.minv p.vbinsize p.nvbins kv ((d1 - d2) / d3)) :
    ruvIndex p O c d1 d2 d3 (d3 / d2) ((d1 - d2) / d3) =
      some (ruvPlace p kr ku kv c, if c then (d1 - d2) / d3 else -((d1 - d2) / d3)) := by
  have hm := hp.minsep
  have l1 := (log_lin hm hd2).1 h1
  have hM : Real.log p.maxsep = Real.log p.minsep + p.nbins * p.binsize := by rw [hp.maxsep, log_max hm]
  have hMpos : 0 < p.maxsep := by
    rw [hp.maxsep]
    positivity
  have g1 : p.minsep ≤ d2 := (Real.log_le_log_iff hm hd2).1 (l1.ge hp.binsize)
  have g2 : d2 < p.maxsep := (Real.log_lt_log_iff hd2 hMpos).1 (l1.lt hp.binsize hM)
  have e1 := lin_unique hp.binsize l1
  have e2 := lin_unique hp.ubinsize h2
  have e3 := lin_unique hp.vbinsize h3
  have hr : 0 ≤ ruvPlace p kr ku kv c ∧ ruvPlace p kr ku kv c < p.nbins * p.nubins * p.nvbins * 2 := by
    have a := h1.1
    have b := h1.2.1
    have a' := h2.1
    have b' := h2.2.1
    have a'' := h3.1
    have b'' := h3.2.1
    have := place_range (nb := p.nbins) (nu := p.nubins) (nv := 2 * p.nvbins)
      (kv := if c then p.nvbins + kv else p.nvbins - 1 - kv) a b a' b' (by split <;> omega) (by split <;> omega)
    refine ⟨this.1, lt_of_lt_of_eq this.2 (by ring)⟩
  unfold ruvIndex
  rw [if_neg (by rintro ⟨a, b⟩; exact b (hO a)), if_neg (by push Not; exact ⟨g1, g2⟩),
    if_neg (by push Not; exact ⟨h2.ge hp.ubinsize, h2.lt hp.ubinsize hp.maxu⟩),
    if_neg (by push Not; exact ⟨h3.ge hp.vbinsize, h3.lt hp.vbinsize hp.maxv⟩)]
  simp only [e1, e2, e3, clampEq_lt h1.2.1, clampBin_lt h2.2.1, clampBin_lt h3.2.1]
  have hplace : (kr * p.nubins + ku) * p.nvbins * 2 + (if ¬ c then p.nvbins - kv - 1 else kv + p.nvbins) =
      ruvPlace p kr ku kv c := by
    unfold ruvPlace
    by_cases hc : c
    · rw [if_neg (by simpa using hc), if_pos hc]
      ring
    · rw [if_pos hc, if_neg hc]
      ring
  rw [hplace, if_neg (by push Not; exact hr)]
  by_cases hc : c <;> simp [hc]

theorem ruvIndex_inv {p : Prm3} (hp : RuvParams p) {O : Ord3} {c : Prop} {d1 d2 d3 : ℝ} {i : ℤ} {v : ℝ}
    (h : ruvIndex p O c d1 d2 d3 (d3 / d2) ((d1 - d2) / d3) = some (i, v)) :
    (O ≠ .any → d2 ≤ d1 ∧ d3 ≤ d2) ∧ ∃ kr ku kv, InLogBin p.minsep p.binsize p.nbins kr d2 ∧
      InLinBin p.minu p.ubinsize p.nubins ku (d3 / d2) ∧ InLinBin p.minv p.vbinsize p.nvbins kv ((d1 - d2) / d3) := by
  unfold ruvIndex at h
  split at h
  · exact absurd h (by simp)
  rename_i h0
  split at h
  · exact absurd h (by simp)
  rename_i h1
  split at h
  · exact absurd h (by simp)
  rename_i h2
  split at h
  · exact absurd h (by simp)
  rename_i h3
  push Not at h0 h1 h2 h3
  have hm := hp.minsep
  have hd2 : 0 < d2 := by linarith [h1.1]
  have hM : Real.log p.maxsep = Real.log p.minsep + p.nbins * p.binsize := by rw [hp.maxsep, log_max hm]
  refine ⟨h0, _, _, _, (log_lin hm hd2).2 (lin_floor hp.binsize hM (Real.log_le_log hm h1.1) (Real.log_lt_log hd2 h1.2)),
    lin_floor hp.ubinsize hp.maxu h2.1 h2.2, lin_floor hp.vbinsize hp.maxv h3.1 h3.2⟩

/-! ### Sorted cells -/

theorem ruv_arranged [PseudoMetricSpace P] {p : Prm3} {M : Metric3 P} (hM : M.Of) {O : Ord3} {p1 p2 p3 : P}
    (h : Arranged (binRUV p M) M O p1 p2 p3) :
    (O ≠ .fixed → dist p1 p2 ≤ dist p1 p3) ∧ (O = .any → dist p1 p3 ≤ dist p2 p3) := by
  obtain ⟨O', q1, q2, q3, σ, hm, ha⟩ := h
  have key : ∀ a b c d : P, ¬ M.distSq a b < M.distSq c d → dist c d ≤ dist a b := by
    intro a b c d hn
    rw [hM.distSq, hM.distSq, not_lt] at hn
    exact le_of_sq_le_sq hn dist_nonneg
  have key' : ∀ a b c d : P, M.distSq a b < M.distSq c d → dist a b ≤ dist c d := by
    intro a b c d hn
    rw [hM.distSq, hM.distSq] at hn
    exact le_of_sq_le_sq hn.le dist_nonneg
  cases O' with
  | any =>
    simp only [arrange, binRUV, if_true] at hm
    split at hm
    · rename_i h1
      have h1 := key' _ _ _ _ h1
      split at hm
      · rename_i h2
        have h2 := key' _ _ _ _ h2
        simp only [List.mem_singleton, Prod.mk.injEq] at hm
        obtain ⟨rfl, rfl⟩ := hm
        simp only [Perm3.apply, Prod.mk.injEq] at ha
        obtain ⟨rfl, rfl, rfl⟩ := ha
        exact ⟨fun _ => h2, fun _ => h1⟩
      · rename_i h2
        have h2 := key _ _ _ _ h2
        split at hm
        · rename_i h3
          have h3 := key' _ _ _ _ h3
          simp only [List.mem_singleton, Prod.mk.injEq] at hm
          obtain ⟨rfl, rfl⟩ := hm
          simp only [Perm3.apply, Prod.mk.injEq] at ha
          obtain ⟨rfl, rfl, rfl⟩ := ha
          rw [dist_comm q3 q2]
          exact ⟨fun _ => h2, fun _ => h3⟩
        · rename_i h3
          have h3 := key _ _ _ _ h3
          simp only [List.mem_singleton, Prod.mk.injEq] at hm
          obtain ⟨rfl, rfl⟩ := hm
          simp only [Perm3.apply, Prod.mk.injEq] at ha
          obtain ⟨rfl, rfl, rfl⟩ := ha
          rw [dist_comm q3 q1, dist_comm q3 q2]
          exact ⟨fun _ => h1, fun _ => h3⟩
    · rename_i h1
      have h1 := key _ _ _ _ h1
      split at hm
      · rename_i h2
        have h2 := key' _ _ _ _ h2
        simp only [List.mem_singleton, Prod.mk.injEq] at hm
        obtain ⟨rfl, rfl⟩ := hm
        simp only [Perm3.apply, Prod.mk.injEq] at ha
        obtain ⟨rfl, rfl, rfl⟩ := ha
        rw [dist_comm q2 q1]
        exact ⟨fun _ => h2, fun _ => h1⟩
      · rename_i h2
        have h2 := key _ _ _ _ h2
        split at hm
        · rename_i h3
          have h3 := key' _ _ _ _ h3
          simp only [List.mem_singleton, Prod.mk.injEq] at hm
          obtain ⟨rfl, rfl⟩ := hm
          simp only [Perm3.apply, Prod.mk.injEq] at ha
          obtain ⟨rfl, rfl, rfl⟩ := ha
          rw [dist_comm q2 q1, dist_comm q3 q1]
          exact ⟨fun _ => h2, fun _ => h3⟩
        · rename_i h3
          have h3 := key _ _ _ _ h3
          simp only [List.mem_singleton, Prod.mk.injEq] at hm
          obtain ⟨rfl, rfl⟩ := hm
          simp only [Perm3.apply, Prod.mk.injEq] at ha
          obtain ⟨rfl, rfl, rfl⟩ := ha
          rw [dist_comm q3 q2, dist_comm q3 q1, dist_comm q2 q1]
          exact ⟨fun _ => h1, fun _ => h3⟩
  | first =>
    simp only [arrange, binRUV, if_true] at hm
    split at hm
    · rename_i h1
      have h1 := key' _ _ _ _ h1
      simp only [List.mem_singleton, Prod.mk.injEq] at hm
      obtain ⟨rfl, rfl⟩ := hm
      simp only [Perm3.apply, Prod.mk.injEq] at ha
      obtain ⟨rfl, rfl, rfl⟩ := ha
      exact ⟨fun _ => h1, fun h => absurd h (by simp)⟩
    · rename_i h1
      have h1 := key _ _ _ _ h1
      simp only [List.mem_singleton, Prod.mk.injEq] at hm
      obtain ⟨rfl, rfl⟩ := hm
      simp only [Perm3.apply, Prod.mk.injEq] at ha
      obtain ⟨rfl, rfl, rfl⟩ := ha
      exact ⟨fun _ => h1, fun h => absurd h (by simp)⟩
  | fixed =>
    simp only [arrange, List.mem_singleton, Prod.mk.injEq] at hm
    obtain ⟨rfl, rfl⟩ := hm
    exact ⟨fun h => absurd rfl h, fun h => absurd h (by simp)⟩

/-! ### Splitting -/

theorem ruvSplit_none {p : Prm3} (hb : p.b = 0) (hbu : p.bu = 0) {d1sq d2sq d3sq s1 s2 s3 : ℝ} (h1 : 0 ≤ s1) (h2 : 0 ≤ s2)
    (h3 : 0 ≤ s3) (h : ruvSplit p d1sq d2sq d3sq s1 s2 s3 = none) : s1 = 0 ∧ s2 = 0 ∧ s3 = 0 := by
  have e3 : s3 = 0 := by
    by_contra hne
    have hpos : 0 < s3 := lt_of_le_of_ne h3 (Ne.symm hne)
    unfold ruvSplit at h
    rw [if_pos (by
      refine ⟨hpos, Or.inl ?_⟩
      rw [hb, mul_zero]
      exact hpos)] at h
    exact absurd h (by simp)
  subst e3
  have e12 : ¬ (0 < s1 ∨ 0 < s2) := by
    intro hpos
    unfold ruvSplit at h
    rw [if_neg (by rintro ⟨a, _⟩; exact lt_irrefl _ a)] at h
    simp only [hpos, if_true] at h
    rw [if_pos] at h
    · exact absurd h (by simp)
    · right; right; left
      rw [hbu]
      simp only [lt_irrefl, if_false, zero_mul, add_zero, mul_zero]
      have : 0 < s1 + s2 := by rcases hpos with a | a <;> linarith
      positivity
  push Not at e12
  exact ⟨le_antisymm e12.1 h1, le_antisymm e12.2 h2, rfl⟩

theorem ruvSplit_some {p : Prm3} {d1sq d2sq d3sq s1 s2 s3 : ℝ} (hd3 : 0 ≤ d3sq) (h1 : 0 ≤ s1) (h2 : 0 ≤ s2)
    {f1 f2 f3 : Bool} (h : ruvSplit p d1sq d2sq d3sq s1 s2 s3 = some (f1, f2, f3)) :
    (f1 = true → 0 < s1) ∧ (f2 = true → 0 < s2) ∧ (f3 = true → 0 < s3) ∧ (f2 = false → f3 = false → 0 < s1) := by
  unfold ruvSplit at h
  simp only at h
  split at h
  · rename_i h3
    have hs3 := h3.1
    simp only [Option.some.injEq, Prod.mk.injEq] at h
    obtain ⟨rfl, rfl, rfl⟩ := h
    refine ⟨?_, ?_, fun _ => hs3, fun _ hf => absurd hf (by simp)⟩
    · intro hf
      rw [decide_eq_true_eq] at hf
      rcases h1.lt_or_eq with h | h
      · exact h
      · rw [← h] at hf
        have : 0 ≤ 0.7 * s3 ^ 2 * d3sq := by positivity
        norm_num at hf
        linarith
    · intro hf
      rw [decide_eq_true_eq] at hf
      rcases h2.lt_or_eq with h | h
      · exact h
      · rw [← h] at hf
        have : 0 ≤ 0.7 * s3 ^ 2 * d3sq := by positivity
        norm_num at hf
        linarith
  · split at h
    · rename_i hpos
      generalize (if 0 < s3 then s1 + s3 else 0) = q at h
      split at h
      · simp only [Option.some.injEq, Prod.mk.injEq] at h
        obtain ⟨rfl, rfl, rfl⟩ := h
        refine ⟨?_, ?_, fun hf => absurd hf (by simp), ?_⟩
        · intro hf
          rw [decide_eq_true_eq] at hf
          rcases hf with hf | hf
          · exact hf.1
          · rcases hpos with h | h <;> linarith
        · intro hf
          rw [decide_eq_true_eq] at hf
          rcases hf with hf | hf
          · exact hf.1
          · rcases hpos with h | h <;> linarith
        · intro hf _
          rw [decide_eq_false_iff_not] at hf
          push Not at hf
          linarith [hf.2]
      · exact absurd h (by simp)
    · exact absurd h (by simp)

theorem halves_isSome {f : Bool} {c : Cell P} (h : f = true → 0 < c.size) : (halves f c).isSome := by
  cases f with
  | false => simp [halves]
  | true =>
    cases c with
    | leaf d os => exact absurd (h rfl) (by simp [Cell.size])
    | node d s l r => simp [halves]

theorem splitCells_isSome {f1 f2 f3 : Bool} {c1 c2 c3 : Cell P} (h1 : f1 = true → 0 < c1.size) (h2 : f2 = true → 0 < c2.size)
    (h3 : f3 = true → 0 < c3.size) (h : f2 = false → f3 = false → 0 < c1.size) : (splitCells f1 f2 f3 c1 c2 c3).isSome := by
  have g1 : (halves (f1 || (!f2 && !f3)) c1).isSome := halves_isSome (by
    intro hf
    cases f1 <;> cases f2 <;> cases f3 <;> simp_all)
  obtain ⟨a, ha⟩ := Option.isSome_iff_exists.1 g1
  obtain ⟨b, hb⟩ := Option.isSome_iff_exists.1 (halves_isSome h2)
  obtain ⟨c, hc⟩ := Option.isSome_iff_exists.1 (halves_isSome h3)
  simp [splitCells, ha, hb, hc]

/-! ### The decisions -/

theorem ruvAct_drop {p : Prm3} {M : Metric3 P} {O : Ord3} {c1 c2 c3 : Cell P} (h : ruvAct p M O c1 c2 c3 = .drop) :
    ruvStop p O (M.distSq c2.pos c3.pos) (M.distSq c1.pos c3.pos) (M.distSq c1.pos c2.pos) c1.size c2.size c3.size ∨
    (ruvSplit p (M.distSq c2.pos c3.pos) (M.distSq c1.pos c3.pos) (M.distSq c1.pos c2.pos) c1.size c2.size c3.size = none ∧
      ruvIndex p O (M.ccw c1.pos c2.pos c3.pos) (Real.sqrt (M.distSq c2.pos c3.pos)) (Real.sqrt (M.distSq c1.pos c3.pos))
        (Real.sqrt (M.distSq c1.pos c2.pos)) (Real.sqrt (M.distSq c1.pos c2.pos) / Real.sqrt (M.distSq c1.pos c3.pos))
        ((Real.sqrt (M.distSq c2.pos c3.pos) - Real.sqrt (M.distSq c1.pos c3.pos)) / Real.sqrt (M.distSq c1.pos c2.pos)) = none) := by
  unfold ruvAct at h
  simp only at h
  split at h
  · left; assumption
  · right
    split at h
    · exact absurd h (by simp)
    · rename_i hs
      refine ⟨hs, ?_⟩
      split at h
      · assumption
      · exact absurd h (by simp)

theorem ruvAct_split {p : Prm3} {M : Metric3 P} {O : Ord3} {c1 c2 c3 : Cell P} {f1 f2 f3 : Bool}
    (h : ruvAct p M O c1 c2 c3 = .split f1 f2 f3) :
    ruvSplit p (M.distSq c2.pos c3.pos) (M.distSq c1.pos c3.pos) (M.distSq c1.pos c2.pos) c1.size c2.size c3.size =
      some (f1, f2, f3) := by
  unfold ruvAct at h
  simp only at h
  split at h
  · exact absurd h (by simp)
  · split at h
    · rename_i hs
      simp only [Act3.split.injEq] at h
      obtain ⟨rfl, rfl, rfl⟩ := h
      exact hs
    · split at h <;> exact absurd h (by simp)

theorem ruvAct_direct {p : Prm3} {M : Metric3 P} {O : Ord3} {c1 c2 c3 : Cell P} {e : Emit3 P}
    (h : ruvAct p M O c1 c2 c3 = .direct e) :
    ¬ ruvStop p O (M.distSq c2.pos c3.pos) (M.distSq c1.pos c3.pos) (M.distSq c1.pos c2.pos) c1.size c2.size c3.size ∧
    ruvSplit p (M.distSq c2.pos c3.pos) (M.distSq c1.pos c3.pos) (M.distSq c1.pos c2.pos) c1.size c2.size c3.size = none ∧
    ∃ i v, ruvIndex p O (M.ccw c1.pos c2.pos c3.pos) (Real.sqrt (M.distSq c2.pos c3.pos)) (Real.sqrt (M.distSq c1.pos c3.pos))
        (Real.sqrt (M.distSq c1.pos c2.pos)) (Real.sqrt (M.distSq c1.pos c2.pos) / Real.sqrt (M.distSq c1.pos c3.pos))
        ((Real.sqrt (M.distSq c2.pos c3.pos) - Real.sqrt (M.distSq c1.pos c3.pos)) / Real.sqrt (M.distSq c1.pos c2.pos)) =
        some (i, v) ∧
      e = ⟨c1, c2, c3, Real.sqrt (M.distSq c2.pos c3.pos), Real.sqrt (M.distSq c1.pos c3.pos),
        Real.sqrt (M.distSq c1.pos c2.pos), Real.sqrt (M.distSq c1.pos c2.pos) / Real.sqrt (M.distSq c1.pos c3.pos), v,
        Real.log (Real.sqrt (M.distSq c2.pos c3.pos)), Real.log (Real.sqrt (M.distSq c1.pos c3.pos)),
        Real.log (Real.sqrt (M.distSq c1.pos c2.pos)), i⟩ := by
  unfold ruvAct at h
  simp only at h
  split at h
  · exact absurd h (by simp)
  · rename_i h0
    refine ⟨h0, ?_⟩
    split at h
    · exact absurd h (by simp)
    · rename_i hs
      refine ⟨hs, ?_⟩
      split at h
      · exact absurd h (by simp)
      · rename_i i v hi
        simp only [Act3.direct.injEq] at h
        exact ⟨i, v, hi, h.symm⟩

section
variable [PseudoMetricSpace P]

theorem side_close {c1 c2 : Cell P} (q1 : ValidCell 0 c1) (q2 : ValidCell 0 c2) {o1 o2 : Obj P} (h1 : o1 ∈ c1.objs)
    (h2 : o2 ∈ c2.objs) : |dist o1.pos o2.pos - dist c1.pos c2.pos| ≤ c1.size + c2.size := by
  have a := q1.1.1.dist_le le_rfl h1
  have b := q2.1.1.dist_le le_rfl h2
  rw [abs_le]
  have t1 := dist_triangle4 o1.pos c1.pos c2.pos o2.pos
  have t2 := dist_triangle4 c1.pos o1.pos o2.pos c2.pos
  rw [dist_comm c2.pos o2.pos] at t1
  rw [dist_comm c1.pos o1.pos] at t2
  constructor <;> linarith

theorem inRuv_range {p : Prm3} (hp : RuvParams p) {ccw : P → P → P → Prop} {k : ℤ} {t : Obj P × Obj P × Obj P}
    (h : inRuv p ccw k t) : RuvRange p (side1 t) (side2 t) (side3 t) := by
  obtain ⟨kr, ku, kv, ⟨h1, h2, h3, h4, h5, h6⟩, -⟩ := h
  have hy : 0 < side2 t := by linarith
  have hm := hp.minsep
  have l1 := (log_lin hm hy).1 h4
  have hM : Real.log p.maxsep = Real.log p.minsep + p.nbins * p.binsize := by rw [hp.maxsep, log_max hm]
  have hMpos : 0 < p.maxsep := by
    rw [hp.maxsep]
    positivity
  refine ⟨h1, h2, h3, (Real.log_le_log_iff hm hy).1 (l1.ge hp.binsize), (Real.log_lt_log_iff hy hMpos).1 (l1.lt hp.binsize hM), ?_, ?_, ?_, ?_⟩
  · have := h5.ge hp.ubinsize
    rwa [triU, le_div_iff₀ hy] at this
  · have := h5.lt hp.ubinsize hp.maxu
    rwa [triU, div_lt_iff₀ hy] at this
  · have := h6.ge hp.vbinsize
    rwa [triV, le_div_iff₀ h3] at this
  · have := h6.lt hp.vbinsize hp.maxv
    rwa [triV, div_lt_iff₀ h3] at this

theorem via_of (h : Ptolemaic P) {o1 o2 o3 c1 c2 c3 : P} {s1 s2 s3 : ℝ} (h1 : dist o1 c1 ≤ s1) (h2 : dist o2 c2 ≤ s2)
    (h3 : dist o3 c3 ≤ s3) : Via (dist o2 o3) (dist o1 o3) (dist o1 o2) (dist c2 c3) (dist c1 c3) s1 s2 s3 := by
  refine ⟨dist o1 c3, dist o2 c3, dist o3 c3, dist_nonneg, dist_nonneg, dist_nonneg, h3, ?_, ?_, ?_, ?_, ?_, ?_⟩
  · exact (abs_dist_sub_le o1 c1 c3).trans h1
  · exact (abs_dist_sub_le o2 c2 c3).trans h2
  · rw [dist_comm o1 c3, dist_comm o1 o3, dist_comm o3 c3]
    exact abs_dist_sub_le c3 o3 o1
  · rw [dist_comm o2 c3, dist_comm o2 o3, dist_comm o3 c3]
    exact abs_dist_sub_le c3 o3 o2
  · have := h c3 o3 o2 o1
    rw [dist_comm c3 o2, dist_comm c3 o3, dist_comm c3 o1, dist_comm o3 o1, dist_comm o3 o2, dist_comm o2 o1] at this
    exact this
  · have := h c3 o3 o1 o2
    rw [dist_comm c3 o2, dist_comm c3 o3, dist_comm c3 o1, dist_comm o3 o1, dist_comm o3 o2] at this
    linarith

/-- The sides of the reordered triples. -/
theorem orders_some {O : Ord3} {R : ℝ → ℝ → ℝ → Prop} {o1 o2 o3 : Obj P} {q : Obj P × Obj P × Obj P}
    (hq : q ∈ O.orders (o1, o2, o3)) (h : R (side1 q) (side2 q) (side3 q)) :
    O.Some R (side1 (o1, o2, o3)) (side2 (o1, o2, o3)) (side3 (o1, o2, o3)) := by
  cases O <;> simp only [Ord3.orders, orders6, orders2, Multiset.mem_add, Multiset.mem_singleton] at hq
  · simp only [Ord3.Some]
    rcases hq with ((((rfl | rfl) | rfl) | rfl) | rfl) | rfl <;> simp only [side1, side2, side3] at h ⊢
    · exact Or.inl h
    · rw [dist_comm o3.pos o2.pos] at h
      exact Or.inr (Or.inl h)
    · rw [dist_comm o2.pos o1.pos] at h
      exact Or.inr (Or.inr (Or.inl h))
    · rw [dist_comm o3.pos o1.pos, dist_comm o2.pos o1.pos] at h
      exact Or.inr (Or.inr (Or.inr (Or.inl h)))
    · rw [dist_comm o3.pos o2.pos, dist_comm o3.pos o1.pos] at h
      exact Or.inr (Or.inr (Or.inr (Or.inr (Or.inl h))))
    · rw [dist_comm o2.pos o1.pos, dist_comm o3.pos o1.pos, dist_comm o3.pos o2.pos] at h
      exact Or.inr (Or.inr (Or.inr (Or.inr (Or.inr h))))
  · simp only [Ord3.Some]
    rcases hq with rfl | rfl <;> simp only [side1, side2, side3] at h ⊢
    · exact Or.inl h
    · rw [dist_comm o3.pos o2.pos] at h
      exact Or.inr h
  · subst hq
    exact h

/-- Sides of a triple in range, none equal. -/
structure StrictRange (p : Prm3) (x y z : ℝ) : Prop where
  yx : y < x
  zy : z < y

theorem inRuv_strict {p : Prm3} (hp : RuvParams p) {ccw : P → P → P → Prop} {k : ℤ} {t : Obj P × Obj P × Obj P}
    (h : inRuv p ccw k t) (hn : NoTie p ccw .any t) : StrictRange p (side1 t) (side2 t) (side3 t) := by
  have hr := inRuv_range hp h
  refine ⟨lt_of_le_of_ne hr.yx (Ne.symm (hn rfl ⟨k, h⟩)), ?_⟩
  have a := hr.umax
  have b : 0 ≤ side2 t := dist_nonneg
  have := mul_le_mul_of_nonneg_right hp.maxu_le b
  linarith

/-- With sorted sides only the given order can be in a bin. -/
theorem ruv_others {p : Prm3} (hp : RuvParams p) {ccw : P → P → P → Prop} {O : Ord3} {o1 o2 o3 : Obj P}
    (h1 : O ≠ .fixed → side3 (o1, o2, o3) ≤ side2 (o1, o2, o3)) (h2 : O = .any → side2 (o1, o2, o3) ≤ side1 (o1, o2, o3))
    {q : Obj P × Obj P × Obj P} (hq : q ∈ O.others (o1, o2, o3)) (hn : NoTie p ccw O q) {k : ℤ} (h : inRuv p ccw k q) : False := by
  cases O with
  | any =>
    have hs := inRuv_strict hp h hn
    have a := hs.yx
    have b := hs.zy
    have h1 := h1 (by simp)
    have h2 := h2 rfl
    simp only [Ord3.others, Multiset.mem_add, Multiset.mem_singleton] at hq
    rcases hq with (((rfl | rfl) | rfl) | rfl) | rfl <;> simp only [side1, side2, side3] at h1 h2 a b <;>
      simp only [dist_comm o3.pos o2.pos, dist_comm o2.pos o1.pos, dist_comm o3.pos o1.pos] at a b <;> linarith
  | first =>
    have hr := inRuv_range hp h
    have h1 := h1 (by simp)
    simp only [Ord3.others, Multiset.mem_singleton] at hq
    subst hq
    have a := hr.umax
    have b : 0 ≤ side2 (o1, o3, o2) := dist_nonneg
    have c := mul_le_mul_of_nonneg_right hp.maxu_le b
    simp only [side1, side2, side3] at h1 a b c
    linarith
  | fixed => simp [Ord3.others] at hq

theorem size_zero_dist {c : Cell P} (q : ValidCell 0 c) (hs : c.size = 0) {o : Obj P} (ho : o ∈ c.objs) : dist c.pos o.pos = 0 := by
  have a := q.1.1.dist_le le_rfl ho
  rw [dist_comm]
  exact le_antisymm (by linarith) dist_nonneg

/-- The decisions for `LogRUV` are exact when the tolerances are zero; with limits on `v` if Ptolemy's inequality holds, and with a lower limit on
`v` only for a fixed order of the rows. -/
theorem ruv_exact3_gen {p : Prm3} (hp : RuvParams p) (hv1 : p.maxv = 1 ∨ Ptolemaic P) (hb : p.b = 0) (hbu : p.bu = 0)
    {M : Metric3 P} (hM : M.Of) :
    Exact3 (binRUV p M) M p.minsep (ValidCell 0) (fun O t => NoTie p M.ccw O t ∧ (0 < p.minv → O = .fixed ∧ Ptolemaic P))
      (inRuv p M.ccw) Weightless (Call3 triU (triVs M.ccw)) where
  mono := by
    rintro O p1 p2 p3 O' σ hm q ⟨h, hf⟩
    refine ⟨?_, fun h0 => ⟨?_, (hf h0).2⟩⟩
    swap
    · rw [(hf h0).1] at hm
      simp [arrange] at hm
      exact hm.1
    have : O' = .any → O = .any := by
      intro h
      subst h
      cases O with
      | any => rfl
      | first =>
        simp only [arrange, binRUV, if_true] at hm
        split at hm <;> simp at hm
      | fixed => simp [arrange] at hm
    exact fun h1 => h (this h1)
  direct := by
    intro O c1 c2 c3 e q1 q2 q3 hA h
    obtain ⟨hst, hsp, i, v, hi, rfl⟩ := ruvAct_direct h
    obtain ⟨s1, s2, s3⟩ := ruvSplit_none hb hbu q1.1.1.size_nonneg q2.1.1.size_nonneg q3.1.1.size_nonneg hsp
    obtain ⟨hA1, hA2⟩ := ruv_arranged hM hA
    simp only [hM.distSq, Real.sqrt_sq dist_nonneg] at hi hst
    have hd : ∀ {o1 o2 o3 : Obj P}, o1 ∈ c1.objs → o2 ∈ c2.objs → o3 ∈ c3.objs →
        side1 (o1, o2, o3) = dist c2.pos c3.pos ∧ side2 (o1, o2, o3) = dist c1.pos c3.pos ∧
        side3 (o1, o2, o3) = dist c1.pos c2.pos ∧
        (M.ccw c1.pos c2.pos c3.pos ↔ M.ccw o1.pos o2.pos o3.pos) := by
      intro o1 o2 o3 h1 h2 h3
      have a := side_close q2 q3 h2 h3
      have b := side_close q1 q3 h1 h3
      have c := side_close q1 q2 h1 h2
      simp only [s1, s2, s3, add_zero, abs_nonpos_iff, sub_eq_zero] at a b c
      exact ⟨a, b, c, hM.ccw _ _ _ _ _ _ (size_zero_dist q1 s1 h1) (size_zero_dist q2 s2 h2) (size_zero_dist q3 s3 h3)⟩
    have hd3 : 0 < dist c1.pos c2.pos := by
      refine lt_of_le_of_ne dist_nonneg fun h0 => hst ?_
      simp only [ruvStop]
      rw [← h0]
      simp [s1, s2]
    obtain ⟨hO, kr, ku, kv, k1, k2, k3⟩ := ruvIndex_inv hp hi
    have hd2 : 0 < dist c1.pos c3.pos := k1.pos hp.minsep
    have hi' := ruvIndex_some hp (c := M.ccw c1.pos c2.pos c3.pos) hd3 hd2 hO k1 k2 k3
    rw [hi', Option.some.injEq, Prod.mk.injEq] at hi
    obtain ⟨rfl, rfl⟩ := hi
    have hsort : dist c1.pos c3.pos ≤ dist c2.pos c3.pos ∧ dist c1.pos c2.pos ≤ dist c1.pos c3.pos := by
      by_cases hany : O = .any
      · exact ⟨hA2 hany, hA1 (by simp [hany])⟩
      · exact hO hany
    refine ⟨⟨rfl, rfl, rfl⟩, ⟨⟨q1.1.2, q2.1.2, q3.1.2⟩, ?_⟩, ?_⟩
    · intro o1 h1 o2 h2 o3 h3
      obtain ⟨a, b, c, d⟩ := hd h1 h2 h3
      simp only [hM.distSq, Real.sqrt_sq dist_nonneg]
      exact ⟨⟨a.symm, b.symm, c.symm, by rw [a], by rw [b], by rw [c]⟩, by simp only [triU, b, c],
        by simp only [triVs, triV, a, b, c, d]⟩
    · intro o1 h1 o2 h2 o3 h3 hG
      obtain ⟨a, b, c, d⟩ := hd h1 h2 h3
      refine ⟨fun k => ⟨?_, ?_⟩, ?_⟩
      · rintro ⟨kr', ku', kv', ⟨_, _, _, j1, j2, j3⟩, rfl⟩
        rw [b] at j1
        rw [triU, b, c] at j2
        rw [triV, a, b, c] at j3
        have := ruvIndex_some hp (c := M.ccw c1.pos c2.pos c3.pos) hd3 hd2 hO j1 j2 j3
        rw [hi', Option.some.injEq, Prod.mk.injEq] at this
        show ruvPlace p kr ku kv (M.ccw c1.pos c2.pos c3.pos) = _
        rw [this.1]
        simp only [d]
      · rintro rfl
        refine ⟨kr, ku, kv, ⟨?_, ?_, ?_, ?_, ?_, ?_⟩, by simp only [d]⟩
        · rw [a, b]
          exact hsort.1
        · rw [b, c]
          exact hsort.2
        · rw [c]
          exact hd3
        · rw [b]
          exact k1
        · rw [triU, b, c]
          exact k2
        · rw [triV, a, b, c]
          exact k3
      · intro q hq k hk
        refine ruv_others hp (ccw := M.ccw) ?_ ?_ hq (hG q ?_).1 hk
        · intro hf
          rw [b, c]
          exact hA1 hf
        · intro hf
          rw [a, b]
          exact hA2 hf
        · rw [orders_eq]
          exact Multiset.mem_add.2 (Or.inr hq)
  drop := by
    intro O c1 c2 c3 q1 q2 q3 hA h o1 h1 o2 h2 o3 h3 q hq hG k hk
    exfalso
    obtain ⟨hA1, hA2⟩ := ruv_arranged hM hA
    rcases ruvAct_drop h with hst | ⟨hsp, hi⟩
    · simp only [hM.distSq] at hst
      have e1 := q1.1.1.dist_le le_rfl h1
      have e2 := q2.1.1.dist_le le_rfl h2
      have e3 := q3.1.1.dist_le le_rfl h3
      have via : Ptolemaic P → Via (dist o2.pos o3.pos) (dist o1.pos o3.pos) (dist o1.pos o2.pos) (dist c2.pos c3.pos)
          (dist c1.pos c3.pos) c1.size c2.size c3.size := fun h => via_of h (by linarith) (by linarith) (by linarith)
      have via' : Ptolemaic P → Via (dist o2.pos o3.pos) (dist o1.pos o2.pos) (dist o1.pos o3.pos) (dist c2.pos c3.pos)
          (dist c1.pos c2.pos) c1.size c3.size c2.size := by
        intro h
        rw [dist_comm o2.pos o3.pos, dist_comm c2.pos c3.pos]
        exact via_of h (by linarith) (by linarith) (by linarith)
      have hP : p.maxv < 1 → Ptolemaic P := fun h => hv1.resolve_left h.ne
      exact ruvStop_safe hp (fun h => ⟨(hG.2 h).1, via (hG.2 h).2⟩) (fun h => ⟨via (hP h), via' (hP h)⟩) dist_nonneg dist_nonneg dist_nonneg q1.1.1.size_nonneg q2.1.1.size_nonneg q3.1.1.size_nonneg
        hA1 hA2 (side_close q2 q3 h2 h3) (side_close q1 q3 h1 h3) (side_close q1 q2 h1 h2) dist_nonneg dist_nonneg hst
        (orders_some hq (inRuv_range hp hk))
    · obtain ⟨s1, s2, s3⟩ := ruvSplit_none hb hbu q1.1.1.size_nonneg q2.1.1.size_nonneg q3.1.1.size_nonneg hsp
      have a := side_close q2 q3 h2 h3
      have b := side_close q1 q3 h1 h3
      have c := side_close q1 q2 h1 h2
      simp only [s1, s2, s3, add_zero, abs_nonpos_iff, sub_eq_zero] at a b c
      rw [orders_eq, Multiset.mem_add] at hq
      rcases hq with hq | hq
      · rw [Multiset.mem_singleton] at hq
        subst hq
        obtain ⟨kr, ku, kv, ⟨j0, j1, j2, j3, j4, j5⟩, -⟩ := hk
        simp only [hM.distSq, Real.sqrt_sq dist_nonneg] at hi
        simp only [InRuv, triU, triV, side1, side2, side3, a, b, c] at j0 j1 j2 j3 j4 j5
        rw [ruvIndex_some hp j2 (by linarith) (fun _ => ⟨j0, j1⟩) j3 j4 j5] at hi
        exact absurd hi (by simp)
      · refine ruv_others hp (ccw := M.ccw) ?_ ?_ hq hG.1 hk
        · intro hf
          simp only [side2, side3, b, c]
          exact hA1 hf
        · intro hf
          simp only [side1, side2, a, b]
          exact hA2 hf
  split := by
    intro O c1 c2 c3 f1 f2 f3 q1 q2 q3 h
    obtain ⟨a, b, c, d⟩ := ruvSplit_some (by rw [hM.distSq]; positivity) q1.1.1.size_nonneg q2.1.1.size_nonneg (ruvAct_split h)
    exact splitCells_isSome a b c d
  zero := by
    rintro c hc hw o ho q (rfl | rfl | rfl)
    · exact Or.inl (hc.zero hw ho)
    · exact Or.inr (Or.inl (hc.zero hw ho))
    · exact Or.inr (Or.inr (hc.zero hw ho))
  skip12 := by
    intro O c1 c2 hO q1 q2 w1 w2 hs o1 h1 o2 h2 o3 h3 q hq _ k hk
    exfalso
    refine absurd (orders_some hq (inRuv_range hp hk)) ?_
    have hx : side1 (o1, o2, o3) ≤ 2 * c2.size := by
      have := dist_triangle_right o2.pos o3.pos c2.pos
      have a := q2.1.1.dist_le le_rfl h2
      have b := q2.1.1.dist_le le_rfl h3
      simp only [side1]
      linarith
    have hy := side_close q1 q2 h1 h3
    have hz := side_close q1 q2 h1 h2
    rw [abs_le] at hy hz
    have hx0 : 0 ≤ side1 (o1, o2, o3) := dist_nonneg
    have hy0 : 0 ≤ side2 (o1, o2, o3) := dist_nonneg
    have hz0 : 0 ≤ side3 (o1, o2, o3) := dist_nonneg
    change -(c1.size + c2.size) ≤ side2 (o1, o2, o3) - _ ∧ side2 (o1, o2, o3) - _ ≤ _ at hy
    change -(c1.size + c2.size) ≤ side3 (o1, o2, o3) - _ ∧ side3 (o1, o2, o3) - _ ≤ _ at hz
    have hs1 := q1.1.1.size_nonneg
    have hs2 := q2.1.1.size_nonneg
    have hd : 0 ≤ dist c1.pos c2.pos := dist_nonneg
    have hm := hp.minsep
    have hu := hp.minu
    simp only [skip12, w1, w2, false_or, binRUV, hM.distSq] at hs
    generalize side1 (o1, o2, o3) = x at hx hx0 ⊢
    generalize side2 (o1, o2, o3) = y at hy hy0 ⊢
    generalize side3 (o1, o2, o3) = z at hz hz0 ⊢
    generalize c1.size = t1 at hs hx hy hz hs1
    generalize c2.size = t2 at hs hx hy hz hs2
    generalize dist c1.pos c2.pos = D at hs hy hz hd
    rcases hs with (hs | hs) | hs | hs | hs
    · exact not_range_zero (Or.inl (by linarith))
    · have key : ∀ a b c, RuvRange p a b c → (a = x ∨ b = x ∨ c = x) → False := by
        intro a b c g hc
        have e1 := g.yx
        have e2 := g.zy
        have e3 := g.umin
        have e4 := mul_le_mul_of_nonneg_left g.min hu
        rcases hc with rfl | rfl | rfl <;> nlinarith
      cases O with
      | any => rintro (g | g | g | g | g | g) <;> exact key _ _ _ g (by simp)
      | first => rintro (g | g) <;> exact key _ _ _ g (by simp)
      | fixed => exact absurd rfl hO
    · obtain ⟨a, b, c⟩ := hs
      have := lt_of_pow_lt_pow_left₀ 2 (by linarith) c
      exact not_range_small (by linarith) (fun _ => by linarith)
    · obtain ⟨a, b⟩ := hs
      have := le_of_sq_le_sq b hd
      cases O with
      | any =>
        rintro (g | g | g | g | g | g) <;> have e1 := g.zy <;> have e2 := g.max <;> linarith
      | first =>
        rintro (g | g) <;> have e2 := g.max <;> linarith
      | fixed => exact absurd rfl hO
    · obtain ⟨a, b⟩ := hs
      have e1 := lt_of_pow_lt_pow_left₀ 2 hd a
      have b' : (2 * t2 + p.minu * (t1 + t2)) ^ 2 < (p.minu * D) ^ 2 := lt_of_lt_of_eq b (by ring)
      have e2 := lt_of_pow_lt_pow_left₀ 2 (by positivity) b'
      have e3 := mul_le_mul_of_nonneg_left (show D - (t1 + t2) ≤ y by linarith) hu
      have e4 := mul_le_mul_of_nonneg_left (show D - (t1 + t2) ≤ z by linarith) hu
      exact not_range_thin' hp (by linarith) (by linarith) hy0 hz0
  leaf12 := by
    intro O c1 c2 q1 q2 hs
    refine lt_of_le_of_ne q2.1.1.size_nonneg fun h0 => hs ?_
    simp [skip12, binRUV, ← h0]
  small3 := by
    intro c hc hs o1 h1 o2 h2 o3 h3 k hk
    exfalso
    have hr := inRuv_range hp hk
    have := hr.min
    have t := dist_triangle_right o1.pos o3.pos c.pos
    have a := hc.1.1.dist_le le_rfl h1
    have b := hc.1.1.dist_le le_rfl h3
    simp only [side2] at this
    linarith

theorem Exact3.congrG {B : Bin3 P} {M : Metric3 P} {minsep : ℝ} {Q : Cell P → Prop} {G G' : Ord3 → Obj P × Obj P × Obj P → Prop}
    {inBin : ℤ → Obj P × Obj P × Obj P → Prop} {Z : Obj P × Obj P × Obj P → Prop} {E : Emit3 P → Prop}
    (h : Exact3 B M minsep Q G inBin Z E) (hG : ∀ O t, G O t ↔ G' O t) : Exact3 B M minsep Q G' inBin Z E := by
  have : G = G' := by
    funext O t
    exact propext (hG O t)
  exact this ▸ h

/-- Without a lower limit on `v`. -/
theorem ruv_exact3 {p : Prm3} (hp : RuvParams p) (hv0 : p.minv = 0) (hv1 : p.maxv = 1 ∨ Ptolemaic P) (hb : p.b = 0) (hbu : p.bu = 0)
    {M : Metric3 P} (hM : M.Of) :
    Exact3 (binRUV p M) M p.minsep (ValidCell 0) (NoTie p M.ccw) (inRuv p M.ccw) Weightless (Call3 triU (triVs M.ccw)) :=
  (ruv_exact3_gen hp hv1 hb hbu hM).congrG fun O t => and_iff_left fun h => absurd hv0 h.ne'

/-- With a lower limit on `v`, for a fixed order of the rows. -/
theorem ruv_exact3_fixed {p : Prm3} (hp : RuvParams p) (hP : Ptolemaic P) (hb : p.b = 0) (hbu : p.bu = 0)
    {M : Metric3 P} (hM : M.Of) :
    Exact3 (binRUV p M) M p.minsep (ValidCell 0) (fun O t => NoTie p M.ccw O t ∧ (0 < p.minv → O = .fixed))
      (inRuv p M.ccw) Weightless (Call3 triU (triVs M.ccw)) :=
  (ruv_exact3_gen hp (Or.inr hP) hb hbu hM).congrG fun O t => by simp [hP]

end

/-- Ptolemy's inequality holds in the plane and in space. -/
theorem euclid_ptolemaic (n : ℕ) : Ptolemaic (EuclideanSpace ℝ (Fin n)) :=
  fun a b c d => EuclideanGeometry.mul_dist_le_mul_dist_add_mul_dist a b c d

end TreeCorr
