import Verif.Proofs.AtMost3
import Verif.Proofs.SasExact

/-! How far the sides of a counted triangle are from those of the centres of the cells, at any slop. -/

namespace TreeCorr
open Classical
noncomputable section
variable {P : Type}

/-! ### LogRUV -/

/-- What `singleBin` guarantees about the sizes when it returns true. -/
theorem ruvSplit_none_sizes {p : Prm3} (hb : 0 ≤ p.b) (hbu : 0 ≤ p.bu) (hbv : 0 ≤ p.bv) {d1sq d2sq d3sq s1 s2 s3 : ℝ}
    (g3 : 0 ≤ d3sq) (hd2 : 0 < Real.sqrt d2sq)
    (h1 : 0 ≤ s1) (h2 : 0 ≤ s2) (h3 : 0 ≤ s3) (hv : 0 ≤ (Real.sqrt d1sq - Real.sqrt d2sq) / Real.sqrt d3sq)
    (hu1 : Real.sqrt d3sq / Real.sqrt d2sq ≤ 1)
    (h : ruvSplit p d1sq d2sq d3sq s1 s2 s3 = none) :
    s1 + s3 ≤ p.b * Real.sqrt d2sq ∧
    s1 + s2 + Real.sqrt d3sq / Real.sqrt d2sq * s3 + (if s3 = 0 then 0 else Real.sqrt d3sq / Real.sqrt d2sq * s1) ≤
      p.bu * Real.sqrt d2sq ∧
    (s1 + s2) * (1 + (Real.sqrt d1sq - Real.sqrt d2sq) / Real.sqrt d3sq) ≤ p.bv * Real.sqrt d3sq ∧
    s3 ≤ p.bv * Real.sqrt d2sq := by
  have e2 : d2sq = Real.sqrt d2sq ^ 2 := (Real.sq_sqrt (Real.sqrt_pos.1 hd2).le).symm
  have e3 : d3sq = Real.sqrt d3sq ^ 2 := (Real.sq_sqrt g3).symm
  have hd3 := Real.sqrt_nonneg d3sq
  unfold ruvSplit at h
  simp only at h
  split at h
  · exact absurd h (by simp)
  rename_i hn3
  have hn3' := hn3
  unfold ruvSplit3 at hn3
  simp only at hn3
  generalize hD1 : Real.sqrt d1sq = D1 at *
  generalize hD2 : Real.sqrt d2sq = D2 at *
  generalize hD3 : Real.sqrt d3sq = D3 at *
  have key3 : 0 < s3 → s3 ≤ D2 * p.b ∧ (s1 ≤ s3 → s1 + s3 ≤ D2 * p.b) ∧ (p.bu < p.b → s3 ^ 2 * d3sq ≤ (p.bu * d2sq) ^ 2) ∧
      (p.bv < p.b → s3 ≤ D2 * p.bv) := by
    intro hs3
    refine ⟨?_, fun ha => ?_, fun ha => ?_, fun ha => ?_⟩ <;> by_contra hc <;> rw [not_le] at hc <;> refine hn3 ⟨hs3, ?_⟩
    · exact Or.inl hc
    · exact Or.inr (Or.inl ⟨by linarith, hc, ha⟩)
    · exact Or.inr (Or.inr (Or.inl ⟨ha, hc⟩))
    · exact Or.inr (Or.inr (Or.inr (Or.inr ⟨ha, hc⟩)))
  have hs3v : s3 ≤ p.bv * D2 := by
    rcases h3.eq_or_lt with e | e
    · rw [← e]; positivity
    · obtain ⟨k1, -, -, k4⟩ := key3 e
      by_cases hh : p.bv < p.b
      · have := k4 hh; linarith
      · nlinarith
  have hs3u : D3 / D2 * s3 ≤ p.bu * D2 := by
    rcases h3.eq_or_lt with e | e
    · rw [← e, mul_zero]; positivity
    · obtain ⟨k1, -, k3, -⟩ := key3 e
      by_cases hh : p.bu < p.b
      · have := k3 hh
        rw [e2, e3] at this
        have : s3 * D3 ≤ p.bu * D2 ^ 2 := by
          refine abs_le_of_sq_le_sq' ?_ (by positivity) |>.2
          nlinarith
        rw [div_mul_eq_mul_div, div_le_iff₀ hd2]
        nlinarith
      · push Not at hh
        calc D3 / D2 * s3 ≤ 1 * s3 := by gcongr
          _ ≤ p.b * D2 := by linarith
          _ ≤ p.bu * D2 := by gcongr
  split at h
  · rename_i hpos
    generalize hq : (if 0 < s3 then s1 + s3 else 0) = q at h
    split at h
    · exact absurd h (by simp)
    rename_i hns
    have hpu : s1 + s2 + q * (D3 / D2) ≤ p.bu * D2 := by
      by_contra hc
      rw [not_le] at hc
      refine hns (Or.inr (Or.inr (Or.inl ?_)))
      rw [e2]
      have h0 : 0 ≤ p.bu * D2 := by positivity
      have := pow_lt_pow_left₀ hc h0 (n := 2) (by norm_num)
      nlinarith
    have hpv : (s1 + s2) * (1 + (D1 - D2) / D3) ≤ p.bv * D3 := by
      by_contra hc
      rw [not_le] at hc
      refine hns (Or.inr (Or.inr (Or.inr ?_)))
      rw [e3]
      have h0 : 0 ≤ p.bv * D3 := by positivity
      have := pow_lt_pow_left₀ hc h0 (n := 2) (by norm_num)
      nlinarith
    refine ⟨?_, ?_, hpv, hs3v⟩
    · rcases h1.eq_or_lt with e | e
      · rcases h3.eq_or_lt with e' | e'
        · rw [← e, ← e']; simp; positivity
        · have := (key3 e').1
          linarith
      · by_contra hc
        rw [not_le] at hc
        refine hns (Or.inl ⟨e, ?_⟩)
        rcases h3.eq_or_lt with e' | e'
        · exact Or.inr (Or.inl (by linarith))
        · by_cases hle : s1 ≤ s3
          · have := (key3 e').2.1 hle
            linarith
          · exact Or.inl ⟨e', by linarith, by linarith⟩
    · rcases h3.eq_or_lt with e' | e'
      · rw [← e'] at hq ⊢
        simp only [lt_irrefl, if_false] at hq
        simp only [if_true]
        rw [← hq] at hpu
        linarith
      · rw [if_neg e'.ne']
        rw [if_pos e'] at hq
        rw [← hq] at hpu
        linarith
  · rename_i hpos
    push Not at hpos
    have z1 : s1 = 0 := le_antisymm hpos.1 h1
    have z2 : s2 = 0 := le_antisymm hpos.2 h2
    subst z1 z2
    refine ⟨?_, ?_, ?_, hs3v⟩
    · rcases h3.eq_or_lt with e' | e'
      · rw [← e']; simp; positivity
      · have := (key3 e').1
        linarith
    · simpa using hs3u
    · simp; positivity

/-! ### LogSAS -/

theorem sasStop_d2 (p : Prm3) (O : Ord3) (c : Prop) (d1sq d2sq d3sq s1 s2 s3 : ℝ) :
    (sasStop p O c d1sq d2sq d3sq s1 s2 s3).d2 = -1 ∨ (sasStop p O c d1sq d2sq d3sq s1 s2 s3).d2 = Real.sqrt d2sq := by
  unfold sasStop
  simp only
  split
  · exact Or.inl rfl
  split
  · exact Or.inl rfl
  split
  · exact Or.inr rfl
  split
  · exact Or.inr rfl
  split
  · exact Or.inr rfl
  · split <;> exact Or.inr rfl

theorem sasStop_d3 (p : Prm3) (O : Ord3) (c : Prop) (d1sq d2sq d3sq s1 s2 s3 : ℝ) :
    (sasStop p O c d1sq d2sq d3sq s1 s2 s3).d3 = -1 ∨ (sasStop p O c d1sq d2sq d3sq s1 s2 s3).d3 = Real.sqrt d3sq := by
  unfold sasStop
  simp only
  split
  · exact Or.inl rfl
  split
  · exact Or.inr rfl
  split
  · exact Or.inr rfl
  split
  · exact Or.inr rfl
  split
  · exact Or.inr rfl
  · split <;> exact Or.inr rfl

theorem sasSplit_none_sizes {p : Prm3} (hb : 0 ≤ p.b) {d1sq d2 d3 cosphi s1 s2 s3 : ℝ} (hd2 : 0 < d2) (hd3 : 0 < d3) (h1 : 0 ≤ s1)
    (h2 : 0 ≤ s2) (h3 : 0 ≤ s3) (h : sasSplit p d1sq d2 d3 cosphi s1 s2 s3 = none) : s1 + s3 ≤ p.b * d2 ∧ s1 + s2 ≤ p.b * d3 := by
  unfold sasSplit at h
  simp only at h
  split at h
  · exact absurd h (by simp)
  rename_i n1
  split at h
  · split at h
    · exact absurd h (by simp)
    rename_i hpos n23
    push Not at n23
    obtain ⟨n2, n3⟩ := n23
    rcases h1.eq_or_lt with e | e
    · constructor
      · by_contra hc
        rw [not_le, ← e] at hc
        have hs : 0 < s3 := by
          have : 0 ≤ p.b * d2 := by positivity
          linarith
        have := (n3 hs).2.1
        exact absurd (this e.symm) (not_le.2 (by linarith))
      · by_contra hc
        rw [not_le, ← e] at hc
        have hs : 0 < s2 := by
          have : 0 ≤ p.b * d3 := by positivity
          linarith
        have := (n2 hs).2.1
        exact absurd (this e.symm) (not_le.2 (by linarith))
    · constructor
      · by_contra hc
        rw [not_le] at hc
        by_cases hle : s3 ≤ s1
        · exact n1 ⟨e, Or.inr (Or.inr (Or.inr (Or.inl ⟨by linarith, hle⟩)))⟩
        · have := (n3 (by linarith)).1 e
          linarith
      · by_contra hc
        rw [not_le] at hc
        by_cases hle : s2 ≤ s1
        · exact n1 ⟨e, Or.inr (Or.inr (Or.inl ⟨by linarith, hle⟩))⟩
        · have := (n2 (by linarith)).1 e
          linarith
  · rename_i hpos
    push Not at hpos
    have z2 : s2 = 0 := le_antisymm hpos.1 h2
    have z3 : s3 = 0 := le_antisymm hpos.2 h3
    subst z2 z3
    rcases h1.eq_or_lt with e | e
    · rw [← e]
      simp only [add_zero]
      constructor <;> positivity
    · constructor
      · by_contra hc
        exact n1 ⟨e, Or.inl (by rw [not_le] at hc; linarith)⟩
      · by_contra hc
        exact n1 ⟨e, Or.inr (Or.inl (by rw [not_le] at hc; linarith))⟩

/-! ### Counted triangles -/

theorem ruvSplit_none_zero {p : Prm3} {d1sq d2sq s1 s2 s3 : ℝ} (h1 : 0 ≤ s1) (h2 : 0 ≤ s2)
    (h : ruvSplit p d1sq d2sq 0 s1 s2 s3 = none) : s1 = 0 ∧ s2 = 0 := by
  unfold ruvSplit at h
  simp only at h
  split at h
  · exact absurd h (by simp)
  split at h
  · generalize (if 0 < s3 then s1 + s3 else 0) = q at h
    split at h
    · exact absurd h (by simp)
    rename_i hns
    constructor
    · by_contra hne
      have hpos : 0 < s1 := lt_of_le_of_ne h1 (Ne.symm hne)
      refine hns (Or.inl ⟨hpos, Or.inr (Or.inr ?_)⟩)
      rw [mul_zero]
      positivity
    · by_contra hne
      have hpos : 0 < s2 := lt_of_le_of_ne h2 (Ne.symm hne)
      refine hns (Or.inr (Or.inl ⟨hpos, Or.inl ?_⟩))
      rw [mul_zero]
      positivity
  · rename_i hpos
    push Not at hpos
    exact ⟨le_antisymm hpos.1 h1, le_antisymm hpos.2 h2⟩

variable [PseudoMetricSpace P]

theorem side_near {δ : ℝ} (hδ : 0 ≤ δ) {c1 c2 : Cell P} (q1 : ValidCell δ c1) (q2 : ValidCell δ c2) {o1 o2 : Obj P}
    (h1 : o1 ∈ c1.objs) (h2 : o2 ∈ c2.objs) : |dist o1.pos o2.pos - dist c1.pos c2.pos| ≤ c1.size + c2.size + 2 * δ := by
  have a := q1.1.1.dist_le hδ h1
  have b := q2.1.1.dist_le hδ h2
  rw [abs_le]
  have t1 := dist_triangle4 o1.pos c1.pos c2.pos o2.pos
  have t2 := dist_triangle4 c1.pos o1.pos o2.pos c2.pos
  rw [dist_comm c2.pos o2.pos] at t1
  rw [dist_comm c1.pos o1.pos] at t2
  constructor <;> linarith

theorem ruv_safe3 {p : Prm3} (hp : RuvParams p) (hb : 0 ≤ p.b) (hbu : 0 ≤ p.bu) (hbv : 0 ≤ p.bv) {M : Metric3 P} (hM : M.Of)
    {δ : ℝ} (hδ : 0 ≤ δ) : Safe3 (binRUV p M) M (ValidCell δ)
      (fun e => ∀ o1 ∈ e.c1.objs, ∀ o2 ∈ e.c2.objs, ∀ o3 ∈ e.c3.objs, NearRuv p δ e.index (o1, o2, o3)) where
  leaf12 := by
    intro O c1 c2 q1 q2 hs
    refine lt_of_le_of_ne q2.1.1.size_nonneg fun h0 => hs ?_
    simp [skip12, binRUV, ← h0]
  split := by
    intro O c1 c2 c3 f1 f2 f3 q1 q2 q3 h
    obtain ⟨a, b, c, d⟩ := ruvSplit_some (by rw [hM.distSq]; positivity) q1.1.1.size_nonneg q2.1.1.size_nonneg (ruvAct_split h)
    exact splitCells_isSome a b c d
  direct := by
    intro O c1 c2 c3 e q1 q2 q3 _ h
    obtain ⟨hstop, hsp, i, v, hi, rfl⟩ := ruvAct_direct h
    refine ⟨⟨rfl, rfl, rfl⟩, ?_⟩
    intro o1 h1 o2 h2 o3 h3
    simp only at h1 h2 h3 ⊢
    have s1 := q1.1.1.size_nonneg
    have s2 := q2.1.1.size_nonneg
    have s3 := q3.1.1.size_nonneg
    have r1 := side_near hδ q2 q3 h2 h3
    have r2 := side_near hδ q1 q3 h1 h3
    have r3 := side_near hδ q1 q2 h1 h2
    have e1 : Real.sqrt (M.distSq c2.pos c3.pos) = dist c2.pos c3.pos := by rw [hM.distSq, Real.sqrt_sq dist_nonneg]
    have e2 : Real.sqrt (M.distSq c1.pos c3.pos) = dist c1.pos c3.pos := by rw [hM.distSq, Real.sqrt_sq dist_nonneg]
    have e3 : Real.sqrt (M.distSq c1.pos c2.pos) = dist c1.pos c2.pos := by rw [hM.distSq, Real.sqrt_sq dist_nonneg]
    obtain ⟨hO, kr, ku, kv, b1, b2, b3⟩ := ruvIndex_inv hp hi
    have hm := hp.minsep
    have hlog : p.minsep ≤ Real.sqrt (M.distSq c1.pos c3.pos) := by
      have := b1.2.2.1
      refine le_trans ?_ this
      have h0 : (0 : ℝ) ≤ kr * p.binsize := mul_nonneg (by exact_mod_cast b1.1) hp.binsize.le
      unfold logEdge
      nlinarith [Real.one_le_exp h0]
    have hd2 : 0 < Real.sqrt (M.distSq c1.pos c3.pos) := by linarith
    have hd3 : 0 < Real.sqrt (M.distSq c1.pos c2.pos) := by
      rw [Real.sqrt_pos]
      refine lt_of_le_of_ne (by rw [hM.distSq]; positivity) fun hz => hstop ?_
      have hsp' := hsp
      rw [← hz] at hsp'
      obtain ⟨z1, z2⟩ := ruvSplit_none_zero s1 s2 hsp'
      unfold ruvStop
      simp only
      right; right; right; right; right; right; right; right; right
      exact ⟨z1, z2, hz.symm⟩
    have hi' := ruvIndex_some hp (c := M.ccw c1.pos c2.pos c3.pos) hd3 hd2 hO b1 b2 b3
    rw [hi'] at hi
    simp only [Option.some.injEq, Prod.mk.injEq] at hi
    have hv0 := b3.ge hp.vbinsize
    have hv0' := hp.minv
    have hu0 := b2.lt hp.ubinsize hp.maxu
    have hu1 := hp.maxu_le
    obtain ⟨k1, k2, k3, k4⟩ := ruvSplit_none_sizes hb hbu hbv (by rw [hM.distSq]; positivity) hd2 s1 s2 s3 (by linarith)
      (by linarith) hsp
    rw [e1, e2, e3] at *
    generalize dist c2.pos c3.pos = D1 at *
    generalize dist c1.pos c3.pos = D2 at *
    generalize dist c1.pos c2.pos = D3 at *
    rw [abs_le] at r1 r2 r3
    have hU : 0 ≤ D3 / D2 := by positivity
    have hV : 0 ≤ (D1 - D2) / D3 := by linarith
    have eU : D3 / D2 * D2 = D3 := by field_simp
    have eV : (D1 - D2) / D3 * D3 = D1 - D2 := by field_simp
    generalize D3 / D2 = U at *
    generalize (D1 - D2) / D3 = V at *
    refine ⟨kr, ku, kv, _, D1, D2, D3, U, V, hi.1.symm, ⟨b1, b2, b3⟩, ⟨eU.symm, eV.symm⟩, ?_, ?_, ?_⟩
    · simp only [side2]
      rw [abs_le]
      constructor <;> linarith
    · simp only [side2, side3]
      have hs : c1.size + c2.size + U * (c1.size + c3.size) ≤ (1 + U) * (p.bu * D2) := by
        have hz : 0 ≤ U * (p.bu * D2) := by positivity
        have hz' : 0 ≤ U * c3.size := by positivity
        by_cases h0 : c3.size = 0
        · rw [if_pos h0] at k2
          rw [h0] at k2 ⊢
          nlinarith
        · rw [if_neg h0] at k2
          nlinarith
      rw [abs_le]
      constructor <;> nlinarith
    · simp only [side1, side2, side3]
      rw [abs_le]
      constructor <;> nlinarith

theorem sas_safe3 {p : Prm3} (hp : SasParams p) (hb : 0 ≤ p.b) {M : Metric3 P} (hM : M.Of)
    {δ : ℝ} (hδ : 0 ≤ δ) : Safe3 (binSAS p M) M (ValidCell δ)
      (fun e => ∀ o1 ∈ e.c1.objs, ∀ o2 ∈ e.c2.objs, ∀ o3 ∈ e.c3.objs, NearSas p δ e.index (o1, o2, o3)) where
  leaf12 := by
    intro O c1 c2 q1 q2 hs
    refine lt_of_le_of_ne q2.1.1.size_nonneg fun h0 => hs ?_
    simp [skip12, binSAS, ← h0]
  split := by
    intro O c1 c2 c3 f1 f2 f3 q1 q2 q3 h
    obtain ⟨a, b, c, d⟩ := sasSplit_some q2.1.1.size_nonneg q3.1.1.size_nonneg (sasAct_split h)
    exact splitCells_isSome a b c d
  direct := by
    intro O c1 c2 c3 e q1 q2 q3 _ h
    obtain ⟨-, hsp, i, hi, rfl⟩ := sasAct_direct h
    refine ⟨⟨rfl, rfl, rfl⟩, ?_⟩
    intro o1 h1 o2 h2 o3 h3
    simp only at h1 h2 h3 ⊢
    have s1 := q1.1.1.size_nonneg
    have s2 := q2.1.1.size_nonneg
    have s3 := q3.1.1.size_nonneg
    have r2 := side_near hδ q1 q3 h1 h3
    have r3 := side_near hδ q1 q2 h1 h2
    have e2 : Real.sqrt (M.distSq c1.pos c3.pos) = dist c1.pos c3.pos := by rw [hM.distSq, Real.sqrt_sq dist_nonneg]
    have e3 : Real.sqrt (M.distSq c1.pos c2.pos) = dist c1.pos c2.pos := by rw [hM.distSq, Real.sqrt_sq dist_nonneg]
    have f2 := sasStop_d2 p O (M.ccw c1.pos c3.pos c2.pos) (M.distSq c2.pos c3.pos) (M.distSq c1.pos c3.pos)
      (M.distSq c1.pos c2.pos) c1.size c2.size c3.size
    have f3 := sasStop_d3 p O (M.ccw c1.pos c3.pos c2.pos) (M.distSq c2.pos c3.pos) (M.distSq c1.pos c3.pos)
      (M.distSq c1.pos c2.pos) c1.size c2.size c3.size
    change (sasOut p M O c1 c2 c3).d2 = -1 ∨ _ at f2
    change (sasOut p M O c1 c2 c3).d3 = -1 ∨ _ at f3
    change _ ∨ (sasOut p M O c1 c2 c3).d2 = _ at f2
    change _ ∨ (sasOut p M O c1 c2 c3).d3 = _ at f3
    obtain ⟨hO, k2, k3, kphi, b1, b2, b3⟩ := sasIndex_inv hp hi
    have hm := hp.minsep
    have pos : ∀ {k : ℤ} {d : ℝ}, InLogBin p.minsep p.binsize p.nbins k d → 0 < d := by
      intro k d hb
      refine lt_of_lt_of_le ?_ hb.2.2.1
      unfold logEdge
      positivity
    have hd2 := pos b1
    have hd3 := pos b2
    have hi' := sasIndex_some hp (c := M.ccw c1.pos c3.pos c2.pos) hd3 hd2 hO b1 b2 b3
    rw [hi'] at hi
    simp only [Option.some.injEq] at hi
    obtain ⟨k1, k2'⟩ := sasSplit_none_sizes hb hd2 hd3 s1 s2 s3 hsp
    have g2 : (sasOut p M O c1 c2 c3).d2 = dist c1.pos c3.pos := by
      rcases f2 with f | f
      · rw [f] at hd2; linarith
      · rw [f, e2]
    have g3 : (sasOut p M O c1 c2 c3).d3 = dist c1.pos c2.pos := by
      rcases f3 with f | f
      · rw [f] at hd3; linarith
      · rw [f, e3]
    rw [g2] at k1 b1
    rw [g3] at k2' b2
    refine ⟨k2, k3, kphi, _, _, _, hi.symm, ⟨b1, b2, b3⟩, ?_, ?_⟩
    · simp only [side2]
      linarith
    · simp only [side3]
      linarith

end
end TreeCorr
