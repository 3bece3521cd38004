import Verif.Model.Binning3
import Verif.Props.Binning
import Verif.Spec.Triangles
import Verif.Props.Corr3

/-!
C63: the tables of nominal values (`logr`, `u`, `v`; `logd2`, `logd3`, `phi`) describe the triangles that are counted at the same place of
the arrays.
-/

namespace TreeCorr
open Classical
noncomputable section

variable {P : Type} [PseudoMetricSpace P]

/-- The limits handed to the C++ layer are those of the attributes, with separations in units of `q`. -/
structure SameBins (q : ℝ) (B : Bins) (U : LinBins) (p : Prm3) : Prop where
  minsep : p.minsep = B.minsep * q
  binsize : p.binsize = B.binsize
  nbins : p.nbins = B.nbins
  lo : p.minu = U.lo
  n : p.nubins = U.n
  size : p.ubinsize = U.size

theorem lin1d_centre {L : LinBins} {k : ℕ} (hn : 0 < L.n) : lin1d L k = L.lo + (k + 0.5) * L.size := by
  have : (L.n : ℝ) ≠ 0 := by exact_mod_cast hn.ne'
  unfold lin1d linspace
  field_simp
  ring

theorem logr1d_centre {B : Bins} {k : ℕ} (hn : 0 < B.nbins) : logr1d B k = Real.log B.minsep + (k + 0.5) * B.binsize := by
  have : (B.nbins : ℝ) ≠ 0 := by exact_mod_cast hn.ne'
  unfold logr1d linspace
  field_simp
  ring

/-- A value in a linear bin differs from the centre by at most half the size. -/
theorem near_centre {L : LinBins} {k : ℤ} {x : ℝ} (h : InLinBin L.lo L.size L.n k x) : |x - lin1d L k.toNat| ≤ L.size / 2 := by
  obtain ⟨h0, h1, h2, h3⟩ := h
  rw [lin1d_centre (by omega)]
  have e : ((k.toNat : ℕ) : ℝ) = k := by exact_mod_cast Int.toNat_of_nonneg h0
  rw [e]
  unfold linEdge at h2 h3
  push_cast at h3
  rw [abs_le]
  constructor <;> nlinarith

theorem near_log_centre {B : Bins} {q : ℝ} {k : ℤ} {d : ℝ} (hm : 0 < B.minsep) (hq : 0 < q)
    (h : InLogBin (B.minsep * q) B.binsize B.nbins k d) : |Real.log (d / q) - logr1d B k.toNat| ≤ B.binsize / 2 := by
  obtain ⟨h0, h1, h2, h3⟩ := h
  rw [logr1d_centre (by omega)]
  have e : ((k.toNat : ℕ) : ℝ) = k := by exact_mod_cast Int.toNat_of_nonneg h0
  rw [e]
  unfold logEdge at h2 h3
  have hd : 0 < d := lt_of_lt_of_le (by positivity) h2
  have a1 : Real.log B.minsep + k * B.binsize ≤ Real.log (d / q) := by
    rw [← Real.log_exp (k * B.binsize), ← Real.log_mul hm.ne' (Real.exp_pos _).ne']
    apply Real.log_le_log (by positivity)
    rw [le_div_iff₀ hq]; linarith
  have a2 : Real.log (d / q) ≤ Real.log B.minsep + (k + 1) * B.binsize := by
    rw [← Real.log_exp ((k + 1) * B.binsize), ← Real.log_mul hm.ne' (Real.exp_pos _).ne']
    apply Real.log_le_log (by positivity)
    rw [div_le_iff₀ hq]; push_cast at h3; linarith
  rw [abs_le]
  constructor <;> linarith

/-- The three indices of a place in an array with `a` and `b` entries on the last two axes. -/
theorem place_div {a b i j l : ℕ} (hj : j < a) (hl : l < b) :
    ((i * a + j) * b + l) / b / a = i ∧ ((i * a + j) * b + l) / b % a = j ∧ ((i * a + j) * b + l) % b = l := by
  have hb : 0 < b := by omega
  have ha : 0 < a := by omega
  have e : ((i * a + j) * b + l) / b = i * a + j := by
    rw [add_comm, Nat.add_mul_div_right _ _ hb, Nat.div_eq_of_lt hl, zero_add]
  rw [e]
  refine ⟨?_, ?_, ?_⟩
  · rw [add_comm, Nat.add_mul_div_right _ _ ha, Nat.div_eq_of_lt hj, zero_add]
  · rw [add_comm, Nat.add_mul_mod_self_right, Nat.mod_eq_of_lt hj]
  · rw [add_comm, Nat.add_mul_mod_self_right, Nat.mod_eq_of_lt hl]

/-- **C63, LogRUV.** If a triangle belongs to place `k` of the arrays, then its `log d2` (in the user's units), `u` and `v` (with sign) differ
from the entries `k` of `logr`, `u` and `v` by at most half a bin. -/
theorem ruv_tables (q : ℝ) (hq : 0 < q) (B : Bins) (hm : 0 < B.minsep) (U V : LinBins) (p : Prm3) (hU : SameBins q B U p)
    (hV : p.minv = V.lo ∧ p.nvbins = V.n ∧ p.vbinsize = V.size) (ccw : P → P → P → Prop) (k : ℕ) (t : Obj P × Obj P × Obj P)
    (h : inRuv p ccw k t) :
    |Real.log (side2 t / q) - logrTable B U V k| ≤ B.binsize / 2 ∧ |triU t - uTable U V k| ≤ U.size / 2 ∧
    |triVs ccw t - vTable V k| ≤ V.size / 2 := by
  obtain ⟨kr, ku, kv, ⟨_, _, _, hr, hu, hv⟩, hk⟩ := h
  obtain ⟨v1, v2, v3⟩ := hV
  rw [hU.minsep, hU.binsize, hU.nbins] at hr
  rw [hU.lo, hU.size, hU.n] at hu
  rw [v1, v2, v3] at hv
  have cr := near_log_centre hm hq hr
  have cu := near_centre hu
  have cv := near_centre hv
  obtain ⟨r0, r1, _⟩ := hr
  obtain ⟨u0, u1, _⟩ := hu
  obtain ⟨w0, w1, _⟩ := hv
  rw [ruvPlace, hU.n, v2] at hk
  lift kr to ℕ using r0
  lift ku to ℕ using u0
  lift kv to ℕ using w0
  obtain ⟨nu, hnu⟩ : ∃ nu : ℕ, U.n = nu := ⟨U.n.toNat, by omega⟩
  obtain ⟨nv, hnv⟩ : ∃ nv : ℕ, V.n = nv := ⟨V.n.toNat, by omega⟩
  simp only [Int.toNat_natCast] at cr cu cv
  rw [hnu] at u1
  rw [hnv] at w1
  by_cases hc : ccw t.1.pos t.2.1.pos t.2.2.pos
  · have hk' : k = (kr * nu + ku) * (2 * nv) + (nv + kv) := by
      rw [if_pos hc, hnu, hnv] at hk; exact_mod_cast hk
    obtain ⟨e1, e2, e3⟩ := place_div (i := kr) (j := ku) (a := nu) (b := 2 * nv) (l := nv + kv) (by omega) (by omega)
    unfold logrTable uTable vTable
    simp only [hnu, hnv, Int.toNat_natCast]
    rw [hk', e1, e2, e3]
    refine ⟨cr, cu, ?_⟩
    unfold triVs v1d
    rw [if_pos hc, hnv, if_neg (by push_cast; omega), Int.toNat_natCast, Nat.add_sub_cancel_left]
    exact cv
  · have hk' : k = (kr * nu + ku) * (2 * nv) + (nv - 1 - kv) := by
      rw [if_neg hc, hnu, hnv] at hk
      have : ((nv - 1 - kv : ℕ) : ℤ) = (nv : ℤ) - 1 - kv := by omega
      zify
      rw [hk, this]
      
    obtain ⟨e1, e2, e3⟩ := place_div (i := kr) (j := ku) (a := nu) (b := 2 * nv) (l := nv - 1 - kv) (by omega) (by omega)
    unfold logrTable uTable vTable
    simp only [hnu, hnv, Int.toNat_natCast]
    rw [hk', e1, e2, e3]
    refine ⟨cr, cu, ?_⟩
    unfold triVs v1d
    rw [if_neg hc, hnv, if_pos (by omega), Int.toNat_natCast, show nv - 1 - (nv - 1 - kv) = kv by omega]
    rw [← abs_neg, show -(-triV t - -lin1d V kv) = triV t - lin1d V kv by ring]
    exact cv

/-- **C63, LogSAS.** The same for `logd2`, `logd3` and `phi` (in radians). -/
theorem sas_tables (q : ℝ) (hq : 0 < q) (B : Bins) (hm : 0 < B.minsep) (L : LinBins) (p : Prm3) (hL : SameBins q B L p)
    (ccw : P → P → P → Prop) (k : ℕ) (t : Obj P × Obj P × Obj P) (h : inSas p ccw k t) :
    |Real.log (side2 t / q) - logd2Table B L k| ≤ B.binsize / 2 ∧ |Real.log (side3 t / q) - logd3Table B L k| ≤ B.binsize / 2 ∧
    |triPhi t - phiTable L k| ≤ L.size / 2 := by
  obtain ⟨k2, k3, kp, ⟨h2, h3, hp⟩, _, hk⟩ := h
  rw [hL.minsep, hL.binsize, hL.nbins] at h2 h3
  rw [hL.lo, hL.size, hL.n] at hp
  have c2 := near_log_centre hm hq h2
  have c3 := near_log_centre hm hq h3
  have cp := near_centre hp
  obtain ⟨r0, r1, _⟩ := h2
  obtain ⟨u0, u1, _⟩ := h3
  obtain ⟨w0, w1, _⟩ := hp
  rw [sasPlace, hL.n, hL.nbins] at hk
  lift k2 to ℕ using r0
  lift k3 to ℕ using u0
  lift kp to ℕ using w0
  obtain ⟨nb, hnb⟩ : ∃ nb : ℕ, B.nbins = nb := ⟨B.nbins.toNat, by omega⟩
  obtain ⟨np, hnp⟩ : ∃ np : ℕ, L.n = np := ⟨L.n.toNat, by omega⟩
  simp only [Int.toNat_natCast] at c2 c3 cp
  rw [hnb] at u1
  rw [hnp] at w1
  have hk' : k = (k2 * nb + k3) * np + kp := by
    rw [hnb, hnp] at hk; exact_mod_cast hk
  obtain ⟨e1, e2, e3⟩ := place_div (i := k2) (j := k3) (a := nb) (b := np) (l := kp) (by omega) (by omega)
  unfold logd2Table logd3Table phiTable
  simp only [hnb, hnp, Int.toNat_natCast]
  rw [hk', e1, e2, e3]
  exact ⟨c2, c3, cp⟩

/-- **C63.** The attributes that the tables are made of, and the limits handed to the C++ layer, of an accepted configuration are related
as the theorems above ask. -/
theorem tables_of_config (c : BinConfig3) (dflt : ℝ) (p : Prm3) :
    (makeRuv c dflt = .ok p → ∃ B bs U V, sepBins c.sep = .ok (B, bs) ∧ uBins c.u bs = .ok U ∧ vBins c.v bs = .ok V ∧
      0 < B.minsep ∧ SameBins c.sep.sepUnits B U p ∧ p.minv = V.lo ∧ p.nvbins = V.n ∧ p.vbinsize = V.size) ∧
    (makeSas c dflt = .ok p → ∃ B bs L, sepBins c.sep = .ok (B, bs) ∧ phiBins c.phi c.phiUnits bs = .ok L ∧
      0 < B.minsep ∧ SameBins c.sep.sepUnits B L p) := by
  have hpos : ∀ {B bs}, sepBins c.sep = .ok (B, bs) → 0 < B.minsep := by
    intro B bs h
    unfold sepBins at h
    obtain ⟨r, hr, h⟩ := except_bind_ok.1 h
    obtain ⟨B', hB, h⟩ := except_bind_ok.1 h
    split at h
    · cases h
    obtain ⟨l, hl, h⟩ := except_bind_ok.1 h
    have : B' = B := by cases r <;> simp_all
    exact this ▸ (pyLog_ok.1 hl).1
  constructor
  · intro h
    unfold makeRuv at h
    obtain ⟨⟨B, bs⟩, hB, h⟩ := except_bind_ok.1 h
    simp only at h
    split at h
    · cases h
    obtain ⟨U, hU, h⟩ := except_bind_ok.1 h
    obtain ⟨V, hV, h⟩ := except_bind_ok.1 h
    simp only [Except.ok.injEq] at h
    subst h
    exact ⟨B, bs, U, V, hB, hU, hV, hpos hB, ⟨rfl, rfl, rfl, rfl, rfl, rfl⟩, rfl, rfl, rfl⟩
  · intro h
    unfold makeSas at h
    obtain ⟨⟨B, bs⟩, hB, h⟩ := except_bind_ok.1 h
    simp only at h
    split at h
    · cases h
    obtain ⟨U, hU, h⟩ := except_bind_ok.1 h
    simp only [Except.ok.injEq] at h
    subst h
    exact ⟨B, bs, U, hB, hU, hpos hB, ⟨rfl, rfl, rfl, rfl, rfl, rfl⟩⟩

/-- The triangle with sides 5, 4, 3 is at place 29 of the arrays of `exRuv`. -/
example : |Real.log (side2 (ob 0 0 0, ob 0 3 1, ob 4 0 2) / 1) -
      logrTable ⟨exRuv.minsep, exRuv.maxsep, exRuv.nbins, exRuv.binsize⟩ ⟨exRuv.minu, exRuv.maxu, exRuv.nubins, exRuv.ubinsize⟩
        ⟨exRuv.minv, exRuv.maxv, exRuv.nvbins, exRuv.vbinsize⟩ 29| ≤ exRuv.binsize / 2 :=
  (ruv_tables 1 one_pos _ exRuv_ok.minsep _ _ exRuv ⟨(mul_one _).symm, rfl, rfl, rfl, rfl, rfl⟩ ⟨rfl, rfl, rfl⟩ flatMetric3.ccw 29 _ ex345_in).1

end
end TreeCorr
