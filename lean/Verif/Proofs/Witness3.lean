import Verif.Proofs.Witness
import Verif.Proofs.SasExact
import Mathlib.Analysis.SpecialFunctions.Trigonometric.Inverse

/-! Fields of one and two rows in any geometry, and steps of the three-point traversal used in the counterexamples. -/

namespace TreeCorr
open Classical
noncomputable section
variable {P : Type}

theorem cells_one (A : StdAlg P) (g : Geom P) (fp : FieldParams) (o : Obj P) :
    (buildField A g fp [o]).cells = [.leaf ⟨o.pos, 1, o.w, o.wk⟩ [o]] := by
  simp [buildField, topCells, buildCell]

theorem cells_two (A : StdAlg P) (g : Geom P) (fp : FieldParams) (o1 o2 : Obj P) (q : ℝ)
    (hq : calcSizeSq g (g.mean [o1, o2]) [o1, o2] = q) (hmax : q ≤ fp.maxsize * fp.maxsize) (hmt : fp.mintop ≤ 0)
    (hmin : fp.minsize * fp.minsize < q) :
    ∃ l r, (buildField A g fp [o1, o2]).cells = [.node (cellData g [o1, o2]) (Real.sqrt q) l r] := by
  have ht : topCells A g fp.sm (fp.maxsize * fp.maxsize) fp.mintop fp.maxtop [o1, o2] = [[o1, o2]] := by
    rw [topCells, hq, if_pos (Or.inr ⟨hmax, hmt⟩)]
  simp only [buildField, ht, List.map_cons, List.map_nil]
  have hs : calcSizeSq g (cellData g [o1, o2]).pos [o1, o2] = q := hq
  rw [buildCell, if_pos (by rw [hs]; exact hmin), hs]
  exact ⟨_, _, rfl⟩

/-- Three cells whose triple is dropped at once. -/
theorem cross123_drop (B : Bin3 P) (M : Metric3 P) (c1 c2 c3 : Cell P) (h : B.act .fixed c1 c2 c3 = .drop) :
    processCross123 B M .fixed [c1] [c2] [c3] = some [] := by
  have hn : c1.nodes + c2.nodes + c3.nodes = (c1.nodes + c2.nodes + c3.nodes - 1) + 1 := by
    have := c1.nodes_pos
    omega
  have e : process111 B M .fixed c1 c2 c3 = some [] := by
    unfold process111
    rw [hn, process111N]
    split
    · rfl
    · simp [arrange, concatM, Perm3.apply, h]
  simp [processCross123, concatM, loop111, e]

/-- Three cells that are counted as they are. -/
theorem cross123_direct (B : Bin3 P) (M : Metric3 P) (c1 c2 c3 : Cell P) {e : Emit3 P} (h : B.act .fixed c1 c2 c3 = .direct e)
    (hw : ¬ (c1.w = 0 ∨ c2.w = 0 ∨ c3.w = 0)) : processCross123 B M .fixed [c1] [c2] [c3] = some [e] := by
  have hn : c1.nodes + c2.nodes + c3.nodes = (c1.nodes + c2.nodes + c3.nodes - 1) + 1 := by
    have := c1.nodes_pos
    omega
  have e : process111 B M .fixed c1 c2 c3 = some [e] := by
    unfold process111
    rw [hn, process111N, if_neg hw]
    simp [arrange, concatM, Perm3.apply, h]
  simp [processCross123, concatM, loop111, e]

/-- A cell with a whole second field that is skipped at once. -/
theorem cross12_skip (B : Bin3 P) (M : Metric3 P) (O : Ord3) (c1 c2 : Cell P) (h : skip12 B M O c1 c2) :
    processCross12 B M O [c1] [c2] = some [] := by
  have e : process12 B M O c1 c2 = some [] := by
    cases c2 with
    | leaf d os =>
      rw [process12.eq_def]
      simp only
      rw [if_pos h]
    | node d s l r =>
      rw [process12.eq_def]
      simp only
      rw [if_pos h]
  simp [processCross12, concatM, cross12Loop2, loop111, e]

theorem sasAct_stop {p : Prm3} {M : Metric3 P} {O : Ord3} {c1 c2 c3 : Cell P} (h : (sasOut p M O c1 c2 c3).stop = true) :
    sasAct p M O c1 c2 c3 = .drop := by
  unfold sasAct
  simp only
  change (if (sasOut p M O c1 c2 c3).stop = true then _ else _) = _
  rw [if_pos h]

theorem stop_wrongside {p : Prm3} {c : Prop} {d1sq d2sq d3sq s1 s2 s3 : ℝ} (hc : ¬ c)
    (h : s1 + s2 < Real.sqrt d3sq) (h' : s1 + s3 < Real.sqrt d2sq)
    (hw : sasWrongSide (cosPhi d1sq d2sq d3sq (Real.sqrt d2sq) (Real.sqrt d3sq)) (Real.sqrt d2sq) (Real.sqrt d3sq) s1 s2 s3) :
    (sasStop p .fixed c d1sq d2sq d3sq s1 s2 s3).stop = true := by
  unfold sasStop
  split
  · rfl
  · simp only
    rw [if_neg (not_le.2 h), if_neg (not_le.2 h'), if_pos ⟨trivial, hc⟩]
    exact decide_eq_true hw

theorem stop_minphi {p : Prm3} {O : Ord3} {c : Prop} {d1sq d2sq d3sq s1 s2 s3 : ℝ} (hc : c)
    (h : s1 + s2 < Real.sqrt d3sq) (h' : s1 + s3 < Real.sqrt d2sq)
    (hw : sasMinPhi p (cosPhi d1sq d2sq d3sq (Real.sqrt d2sq) (Real.sqrt d3sq)) d1sq d2sq d3sq (Real.sqrt d2sq) (Real.sqrt d3sq)
      s1 s2 s3 = some true) :
    (sasStop p O c d1sq d2sq d3sq s1 s2 s3).stop = true := by
  unfold sasStop
  split
  · rfl
  · simp only
    rw [if_neg (not_le.2 h), if_neg (not_le.2 h'), if_neg (fun g => g.2 hc), hw]

theorem stop_maxphi {p : Prm3} {O : Ord3} {c : Prop} {d1sq d2sq d3sq s1 s2 s3 : ℝ} (hc : c)
    (h : s1 + s2 < Real.sqrt d3sq) (h' : s1 + s3 < Real.sqrt d2sq) (h1 : (s2 + s3) ^ 2 < d1sq) (h0 : p.minu ≤ 0)
    (hw : sasMaxPhi p (cosPhi d1sq d2sq d3sq (Real.sqrt d2sq) (Real.sqrt d3sq)) (Real.sqrt d2sq) (Real.sqrt d3sq)
      s1 s2 s3 = true) :
    (sasStop p O c d1sq d2sq d3sq s1 s2 s3).stop = true := by
  have e : sasMinPhi p (cosPhi d1sq d2sq d3sq (Real.sqrt d2sq) (Real.sqrt d3sq)) d1sq d2sq d3sq (Real.sqrt d2sq) (Real.sqrt d3sq)
      s1 s2 s3 = none := by
    unfold sasMinPhi
    rw [if_neg (fun g => absurd g.1 (not_lt.2 h0))]
  unfold sasStop
  split
  · rfl
  · simp only
    rw [if_neg (not_le.2 h), if_neg (not_le.2 h'), if_neg (fun g => g.2 hc), e]
    simp only
    rw [if_neg (not_le.2 h1)]
    exact hw

theorem sasMaxPhi_true {p : Prm3} {cosphi d2 d3 s1 s2 s3 : ℝ} (h0 : p.maxu < Real.pi) (h1 : cosphi < p.minCos)
    (h2 : 0 < s1 + s2) (h3 : 0 < s1 + s3) (h4 : -signedSq p.minCos ≤ 1 - ((s1 + s2) / d3) ^ 2)
    (h5 : -signedSq p.minCos ≤ 1 - ((s1 + s3) / d2) ^ 2)
    (h6 : -p.minCos ≤ Real.sqrt (1 - ((s1 + s2) / d3) ^ 2) * Real.sqrt (1 - ((s1 + s3) / d2) ^ 2) - (s1 + s3) / d2 * ((s1 + s2) / d3))
    (h7 : cosphi * (Real.sqrt (1 - ((s1 + s2) / d3) ^ 2) * Real.sqrt (1 - ((s1 + s3) / d2) ^ 2) -
        (s1 + s3) / d2 * ((s1 + s2) / d3)) +
      Real.sqrt (1 - cosphi * cosphi) * ((s1 + s2) / d3 * Real.sqrt (1 - ((s1 + s3) / d2) ^ 2) +
        (s1 + s3) / d2 * Real.sqrt (1 - ((s1 + s2) / d3) ^ 2)) < p.minCos) :
    sasMaxPhi p cosphi d2 d3 s1 s2 s3 = true := by
  unfold sasMaxPhi
  simp only
  rw [if_pos ⟨h0, h1⟩, if_pos h2, if_neg (not_lt.2 h4), if_pos h3, if_neg (not_lt.2 h5), if_neg (not_lt.2 h6)]
  exact decide_eq_true h7

theorem sasMinPhi_true {p : Prm3} {cosphi d1sq d2sq d3sq d2 d3 s1 s2 s3 : ℝ} (h0 : 0 < p.minu) (h1 : p.maxCos < cosphi)
    (hd : (s2 + s3) ^ 2 < d1sq)
    (h2 : 0 < s1 + s2) (h3 : 0 < s1 + s3) (h4 : signedSq p.maxCos ≤ 1 - ((s1 + s2) / d3) ^ 2)
    (h5 : signedSq p.maxCos ≤ 1 - ((s1 + s3) / d2) ^ 2)
    (h6 : p.maxCos ≤ Real.sqrt (1 - ((s1 + s2) / d3) ^ 2) * Real.sqrt (1 - ((s1 + s3) / d2) ^ 2) - (s1 + s3) / d2 * ((s1 + s2) / d3))
    (h7 : p.maxCos < cosphi * (Real.sqrt (1 - ((s1 + s2) / d3) ^ 2) * Real.sqrt (1 - ((s1 + s3) / d2) ^ 2) -
        (s1 + s3) / d2 * ((s1 + s2) / d3)) -
      Real.sqrt (1 - cosphi * cosphi) * ((s1 + s2) / d3 * Real.sqrt (1 - ((s1 + s3) / d2) ^ 2) +
        (s1 + s3) / d2 * Real.sqrt (1 - ((s1 + s2) / d3) ^ 2))) :
    sasMinPhi p cosphi d1sq d2sq d3sq d2 d3 s1 s2 s3 = some true := by
  unfold sasMinPhi
  simp only
  rw [if_pos ⟨h0, h1⟩, if_neg (fun g => absurd g.1 (not_le.2 hd)), if_pos h2, if_neg (not_lt.2 h4), if_pos h3, if_neg (not_lt.2 h5),
    if_neg (not_lt.2 h6), if_pos h7]

theorem ntri_nil (k : ℤ) : (accumulate3 (P := P) Acc3.zero []).ntri k = 0 := rfl

/-- An angle smaller than `x`. -/
theorem arccos_lt_of {c x : ℝ} (h0 : 0 ≤ x) (hpi : x ≤ Real.pi) (h1 : c ≤ 1) (h : Real.cos x < c) : Real.arccos c < x := by
  have := Real.arccos_lt_arccos (Real.neg_one_le_cos x) h h1
  rwa [Real.arccos_cos h0 hpi] at this

/-- An angle at least `x`. -/
theorem le_arccos_of {c x : ℝ} (h0 : 0 ≤ x) (hpi : x ≤ Real.pi) (h : c ≤ Real.cos x) : x ≤ Real.arccos c := by
  have := Real.arccos_le_arccos h
  rwa [Real.arccos_cos h0 hpi] at this

/-- One bin for `d2` and `d3` from 1 to `e^4`, one for the angle from `x` to `y`, no slop. -/
def sasBin (x y : ℝ) : Prm3 :=
  { minsep := 1, maxsep := Real.exp 4, nbins := 1, binsize := 4, b := 0, a := 1 / 10, minu := x, maxu := y, nubins := 1,
    ubinsize := y - x, bu := 0, minv := -1, maxv := 1, nvbins := 0, vbinsize := 0, bv := 0 }

theorem sasBin_ok {x y : ℝ} (h0 : 0 ≤ x) (h : x < y) (hpi : y ≤ Real.pi) : SasParams (sasBin x y) := by
  constructor <;> norm_num [sasBin]
  · exact h0
  · linarith
  · exact hpi

theorem sasBin_minCos {x y : ℝ} (h : y ≤ Real.pi) : (sasBin x y).minCos = min (Real.cos x) (Real.cos y) := by
  unfold Prm3.minCos
  rw [if_neg (fun g => absurd g.2 (not_lt.2 h))]
  rfl

theorem sasBin_maxCos {x y : ℝ} (h : 0 ≤ x) : (sasBin x y).maxCos = max (Real.cos x) (Real.cos y) := by
  unfold Prm3.maxCos
  rw [if_neg (fun g => absurd g.1 (not_lt.2 h))]
  rfl

theorem exp4_gt : (49 : ℝ) < Real.exp 4 := by
  have h1 := Real.exp_one_gt_d9
  have e4 : Real.exp 4 = Real.exp 1 ^ 4 := by rw [← Real.exp_nat_mul]; norm_num
  rw [e4]
  have : (2.7 : ℝ) ^ 4 < Real.exp 1 ^ 4 := pow_lt_pow_left₀ (by linarith) (by norm_num) (by norm_num)
  norm_num at this ⊢
  linarith

variable [PseudoMetricSpace P]

theorem sasBin_in {x y : ℝ} {ccw : P → P → P → Prop} {t : Obj P × Obj P × Obj P}
    (h2 : 1 ≤ side2 t) (h2' : side2 t < 49) (h3 : 1 ≤ side3 t) (h3' : side3 t < 49) (hx : x ≤ triPhi t) (hy : triPhi t < y)
    (hc : ccw t.1.pos t.2.2.pos t.2.1.pos) : inSas (sasBin x y) ccw 0 t := by
  have := exp4_gt
  refine ⟨0, 0, 0, ⟨⟨le_rfl, by norm_num [sasBin], ?_, ?_⟩, ⟨le_rfl, by norm_num [sasBin], ?_, ?_⟩,
    ⟨le_rfl, by norm_num [sasBin], ?_, ?_⟩⟩, hc, by norm_num [sasPlace, sasBin]⟩
  · simpa [logEdge, sasBin] using h2
  · simp only [logEdge, sasBin]
    norm_num
    linarith
  · simpa [logEdge, sasBin] using h3
  · simp only [logEdge, sasBin]
    norm_num
    linarith
  · simpa [linEdge, sasBin] using hx
  · simpa [linEdge, sasBin] using hy

end
end TreeCorr
