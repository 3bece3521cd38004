import Verif.Proofs.MpFields

/-! Multipole runs over single leaves. -/

namespace TreeCorr
open Classical
variable {P : Type} [PseudoMetricSpace P] {p : Params}

theorem leaf_use (hp : LogParams p) (hs : Sharp p) {d1 d2 : CellData P} {os1 os2 : List (Obj P)} {o1 o2 : Obj P}
    (b1 : (Cell.leaf d1 os1).Bounded 0) (b2 : (Cell.leaf d2 os2).Bounded 0) (m1 : o1 ∈ os1) (m2 : o2 ∈ os2) {k : ℤ}
    (hk : InLogBin p.minsep p.binsize p.nbins k (dist o1.pos o2.pos)) :
    mpPair p (.leaf d1 os1) (.leaf d2 os2) = .use k (dist d1.pos d2.pos) (Real.log (dist d1.pos d2.pos)) := by
  cases hm : mpPair p (.leaf d1 os1) (.leaf d2 os2) with
  | skip => exact absurd hk (sharp_skip hp hs b1 b2 hm m1 m2 k)
  | keep r f1 f2 =>
    have := (mpPair_keep (p := p) (c1 := .leaf d1 os1) (c2 := .leaf d2 os2) le_rfl le_rfl hm).2.1
    simp [Cell.size] at this
  | use k' r logr =>
    have e := (sharp_use hp hs b1 b2 hm m1 m2 k).1 hk
    obtain ⟨e1, e2, -⟩ := mpPair_use hp hm
    subst e
    rw [e2, e1]
    rfl

theorem leaf_splitC2 (hp : LogParams p) {d1 d2 : CellData P} {os1 os2 : List (Obj P)} {o1 o2 : Obj P}
    (b1 : (Cell.leaf d1 os1).Bounded 0) (b2 : (Cell.leaf d2 os2).Bounded 0) (m1 : o1 ∈ os1) (m2 : o2 ∈ os2) {k : ℤ}
    (hk : InLogBin p.minsep p.binsize p.nbins k (dist o1.pos o2.pos)) :
    splitC2Cells p (.leaf d1 os1) [.leaf d2 os2] = some [.leaf d2 os2] := by
  have h1 : splitC2One p (.leaf d1 os1) (.leaf d2 os2) = some [.leaf d2 os2] := by
    unfold splitC2One
    rw [if_neg fun h => mpOut_not hp b1 b2 h m1 m2 k hk, if_neg (by simp [Cell.size])]
  simp [splitC2Cells, concatM, h1]

/-- One leaf in each of two fields. -/
theorem leaf_run (hp : LogParams p) (hs : Sharp p) {S A : Type} (gn : Cell P → Cell P → ℝ → ℝ → ℤ → S → S)
    (zeta : Cell P → S → ℤ → ℤ → List A) (clear : S) {d1 d2 : CellData P} {os1 os2 : List (Obj P)} {o1 o2 : Obj P}
    (b1 : (Cell.leaf d1 os1).Bounded 0) (b2 : (Cell.leaf d2 os2).Bounded 0) (m1 : o1 ∈ os1) (m2 : o2 ∈ os2) {k : ℤ}
    (hk : InLogBin p.minsep p.binsize p.nbins k (dist o1.pos o2.pos)) :
    multipoleRun p gn zeta clear [.leaf d1 os1] [.leaf d2 os2] = some (zeta (.leaf d1 os1)
      (gn (.leaf d1 os1) (.leaf d2 os2) (dist d1.pos d2.pos) (Real.log (dist d1.pos d2.pos)) k clear) 0 p.nbins) := by
  have e : multipoleSplit1 p gn zeta clear (.leaf d1 os1) [.leaf d2 os2] = some (zeta (.leaf d1 os1)
      (gn (.leaf d1 os1) (.leaf d2 os2) (dist d1.pos d2.pos) (Real.log (dist d1.pos d2.pos)) k clear) 0 p.nbins) := by
    rw [multipoleSplit1, leaf_splitC2 hp b1 b2 m1 m2 hk]
    simp only
    rw [sharp_eff hs, if_neg (by norm_num)]
    unfold multipoleFinish
    rw [show ∀ n : ℕ, 2 * n + 2 = (2 * n + 1) + 1 from fun _ => rfl, multipoleFinishN]
    simp only [splitOrGn, List.foldlM_cons, List.foldlM_nil, gnOne, leaf_use hp hs b1 b2 m1 m2 hk]
    simp
  simp [multipoleRun, concatM, e]

/-- One leaf in each of three fields. -/
theorem leaf_run2 (hp : LogParams p) (hs : Sharp p) {S A : Type} (gn : Cell P → Cell P → ℝ → ℝ → ℤ → S → S)
    (zeta : Cell P → S → S → ℤ → ℤ → List A) (clear : S) {d1 d2 d3 : CellData P} {os1 os2 os3 : List (Obj P)} {o1 o2 o3 : Obj P}
    (b1 : (Cell.leaf d1 os1).Bounded 0) (b2 : (Cell.leaf d2 os2).Bounded 0) (b3 : (Cell.leaf d3 os3).Bounded 0)
    (m1 : o1 ∈ os1) (m2 : o2 ∈ os2) (m3 : o3 ∈ os3) {k l : ℤ}
    (hk : InLogBin p.minsep p.binsize p.nbins k (dist o1.pos o2.pos)) (hl : InLogBin p.minsep p.binsize p.nbins l (dist o1.pos o3.pos)) :
    multipoleRun2 p gn zeta clear [.leaf d1 os1] [.leaf d2 os2] [.leaf d3 os3] = some (zeta (.leaf d1 os1)
      (gn (.leaf d1 os1) (.leaf d2 os2) (dist d1.pos d2.pos) (Real.log (dist d1.pos d2.pos)) k clear)
      (gn (.leaf d1 os1) (.leaf d3 os3) (dist d1.pos d3.pos) (Real.log (dist d1.pos d3.pos)) l clear) 0 p.nbins) := by
  have e : multipoleSplit12 p gn zeta clear (.leaf d1 os1) [.leaf d2 os2] [.leaf d3 os3] = some (zeta (.leaf d1 os1)
      (gn (.leaf d1 os1) (.leaf d2 os2) (dist d1.pos d2.pos) (Real.log (dist d1.pos d2.pos)) k clear)
      (gn (.leaf d1 os1) (.leaf d3 os3) (dist d1.pos d3.pos) (Real.log (dist d1.pos d3.pos)) l clear) 0 p.nbins) := by
    rw [multipoleSplit12, leaf_splitC2 hp b1 b2 m1 m2 hk, leaf_splitC2 hp b1 b3 m1 m3 hl]
    simp only
    rw [sharp_eff hs, if_neg (by norm_num)]
    unfold multipoleFinish2
    rw [show ∀ n : ℕ, 2 * n + 2 = (2 * n + 1) + 1 from fun _ => rfl, multipoleFinish2N]
    simp only [splitOrGn, List.foldlM_cons, List.foldlM_nil, gnOne, leaf_use hp hs b1 b2 m1 m2 hk, leaf_use hp hs b1 b3 m1 m3 hl]
    simp
  simp [multipoleRun2, concatM, e]

theorem one_bounded (o : Obj P) (n : ℕ) (w wk : ℝ) : (Cell.leaf ⟨o.pos, n, w, wk⟩ [o]).Bounded 0 := by
  intro o' h
  rw [List.mem_singleton.1 h]
  simp

end TreeCorr
