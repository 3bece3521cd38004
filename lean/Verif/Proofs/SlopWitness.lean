import Verif.Proofs.Witness
import Verif.Proofs.AtMostOnce

/-! A pair of rows counted together as one cell. -/

namespace TreeCorr
open Classical
noncomputable section

/-- The row (0,0) against (r-s,0) and (r+s,0): if the tree keeps the two together and the cell is accepted into
bin `k`, then both pairs are counted in bin `k`. -/
theorem cross_two {B : BinHelper (EuclideanSpace ℝ (Fin 2))} {p : Params} (fp1 fp2 : FieldParams) {r s : ℝ} {k : ℤ}
    (hr : 0 < r) (hs : 0 < s) (hmax : s ≤ fp2.maxsize) (hmt : fp2.mintop ≤ 0)
    (hmin0 : 0 ≤ fp2.minsize) (hmin : fp2.minsize < s)
    (hfar : ¬ (B.tooSmall (r ^ 2) s p ∨ B.tooLarge (r ^ 2) s p))
    (o : BinOut) (hsb : B.singleBin (r ^ 2) s (pt 0 0) (pt r 0) p = some o)
    (hin : B.inRange (r ^ 2) (pt 0 0) (pt r 0) p)
    (hk : ∀ c1 c2 : Cell _, c1.pos = pt 0 0 → c2.pos = pt r 0 →
      (directProcess11 B p false c1 c2 (r ^ 2) o).k = k) :
    ∃ es, processCross B (plainMetric _) p
        (buildField (sortAlg _ 0) (euclidGeom 2) fp1 [ob 0 0 0])
        (buildField (sortAlg _ 0) (euclidGeom 2) fp2 [ob (r - s) 0 0, ob (r + s) 0 1]) = some es ∧
      pairsAt es k = crossPairs [ob 0 0 0] [ob (r - s) 0 0, ob (r + s) 0 1] := by
  have e1 : ((r + s - (r - s)) / 2) ^ 2 + ((0 - 0) / 2) ^ 2 = s ^ 2 := by ring
  obtain ⟨cl, cr, hpm, _, _, _, _, hf⟩ := field_two (sortAlg _ 0) fp2 (r - s) (r + s) 0 0 0 1
    (by rw [e1]; nlinarith) hmt (by rw [e1]; nlinarith)
  rw [e1, Real.sqrt_sq hs.le] at hf
  have hps : pt ((r - s + (r + s)) / 2) ((0 + 0) / 2) = pt r 0 := by
    congr 1 <;> ring
  rw [hps] at hf
  have dd : dist (pt 0 0) (pt r 0) = r := by rw [dist_pt_x, zero_sub, abs_neg, abs_of_pos hr]
  set c1 : Cell (EuclideanSpace ℝ (Fin 2)) := .leaf ⟨pt 0 0, 1, 1, 0⟩ [ob 0 0 0] with hc1
  set c2 : Cell (EuclideanSpace ℝ (Fin 2)) := .node ⟨pt r 0, 2, 2, 0⟩ s cl cr with hc2
  have hact : decide11 B (plainMetric _) p false c1 c2 = .direct (directProcess11 B p false c1 c2 (r ^ 2) o) := by
    rw [decide11_plain]
    have p1 : c1.pos = pt 0 0 := rfl
    have p2 : c2.pos = pt r 0 := rfl
    have w1 : c1.w = 1 := rfl
    have w2 : c2.w = 2 := rfl
    have s1 : c1.size + c2.size = s := by
      change (0 : ℝ) + s = s
      ring
    rw [p1, p2, dd, w1, w2, s1]
    rw [if_neg (by norm_num), if_neg (fun h => hfar (Or.inl h)), if_neg (fun h => hfar (Or.inr h)), hsb]
    simp only
    rw [if_pos hin]
  refine ⟨[directProcess11 B p false c1 c2 (r ^ 2) o], ?_, ?_⟩
  · rw [hf, field_one, processCross, if_neg]
    · have h11 := process11_direct hact
      simp [processCrossLoop, processCrossRow, ← hc1, h11]
    · simp only [fieldsTooFar, plainMetric, dd]
      simpa using hfar
  · have hk' := hk c1 c2 rfl rfl
    have h1 : (directProcess11 B p false c1 c2 (r ^ 2) o).c1 = c1 := rfl
    have h2 : (directProcess11 B p false c1 c2 (r ^ 2) o).c2 = c2 := rfl
    simp only [pairsAt, List.filter_cons, hk', decide_true, if_true, List.filter_nil, pairsOf, List.map_cons,
      List.map_nil, List.sum_cons, List.sum_nil, add_zero, Emit.pairs, h1, h2]
    exact crossPairs_perm (List.Perm.refl _) (by simpa [hc2, Cell.objs] using hpm)

end
end TreeCorr
