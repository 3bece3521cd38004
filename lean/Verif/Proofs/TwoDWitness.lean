import Verif.Proofs.TwoD
import Verif.Proofs.SlopWitness
import Verif.Props.Slop
import Mathlib.Data.Rat.Floor

/-! Three rows on a line, in a tree with two top-level cells, and what the TwoD auto-correlation does with them. -/

namespace TreeCorr
open Classical
noncomputable section

/-- Three by three pixels of width 4 over the square of half-width 6. -/
def exTwoD : Params := { minsep := 0, maxsep := 6, nbins := 9, binsize := 4, b := 0, a := 1 }

theorem exTwoD_ok : TwoDParams exTwoD 3 := by constructor <;> norm_num [exTwoD]

/-- Tree parameters: top-level cells have size at most 1. -/
def threeFp : FieldParams := { minsize := 0, maxsize := 1, sm := .mean, mintop := 0, maxtop := 10 }

theorem coord0_pt (x y : ℝ) : (euclidGeom 2).coord 0 (pt x y) = x := by simp [euclidGeom, pt]
theorem coord1_pt (x y : ℝ) : (euclidGeom 2).coord 1 (pt x y) = y := by simp [euclidGeom, pt]

theorem three_mean : (euclidGeom 2).mean [ob 0 0 0, ob 2 0 1, ob 4 0 2] = pt 2 0 := by
  ext k
  fin_cases k <;> norm_num [euclidGeom, wmean, ob, pt]

theorem three_size : calcSizeSq (euclidGeom 2) (pt 2 0) [ob 0 0 0, ob 2 0 1, ob 4 0 2] = 4 := by
  simp only [calcSizeSq, List.foldl, ob_pos, normSq_pt]
  norm_num

theorem three_split : splitData (sortAlg _ 0) (euclidGeom 2) .mean [ob 0 0 0, ob 2 0 1, ob 4 0 2] (pt 2 0)
    = ([ob 0 0 0], [ob 2 0 1, ob 4 0 2]) := by
  have hs : getSplit (euclidGeom 2) [ob 0 0 0, ob 2 0 1, ob 4 0 2] = 0 := by
    simp [getSplit, boundRange, boundHi, boundLo, euclidGeom, pt]
  simp only [splitData, hs]
  have h : ¬ (4 : ℝ) < 2 := by norm_num
  simp [splitCore, sortAlg, coord0_pt, List.filter, h]

theorem two_split : splitData (sortAlg _ 0) (euclidGeom 2) .mean [ob 2 0 1, ob 4 0 2] (pt 3 0)
    = ([ob 2 0 1], [ob 4 0 2]) := by
  have hs : getSplit (euclidGeom 2) [ob 2 0 1, ob 4 0 2] = 0 := by
    simp [getSplit, boundRange, boundHi, boundLo, euclidGeom, pt]
  simp only [splitData, hs]
  have h : (2 : ℝ) < 3 := by norm_num
  have h' : ¬ (4 : ℝ) < 3 := by norm_num
  simp [splitCore, sortAlg, coord0_pt, List.filter, h, h']

theorem two_mean : (euclidGeom 2).mean [ob 2 0 1, ob 4 0 2] = pt 3 0 := by
  rw [mean_two]; norm_num

theorem two_size : calcSizeSq (euclidGeom 2) (pt 3 0) [ob 2 0 1, ob 4 0 2] = 1 := by
  simp only [calcSizeSq, List.foldl, ob_pos, normSq_pt]
  norm_num

/-- The cell of the row at `(x,0)`. -/
def lf (x : ℝ) (i : ℕ) : Cell (EuclideanSpace ℝ (Fin 2)) := .leaf ⟨pt x 0, 1, 1, 0⟩ [ob x 0 i]

/-- The cell of the rows at 2 and 4. -/
def nd : Cell (EuclideanSpace ℝ (Fin 2)) := .node ⟨pt 3 0, 2, 2, 0⟩ 1 (lf 2 1) (lf 4 2)

theorem three_cells : (buildField (sortAlg _ 0) (euclidGeom 2) threeFp [ob 0 0 0, ob 2 0 1, ob 4 0 2]).cells
    = [lf 0 0, nd] := by
  have ht : topCells (sortAlg _ 0) (euclidGeom 2) threeFp.sm (threeFp.maxsize * threeFp.maxsize) threeFp.mintop
      threeFp.maxtop [ob 0 0 0, ob 2 0 1, ob 4 0 2] = [[ob 0 0 0], [ob 2 0 1, ob 4 0 2]] := by
    rw [topCells, three_mean, three_size, if_neg (by norm_num [threeFp]), if_neg (by norm_num [threeFp])]
    simp only [threeFp, three_split]
    rw [topCells, topCells, two_mean, two_size, if_pos (by norm_num)]
    rfl
  simp only [buildField, ht, List.map_cons, List.map_nil]
  have hb : buildCell (sortAlg _ 0) (euclidGeom 2) threeFp.sm (threeFp.minsize * threeFp.minsize)
      [ob 2 0 1, ob 4 0 2] = nd := by
    have hc : cellData (euclidGeom 2) [ob 2 0 1, ob 4 0 2] = ⟨pt 3 0, 2, 2, 0⟩ := by
      simp only [cellData, two_mean]
      norm_num [ob]
    rw [buildCell]
    simp only [hc, two_size]
    rw [if_pos (by norm_num [threeFp])]
    simp only [threeFp, two_split, buildCell, Real.sqrt_one]
    rfl
  rw [hb, buildCell]
  rfl

/-- The call made for row 0 against the cell of the other two. -/
def em1 : Emit (EuclideanSpace ℝ (Fin 2)) := ⟨lf 0 0, nd, 9, 0, 0.5 * Real.log 9, 5, some 3⟩
/-- The call made for the other two rows. -/
def em2 : Emit (EuclideanSpace ℝ (Fin 2)) := ⟨lf 2 1, lf 4 2, 4, 2, Real.log 2, 5, some 4⟩

theorem pt0 (x y : ℝ) : (pt x y) 0 = x := by simp [pt]
theorem pt1 (x y : ℝ) : (pt x y) 1 = y := by simp [pt]

theorem twoDn_ex : twoDn exTwoD = 3 := by
  simp only [twoDn, exTwoD, truncInt]; norm_num

theorem binK_ex (x x' : ℝ) (i : ℤ) (h : truncInt ((x' - x + 6) / 4) = i) (hi : i ≠ 3) :
    twoDBinK (pt x 0) (pt x' 0) exTwoD = 3 + i := by
  have h1 : truncInt ((0 - 0 + 6) / 4) = 1 := by simp only [truncInt]; norm_num
  simp only [twoDBinK, twoDn_ex, pt0, pt1]
  simp only [exTwoD, h, h1, if_neg hi]
  norm_num

theorem trunc_of {x : ℝ} {i : ℤ} (hi : 0 ≤ i) (h1 : (i : ℝ) ≤ x) (h2 : x < i + 1) : truncInt x = i := by
  have : (0 : ℝ) ≤ i := by exact_mod_cast hi
  rw [truncInt, if_pos (by linarith), Int.floor_eq_iff]
  exact ⟨h1, h2⟩

theorem decide_em1 : decide11 twoDBin (plainMetric _) exTwoD true (lf 0 0) nd = .direct em1 := by
  have w1 : (lf 0 0).w = 1 := rfl
  have w2 : nd.w = 2 := rfl
  have p1 : (lf 0 0).pos = pt 0 0 := rfl
  have p2 : nd.pos = pt 3 0 := rfl
  have s1 : (lf 0 0).size = 0 := rfl
  have s2 : nd.size = 1 := rfl
  have hd : dist (pt 0 0) (pt 3 0) ^ 2 = 9 := by rw [dist_pt_x]; norm_num
  rw [decide11_plain, w1, w2, p1, p2, s1, s2, hd, if_neg (by norm_num), if_neg (by norm_num [twoDBin, exTwoD]),
    if_neg (by norm_num [twoDBin, exTwoD])]
  have t1 : truncInt ((3 - 0 + 6) / 4) = 2 := trunc_of (by norm_num) (by norm_num) (by norm_num)
  have t2 : truncInt ((0 - 0 + 6) / 4) = 1 := trunc_of (by norm_num) (by norm_num) (by norm_num)
  have t3 : truncInt (6 / 4) = 1 := trunc_of (by norm_num) (by norm_num) (by norm_num)
  have hs : twoDBin.singleBin 9 (0 + 1) (pt 0 0) (pt 3 0) exTwoD
      = some { k := 5, logr := 0.5 * Real.log 9 } := by
    simp only [twoDBin, twoDSingleBin, twoDn_ex, pt0, pt1]
    simp only [exTwoD, t1, t2, t3]
    norm_num
  rw [hs]
  have hr : twoDBin.inRange 9 (pt 0 0) (pt 3 0) exTwoD := by
    simp only [twoDBin, pt0, pt1]
    norm_num [exTwoD]
  simp only [hr, if_true]
  have hk : twoDBinK (pt 3 0) (pt 0 0) exTwoD = 3 + 0 := by
    apply binK_ex _ _ _ (trunc_of le_rfl (by norm_num) (by norm_num)) (by norm_num)
  simp only [directProcess11, twoDBin, p1, p2, hk, em1]
  norm_num [exTwoD]

theorem decide_em2 : decide11 twoDBin (plainMetric _) exTwoD true (lf 2 1) (lf 4 2) = .direct em2 := by
  have w1 : (lf 2 1).w = 1 := rfl
  have w2 : (lf 4 2).w = 1 := rfl
  have p1 : (lf 2 1).pos = pt 2 0 := rfl
  have p2 : (lf 4 2).pos = pt 4 0 := rfl
  have s1 : (lf 2 1).size = 0 := rfl
  have s2 : (lf 4 2).size = 0 := rfl
  have hd : dist (pt 2 0) (pt 4 0) ^ 2 = 4 := by rw [dist_pt_x]; norm_num
  rw [decide11_plain, w1, w2, p1, p2, s1, s2, hd, if_neg (by norm_num), if_neg (by norm_num [twoDBin, exTwoD]),
    if_neg (by norm_num [twoDBin, exTwoD])]
  have hs : twoDBin.singleBin 4 (0 + 0) (pt 2 0) (pt 4 0) exTwoD = some {} := by
    simp only [twoDBin, twoDSingleBin]
    norm_num [exTwoD]
  rw [hs]
  have hr : twoDBin.inRange 4 (pt 2 0) (pt 4 0) exTwoD := by
    simp only [twoDBin, pt0, pt1]
    norm_num [exTwoD]
  simp only [hr, if_true]
  have hk : twoDBinK (pt 4 0) (pt 2 0) exTwoD = 3 + 1 := by
    apply binK_ex _ _ _ (trunc_of (by norm_num) (by norm_num) (by norm_num)) (by norm_num)
  have hk' : twoDBinK (pt 2 0) (pt 4 0) exTwoD = 3 + 2 := by
    apply binK_ex _ _ _ (trunc_of (by norm_num) (by norm_num) (by norm_num)) (by norm_num)
  have h4 : Real.sqrt 4 = 2 := by rw [show (4 : ℝ) = 2 ^ 2 by norm_num, Real.sqrt_sq (by norm_num)]
  simp only [directProcess11, twoDBin, p1, p2, hk, hk', em2, h4]
  norm_num [exTwoD]

theorem three_emits : processAuto (decide11 twoDBin (plainMetric _) exTwoD true) exTwoD [lf 0 0, nd]
    = some [em1, em2] := by
  have q1 : process11 (decide11 twoDBin (plainMetric _) exTwoD true) (lf 0 0) nd = some [em1] :=
    process11_direct decide_em1
  have q2 : process11 (decide11 twoDBin (plainMetric _) exTwoD true) (lf 2 1) (lf 4 2) = some [em2] :=
    process11_direct decide_em2
  have l0 : ∀ x i, process2 (decide11 twoDBin (plainMetric _) exTwoD true) exTwoD (lf x i) = some [] := by
    intro x i
    simp only [lf, process2]
    norm_num [exTwoD]
  have hn : process2 (decide11 twoDBin (plainMetric _) exTwoD true) exTwoD nd = some [em2] := by
    rw [nd, process2, if_neg (by norm_num), if_neg (by norm_num [exTwoD])]
    simp [l0, q2]
  simp [processAuto, processAutoRow, l0, hn, q1]

/-- Membership in a pixel of a difference of points. -/
theorem pixel_pt {p : Params} {n k : ℤ} {x y x' y' : ℝ} (i j : ℤ) (i0 : 0 ≤ i) (i1 : i < n) (j0 : 0 ≤ j)
    (j1 : j < n) (hk : k = j * n + i) (hne : x - x' ≠ 0) (hx : InStrip p.maxsep p.binsize i (x - x'))
    (hy : InStrip p.maxsep p.binsize j (y - y')) : InPixel p.maxsep p.binsize n k (pt x y - pt x' y') := by
  refine ⟨?_, i, j, i0, i1, j0, j1, hk, by simpa [pt] using hx, by simpa [pt] using hy⟩
  intro h
  have := congrArg (fun v : EuclideanSpace ℝ (Fin 2) => v 0) h
  simp [pt] at this
  exact hne this

theorem orderedPairs_three {P : Type} (a b c : Obj P) :
    orderedPairs [a, b, c] = {(a, b), (a, c), (b, c), (b, a), (c, a), (c, b)} := rfl

end
end TreeCorr
