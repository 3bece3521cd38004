import Verif.Proofs.Tree
import Verif.Proofs.AtMostOnce
import Verif.Model.Sizes
import Verif.Props.LogCounts

/-!
C09 (the tree holds every row once) and C11 (rows merged into one leaf are too close to be counted).
-/

namespace TreeCorr
open Classical
variable {P : Type}

/-- **C09.** For every catalogue, split method, sizes, limits of the top-level cells and whatever the standard
library and the random numbers do: the leaves hold every row exactly once, every cell stores the number and
the sums of the weights of the rows below it, and these rows are within the size of the cell (for a
leaf, which is stored with size 0: within `min_size`) of its position. -/
theorem field_holds_catalogue [PseudoMetricSpace P] (A : StdAlg P) (g : Geom P) (hg : g.Dominates)
    (fp : FieldParams) (hm : 0 ≤ fp.minsize) (l : List (Obj P)) :
    ((buildField A g fp l).cells.flatMap Cell.objs).Perm l ∧
    ∀ c ∈ (buildField A g fp l).cells, c.SumsOK ∧ c.Bounded fp.minsize :=
  ⟨buildField_objs A g fp l, fun c hc =>
    ⟨(buildField_bounded A g hg fp hm l c hc).2, (buildField_bounded A g hg fp hm l c hc).1⟩⟩

/-- The geometries of flat, 3d and spherical catalogues satisfy the hypothesis of C09 (the latter with the
chord distance). -/
theorem geom_dominates :
    (euclidGeom 2).Dominates ∧ (euclidGeom 3).Dominates ∧ sphereGeom.Dominates :=
  ⟨euclidGeom_dominates 2, euclidGeom_dominates 3, sphereGeom_dominates⟩

theorem pow_toNat_succ {m : ℤ} (h : 0 < m) : 2 ^ m.toNat = 2 * 2 ^ (m - 1).toNat := by
  have : m.toNat = (m - 1).toNat + 1 := by omega
  rw [this, pow_succ]; ring

/-- There are at most `2 ^ max_top` top-level cells. -/
theorem top_cells_le (A : StdAlg P) (g : Geom P) (fp : FieldParams) (l : List (Obj P)) :
    (buildField A g fp l).cells.length ≤ 2 ^ fp.maxtop.toNat := by
  simp only [buildField, List.length_map]
  generalize fp.mintop = mintop
  generalize fp.maxtop = maxtop
  induction mintop, maxtop, l using topCells.induct A g fp.sm (fp.maxsize * fp.maxsize) with
  | case1 => simp [topCells]
  | case2 mintop maxtop o => simpa [topCells] using Nat.one_le_two_pow
  | case3 mintop maxtop o1 o2 os l ave sizesq h =>
    rw [topCells, if_pos h]; simpa using Nat.one_le_two_pow
  | case4 mintop maxtop o1 o2 os l ave sizesq h h' =>
    rw [topCells, if_neg h, if_pos h']; simpa using Nat.one_le_two_pow
  | case5 mintop maxtop o1 o2 os l ave sizesq h h' sp ih1 ih2 =>
    rw [topCells, if_neg h, if_neg h']
    simp only [List.length_append]
    rw [pow_toNat_succ (by omega)]
    have := add_le_add ih1 ih2
    simp only [two_mul]
    exact this

theorem leafLists_close [PseudoMetricSpace P] {δ : ℝ} (c : Cell P) (h : c.Bounded δ) :
    ∀ os ∈ c.leafLists, ∀ o1 ∈ os, ∀ o2 ∈ os, dist o1.pos o2.pos ≤ 2 * δ := by
  induction c with
  | leaf d os =>
    intro os' hos o1 h1 o2 h2
    simp only [Cell.leafLists, List.mem_singleton] at hos
    subst hos
    simp only [Cell.Bounded] at h
    have := dist_triangle_right o1.pos o2.pos d.pos
    linarith [h o1 h1, h o2 h2]
  | node d s l r ihl ihr =>
    intro os hos
    simp only [Cell.leafLists, List.mem_append] at hos
    rcases hos with hos | hos
    · exact ihl h.2.2.1 os hos
    · exact ihr h.2.2.2 os hos

/-- The automatic `min_size` is at most a third of `min_sep`: Log bins. -/
theorem logMinSize_le {p : Params} (hm : 0 < p.minsep) (ha : 0 ≤ p.a) (hb : 0 ≤ p.b) :
    0 ≤ (logMinMaxSize p).1 ∧ 3 * (logMinMaxSize p).1 < p.minsep := by
  simp only [logMinMaxSize]
  set b1 := min p.a p.b with hb1
  have h0 : 0 ≤ b1 := le_min ha hb
  constructor
  · positivity
  · rw [← mul_div_assoc, div_lt_iff₀ (by positivity)]
    nlinarith

/-- The same for Linear and TwoD bins. -/
theorem linMinSize_le {p : Params} (hm : 0 ≤ p.minsep) (ha : 0 ≤ p.a) (hb : 0 ≤ p.b) :
    0 ≤ (linMinMaxSize p).1 ∧ 3 * (linMinMaxSize p).1 ≤ p.minsep ∧
      (0 < p.minsep → 3 * (linMinMaxSize p).1 < p.minsep) := by
  simp only [linMinMaxSize]
  have h1 : min (p.a * p.minsep / (2 + 3 * p.a)) (p.b / 2) ≤ p.a * p.minsep / (2 + 3 * p.a) := min_le_left _ _
  have h2 : 3 * (p.a * p.minsep / (2 + 3 * p.a)) ≤ p.minsep := by
    rw [← mul_div_assoc, div_le_iff₀ (by positivity)]
    nlinarith
  refine ⟨le_min (by positivity) (by positivity), by linarith, ?_⟩
  intro hm'
  have h3 : 3 * (p.a * p.minsep / (2 + 3 * p.a)) < p.minsep := by
    rw [← mul_div_assoc, div_lt_iff₀ (by positivity)]
    nlinarith
  linarith

/-- **C11.** With the automatic `min_size` (Euclidean metric), any two rows in one leaf are closer than
`min_sep`, for Log bins and for Linear and TwoD bins (with `min_sep = 0` they coincide). -/
theorem merged_too_close [PseudoMetricSpace P] (A : StdAlg P) (g : Geom P) (hg : g.Dominates)
    (fp : FieldParams) (l : List (Obj P)) (p : Params) (ha : 0 ≤ p.a) (hb : 0 ≤ p.b) :
    (0 < p.minsep → fp.minsize = (logMinMaxSize p).1 →
      ∀ c ∈ (buildField A g fp l).cells, ∀ os ∈ c.leafLists, ∀ o1 ∈ os, ∀ o2 ∈ os,
        dist o1.pos o2.pos < p.minsep) ∧
    (0 ≤ p.minsep → fp.minsize = (linMinMaxSize p).1 →
      ∀ c ∈ (buildField A g fp l).cells, ∀ os ∈ c.leafLists, ∀ o1 ∈ os, ∀ o2 ∈ os,
        dist o1.pos o2.pos < p.minsep ∨ (p.minsep = 0 ∧ dist o1.pos o2.pos = 0)) := by
  constructor
  · intro hm hf c hc os hos o1 h1 o2 h2
    obtain ⟨k1, k2⟩ := logMinSize_le hm ha hb
    rw [← hf] at k1 k2
    have := leafLists_close c (buildField_bounded A g hg fp k1 l c hc).1 os hos o1 h1 o2 h2
    linarith
  · intro hm hf c hc os hos o1 h1 o2 h2
    obtain ⟨k1, k2, k3⟩ := linMinSize_le hm ha hb
    rw [← hf] at k1 k2 k3
    have := leafLists_close c (buildField_bounded A g hg fp k1 l c hc).1 os hos o1 h1 o2 h2
    rcases hm.eq_or_lt with h | h
    · right
      refine ⟨h.symm, le_antisymm (by linarith) dist_nonneg⟩
    · left
      have := k3 h
      linarith

/-- C11 is not vacuous: with `bin_size = 1`, `min_sep = 1`, `bin_slop = 1`, `min_size = 1/5` and the
rows (0,0) and (0.2,0) really are merged into one leaf. -/
example : let p : Params := { minsep := 1, maxsep := 3, nbins := 3, binsize := 1, b := 1, a := 1 }
    let fp : FieldParams := { minsize := (logMinMaxSize p).1, maxsize := 100, sm := .mean, mintop := 0, maxtop := 10 }
    ∃ c, (buildField (sortAlg _ 0) (euclidGeom 2) fp [ob 0 0 0, ob (1/5) 0 1]).cells = [c] ∧
      c.leafLists = [[ob 0 0 0, ob (1/5) 0 1]] := by
  intro p fp
  have hms : fp.minsize = 1 / 5 := by norm_num [fp, p, logMinMaxSize]
  have ht : topCells (sortAlg _ 0) (euclidGeom 2) fp.sm (fp.maxsize * fp.maxsize) fp.mintop fp.maxtop
      [ob 0 0 0, ob (1/5) 0 1] = [[ob 0 0 0, ob (1/5) 0 1]] := by
    rw [topCells, mean_two, sizeSq_two, if_pos]
    right
    norm_num [fp]
  refine ⟨_, by simp only [buildField, ht, List.map_cons, List.map_nil]; rfl, ?_⟩
  rw [buildCell, if_neg]
  · rfl
  · simp only [cellData, mean_two, sizeSq_two, hms]
    norm_num

end TreeCorr
