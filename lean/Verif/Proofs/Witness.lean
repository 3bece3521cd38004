import Verif.Proofs.Tree
import Mathlib.Data.List.Sort
import Mathlib.Analysis.Complex.ExponentialBounds

/-! Concrete objects used to show that hypotheses can be met. -/

namespace TreeCorr
open Classical List
noncomputable section

/-- An implementation of the standard algorithms: stable partition, full sort, `urand() = u`. -/
def sortAlg (P : Type) (u : ℝ) : StdAlg P where
  partition := fun f l => l.filter f ++ l.filter (fun o => !f o)
  partition_perm := fun f l => List.filter_append_perm f l
  partition_true := by
    intro f l o ho
    rw [List.countP_eq_length_filter, List.take_left] at ho
    exact (List.mem_filter.1 ho).2
  partition_false := by
    intro f l o ho
    rw [List.countP_eq_length_filter, List.drop_left] at ho
    simpa using (List.mem_filter.1 ho).2
  nth := fun key _ l => l.insertionSort (fun a b => key a ≤ key b)
  nth_perm := fun key _ l => List.perm_insertionSort _ l
  nth_le := by
    intro key m l o ho o' ho'
    have : Std.Total (fun a b : Obj P => key a ≤ key b) := ⟨fun a b => le_total _ _⟩
    have : IsTrans (Obj P) (fun a b : Obj P => key a ≤ key b) := ⟨fun a b c => le_trans⟩
    have h := List.pairwise_insertionSort (fun a b : Obj P => key a ≤ key b) l
    rw [← List.take_append_drop m (l.insertionSort _), List.pairwise_append] at h
    exact h.2.2 o ho o' ho'
  urand := fun _ => u

/-- A point of the plane. -/
def pt (x y : ℝ) : EuclideanSpace ℝ (Fin 2) := !₂[x, y]

theorem dist_pt (x y x' y' : ℝ) : dist (pt x y) (pt x' y') = Real.sqrt ((x - x') ^ 2 + (y - y') ^ 2) := by
  rw [EuclideanSpace.dist_eq]
  simp [pt, Fin.sum_univ_two, Real.dist_eq, sq_abs]

/-- Distance along the x axis. -/
theorem dist_pt_x (x x' y : ℝ) : dist (pt x y) (pt x' y) = |x - x'| := by
  rw [dist_pt]
  simp [Real.sqrt_sq_eq_abs]

/-- An object of weight 1 in the plane. -/
def ob (x y : ℝ) (i : ℕ) : Obj (EuclideanSpace ℝ (Fin 2)) := { pos := pt x y, w := 1, wk := 0, idx := i }

@[simp] theorem ob_pos (x y : ℝ) (i : ℕ) : (ob x y i).pos = pt x y := rfl
@[simp] theorem ob_w (x y : ℝ) (i : ℕ) : (ob x y i).w = 1 := rfl

theorem mean_one (x y : ℝ) (i : ℕ) : (euclidGeom 2).mean [ob x y i] = pt x y := by
  ext j
  fin_cases j <;> norm_num [euclidGeom, wmean, ob, pt]

theorem mean_two (x1 x2 y1 y2 : ℝ) (i j : ℕ) :
    (euclidGeom 2).mean [ob x1 y1 i, ob x2 y2 j] = pt ((x1 + x2) / 2) ((y1 + y2) / 2) := by
  ext k
  fin_cases k <;> simp [euclidGeom, wmean, ob, pt] <;> ring

theorem normSq_pt (x y x' y' : ℝ) :
    (euclidGeom 2).normSq (pt x y) (pt x' y') = (x - x') ^ 2 + (y - y') ^ 2 := by
  simp only [euclidGeom]
  rw [← dist_eq_norm, dist_pt, Real.sq_sqrt (by positivity)]

theorem sizeSq_two (x1 x2 y1 y2 : ℝ) (i j : ℕ) :
    calcSizeSq (euclidGeom 2) (pt ((x1 + x2) / 2) ((y1 + y2) / 2)) [ob x1 y1 i, ob x2 y2 j]
      = ((x2 - x1) / 2) ^ 2 + ((y2 - y1) / 2) ^ 2 := by
  simp only [calcSizeSq, List.foldl, ob_pos, normSq_pt]
  have e1 : ((x1 + x2) / 2 - x1) ^ 2 + ((y1 + y2) / 2 - y1) ^ 2
    = ((x2 - x1) / 2) ^ 2 + ((y2 - y1) / 2) ^ 2 := by ring
  have e2 : ((x1 + x2) / 2 - x2) ^ 2 + ((y1 + y2) / 2 - y2) ^ 2
    = ((x2 - x1) / 2) ^ 2 + ((y2 - y1) / 2) ^ 2 := by ring
  rw [e1, e2]
  set t := ((x2 - x1) / 2) ^ 2 + ((y2 - y1) / 2) ^ 2 with ht
  have : 0 ≤ t := by positivity
  rcases this.eq_or_lt with h | h
  · rw [← h]; simp
  · simp [h]

/-- The field of one row. -/
theorem field_one (A : StdAlg _) (fp : FieldParams) (x y : ℝ) (i : ℕ) :
    buildField A (euclidGeom 2) fp [ob x y i]
      = { center := pt x y, size := 0, cells := [.leaf ⟨pt x y, 1, 1, 0⟩ [ob x y i]] } := by
  simp only [buildField, mean_one, topCells, List.map_cons, List.map_nil, buildCell]
  congr 1
  simp [calcSizeSq, normSq_pt]

/-- The field of two rows in a single top-level cell. -/
theorem field_two (A : StdAlg _) (fp : FieldParams) (x1 x2 y1 y2 : ℝ) (i j : ℕ)
    (hmax : ((x2 - x1) / 2) ^ 2 + ((y2 - y1) / 2) ^ 2 ≤ fp.maxsize * fp.maxsize) (hmt : fp.mintop ≤ 0)
    (hmin : fp.minsize * fp.minsize < ((x2 - x1) / 2) ^ 2 + ((y2 - y1) / 2) ^ 2) :
    ∃ l r, l.objs ++ r.objs ~ [ob x1 y1 i, ob x2 y2 j] ∧
      l = buildCell A (euclidGeom 2) fp.sm (fp.minsize * fp.minsize) l.objs ∧
      r = buildCell A (euclidGeom 2) fp.sm (fp.minsize * fp.minsize) r.objs ∧
      l.objs.length = 1 ∧ r.objs.length = 1 ∧
      buildField A (euclidGeom 2) fp [ob x1 y1 i, ob x2 y2 j]
      = { center := pt ((x1 + x2) / 2) ((y1 + y2) / 2),
          size := Real.sqrt (((x2 - x1) / 2) ^ 2 + ((y2 - y1) / 2) ^ 2),
          cells := [.node ⟨pt ((x1 + x2) / 2) ((y1 + y2) / 2), 2, 2, 0⟩
            (Real.sqrt (((x2 - x1) / 2) ^ 2 + ((y2 - y1) / 2) ^ 2)) l r] } := by
  set L := [ob x1 y1 i, ob x2 y2 j] with hL
  have hperm := splitData_perm A (euclidGeom 2) fp.sm L (pt ((x1 + x2) / 2) ((y1 + y2) / 2))
  have hlt := splitData_lt A (euclidGeom 2) fp.sm L (pt ((x1 + x2) / 2) ((y1 + y2) / 2)) (by simp [hL])
  set sp := splitData A (euclidGeom 2) fp.sm L (pt ((x1 + x2) / 2) ((y1 + y2) / 2)) with hsp
  have hlen : L.length = 2 := by simp [hL]
  obtain ⟨o1, ho1⟩ := List.length_eq_one_iff.1 (by omega : sp.1.length = 1)
  obtain ⟨o2, ho2⟩ := List.length_eq_one_iff.1 (by omega : sp.2.length = 1)
  refine ⟨.leaf ⟨o1.pos, 1, o1.w, o1.wk⟩ [o1], .leaf ⟨o2.pos, 1, o2.w, o2.wk⟩ [o2], ?_, ?_, ?_, ?_, ?_, ?_⟩
  · rw [ho1, ho2] at hperm; exact hperm
  · simp [Cell.objs, buildCell]
  · simp [Cell.objs, buildCell]
  · simp [Cell.objs]
  · simp [Cell.objs]
  · have ht : topCells A (euclidGeom 2) fp.sm (fp.maxsize * fp.maxsize) fp.mintop fp.maxtop L = [L] := by
      rw [hL, topCells, mean_two, sizeSq_two, if_pos (Or.inr ⟨hmax, hmt⟩)]
    simp only [buildField, ht, List.map_cons, List.map_nil]
    have hc : cellData (euclidGeom 2) L = ⟨pt ((x1 + x2) / 2) ((y1 + y2) / 2), 2, 2, 0⟩ := by
      simp only [cellData, hL, mean_two]
      norm_num [ob]
    have hb : buildCell A (euclidGeom 2) fp.sm (fp.minsize * fp.minsize) L =
        .node ⟨pt ((x1 + x2) / 2) ((y1 + y2) / 2), 2, 2, 0⟩
            (Real.sqrt (((x2 - x1) / 2) ^ 2 + ((y2 - y1) / 2) ^ 2))
            (.leaf ⟨o1.pos, 1, o1.w, o1.wk⟩ [o1]) (.leaf ⟨o2.pos, 1, o2.w, o2.wk⟩ [o2]) := by
      have hs : calcSizeSq (euclidGeom 2) (cellData (euclidGeom 2) L).pos L
          = ((x2 - x1) / 2) ^ 2 + ((y2 - y1) / 2) ^ 2 := by rw [hc]; exact sizeSq_two _ _ _ _ _ _
      rw [hL, buildCell, ← hL, if_pos (by rw [hs]; exact hmin), hs, hc]
      rw [← hsp]
      simp only [ho1, ho2, buildCell]
    rw [hb]
    have hm : (euclidGeom 2).mean L = pt ((x1 + x2) / 2) ((y1 + y2) / 2) := mean_two _ _ _ _ _ _
    rw [hm, sizeSq_two]

end
end TreeCorr
