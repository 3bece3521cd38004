import Verif.Props.KMeansConv
import Verif.Proofs.Witness

/-!
C75: cases, and where the iterations of k-means do not do what the documentation says.
-/

namespace TreeCorr
open Classical List KMeans
noncomputable section

/-- When the nearest centre of each row is unique, so is the division. -/
theorem division_patch {E : Type} [NormedAddCommGroup E] [InnerProductSpace ℝ E] {rows : List (Obj E)} {n : ℕ} {cen : ℕ → E}
    {L : List (ℕ × Obj E)} (h : NearestDivision rows n cen L) (f : Obj E → ℕ) (hf : ∀ o ∈ rows, f o < n)
    (hs : ∀ o ∈ rows, ∀ q < n, q ≠ f o → dist o.pos (cen (f o)) < dist o.pos (cen q)) (q : ℕ) :
    (patchRowsOf L q).Perm (rows.filter fun o => f o = q) := by
  have hx : ∀ x ∈ L, x.1 = f x.2 := by
    intro x hx
    have hm := h.rows.mem_iff.1 (List.mem_map.2 ⟨x, hx, rfl⟩)
    by_contra hne
    exact absurd (h.near x hx (f x.2) (hf _ hm)) (not_le.2 (hs _ hm _ (h.lt x hx) hne))
  have e : patchRowsOf L q = (L.map Prod.snd).filter fun o => f o = q := by
    rw [patchRowsOf, List.filter_map]
    congr 1
    refine List.filter_congr fun x hx' => ?_
    simp [hx x hx']
  rw [e]
  exact h.rows.filter _

theorem dist_pt_lt {x y a b c e : ℝ} : dist (pt x y) (pt a b) < dist (pt x y) (pt c e) ↔ (x - a) ^ 2 + (y - b) ^ 2 < (x - c) ^ 2 + (y - e) ^ 2 := by
  rw [dist_pt, dist_pt, Real.sqrt_lt_sqrt_iff (by positivity)]

/-- Five rows. -/
def lostRows : List (Obj (EuclideanSpace ℝ (Fin 2))) := [ob 102 104 0, ob 99 107 1, ob 105 93 2, ob 94 96 3, ob 92 94 4]
/-- The first three of them as centres. -/
def lostCen : ℕ → EuclideanSpace ℝ (Fin 2) | 0 => pt 102 104 | 1 => pt 99 107 | _ => pt 105 93
/-- The centres after one pass. -/
def lostCen1 : ℕ → EuclideanSpace ℝ (Fin 2) | 0 => pt 98 100 | 1 => pt 99 107 | _ => pt (197 / 2) (187 / 2)
/-- The centres after two or more passes. -/
def lostCen2 : ℕ → EuclideanSpace ℝ (Fin 2) | 0 => pt 0 0 | 1 => pt (201 / 2) (211 / 2) | _ => pt 97 (283 / 3)

theorem pt_mean2 (x1 y1 x2 y2 : ℝ) (i j : ℕ) :
    ((([ob x1 y1 i, ob x2 y2 j]).map Obj.w).sum)⁻¹ • (([ob x1 y1 i, ob x2 y2 j]).map fun o => o.w • o.pos).sum = pt ((x1 + x2) / 2) ((y1 + y2) / 2) := by
  ext k
  fin_cases k <;> simp [ob, pt] <;> ring

theorem pt_mean1 (x1 y1 : ℝ) (i : ℕ) :
    ((([ob x1 y1 i]).map Obj.w).sum)⁻¹ • (([ob x1 y1 i]).map fun o => o.w • o.pos).sum = pt x1 y1 := by
  ext k
  fin_cases k <;> simp [ob, pt]

theorem pt_mean3 (x1 y1 x2 y2 x3 y3 : ℝ) (i j l : ℕ) :
    ((([ob x1 y1 i, ob x2 y2 j, ob x3 y3 l]).map Obj.w).sum)⁻¹ • (([ob x1 y1 i, ob x2 y2 j, ob x3 y3 l]).map fun o => o.w • o.pos).sum =
      pt ((x1 + x2 + x3) / 3) ((y1 + y2 + y3) / 3) := by
  ext k
  fin_cases k <;> simp [ob, pt] <;> ring

theorem meanOr_of_perm {L : List (ℕ × Obj (EuclideanSpace ℝ (Fin 2)))} {q : ℕ} {l : List (Obj (EuclideanSpace ℝ (Fin 2)))}
    (h : (patchRowsOf L q).Perm l) :
    (if 0 < patchWeight L q then patchMean L q else 0) =
      if 0 < (l.map Obj.w).sum then ((l.map Obj.w).sum)⁻¹ • (l.map fun o => o.w • o.pos).sum else 0 := by
  rw [patchMean, patchWeight, (h.map _).sum_eq, (h.map _).sum_eq]

/-- The patch of each row in the first pass, and in the later ones. -/
def lostPatch (first : Bool) (o : Obj (EuclideanSpace ℝ (Fin 2))) : ℕ :=
  if o.idx = 0 then (if first then 0 else 1) else if o.idx = 1 then 1 else if o.idx = 3 then (if first then 0 else 2) else 2

theorem lost_strict (first : Bool) (cen : ℕ → EuclideanSpace ℝ (Fin 2))
    (h : (first = true ∧ cen = lostCen) ∨ (first = false ∧ ((∀ q < 3, cen q = lostCen1 q) ∨ ∀ q < 3, cen q = lostCen2 q))) :
    ∀ o ∈ lostRows, ∀ q < 3, q ≠ lostPatch first o → dist o.pos (cen (lostPatch first o)) < dist o.pos (cen q) := by
  intro o ho q hq hne
  simp only [lostRows, List.mem_cons, List.not_mem_nil, or_false] at ho
  have hlt : lostPatch first o < 3 := by unfold lostPatch; split_ifs <;> omega
  rcases h with ⟨rfl, rfl⟩ | ⟨rfl, h | h⟩
  · rcases ho with rfl | rfl | rfl | rfl | rfl <;> interval_cases q <;>
      simp [lostPatch, ob] at hne <;> simp only [lostPatch, ob, lostCen] <;> norm_num [dist_pt_lt, -dist_self, -dist_pos]
  · rw [h _ hlt, h _ hq]
    rcases ho with rfl | rfl | rfl | rfl | rfl <;> interval_cases q <;>
      simp [lostPatch, ob] at hne <;> simp only [lostPatch, ob, lostCen1] <;> norm_num [dist_pt_lt, -dist_self, -dist_pos]
  · rw [h _ hlt, h _ hq]
    rcases ho with rfl | rfl | rfl | rfl | rfl <;> interval_cases q <;>
      simp [lostPatch, ob] at hne <;> simp only [lostPatch, ob, lostCen2] <;> norm_num [dist_pt_lt, -dist_self, -dist_pos]

theorem lostPatch_lt (first : Bool) (o : Obj (EuclideanSpace ℝ (Fin 2))) : lostPatch first o < 3 := by
  unfold lostPatch
  split_ifs <;> omega

theorem lost_w : ∀ o ∈ lostRows, 0 ≤ o.w := by
  intro o ho
  simp only [lostRows, List.mem_cons, List.not_mem_nil, or_false] at ho
  rcases ho with rfl | rfl | rfl | rfl | rfl <;> simp [ob]

theorem lost_wpos : ∀ o ∈ lostRows, o.wpos = o.w := by
  intro o ho
  simp only [lostRows, List.mem_cons, List.not_mem_nil, or_false] at ho
  rcases ho with rfl | rfl | rfl | rfl | rfl <;> rfl

theorem lost_pass (A : StdAlg (EuclideanSpace ℝ (Fin 2))) (fp : FieldParams) (hm : fp.minsize = 0) (sched : Schedule)
    (hs : sched.Of (buildField A (euclidGeom 2) fp lostRows).cells.length) (first : Bool) (cen : ℕ → EuclideanSpace ℝ (Fin 2))
    (h : (first = true ∧ cen = lostCen) ∨ (first = false ∧ ((∀ q < 3, cen q = lostCen1 q) ∨ ∀ q < 3, cen q = lostCen2 q))) (q : ℕ) :
    updateCenters id cen none 3 (buildField A (euclidGeom 2) fp lostRows).cells sched q =
      if 0 < ((lostRows.filter fun o => lostPatch first o = q).map Obj.w).sum then
        (((lostRows.filter fun o => lostPatch first o = q).map Obj.w).sum)⁻¹ •
          ((lostRows.filter fun o => lostPatch first o = q).map fun o => o.w • o.pos).sum else 0 := by
  obtain ⟨L, hL, hu⟩ := kmeans_update_means_partial A fp hm lostRows lost_w lost_wpos cen 3 (by norm_num) sched hs
  rw [hu q]
  exact meanOr_of_perm (division_patch hL (lostPatch first) (fun o _ => lostPatch_lt first o) (lost_strict first cen h) q)

theorem lost_first (A : StdAlg (EuclideanSpace ℝ (Fin 2))) (fp : FieldParams) (hm : fp.minsize = 0) (sched : Schedule)
    (hs : sched.Of (buildField A (euclidGeom 2) fp lostRows).cells.length) : ∀ q < 3,
    updateCenters id lostCen none 3 (buildField A (euclidGeom 2) fp lostRows).cells sched q = lostCen1 q := by
  intro q hq
  rw [lost_pass A fp hm sched hs true lostCen (.inl ⟨rfl, rfl⟩)]
  interval_cases q
  · have e : (lostRows.filter fun o => lostPatch true o = 0) = [ob 102 104 0, ob 94 96 3] := by simp [lostRows, lostPatch, ob]
    rw [e, pt_mean2]
    norm_num [lostCen1]
  · have e : (lostRows.filter fun o => lostPatch true o = 1) = [ob 99 107 1] := by simp [lostRows, lostPatch, ob]
    rw [e, pt_mean1]
    norm_num [lostCen1]
  · have e : (lostRows.filter fun o => lostPatch true o = 2) = [ob 105 93 2, ob 92 94 4] := by simp [lostRows, lostPatch, ob]
    rw [e, pt_mean2]
    norm_num [lostCen1]

theorem lost_later (A : StdAlg (EuclideanSpace ℝ (Fin 2))) (fp : FieldParams) (hm : fp.minsize = 0) (sched : Schedule)
    (hs : sched.Of (buildField A (euclidGeom 2) fp lostRows).cells.length) (cen : ℕ → EuclideanSpace ℝ (Fin 2))
    (h : (∀ q < 3, cen q = lostCen1 q) ∨ ∀ q < 3, cen q = lostCen2 q) : ∀ q < 3,
    updateCenters id cen none 3 (buildField A (euclidGeom 2) fp lostRows).cells sched q = lostCen2 q := by
  intro q hq
  rw [lost_pass A fp hm sched hs false cen (.inr ⟨rfl, h⟩)]
  interval_cases q
  · have e : (lostRows.filter fun o => lostPatch false o = 0) = [] := by simp [lostRows, lostPatch, ob]
    rw [e]
    simp only [List.map_nil, List.sum_nil, lt_irrefl, if_false, lostCen2]
    ext k
    fin_cases k <;> simp [pt]
  · have e : (lostRows.filter fun o => lostPatch false o = 1) = [ob 102 104 0, ob 99 107 1] := by simp [lostRows, lostPatch, ob]
    rw [e, pt_mean2]
    norm_num [lostCen2]
  · have e : (lostRows.filter fun o => lostPatch false o = 2) = [ob 105 93 2, ob 94 96 3, ob 92 94 4] := by simp [lostRows, lostPatch, ob]
    rw [e, pt_mean3]
    norm_num [lostCen2]

theorem lost_passes (A : StdAlg (EuclideanSpace ℝ (Fin 2))) (fp : FieldParams) (hm : fp.minsize = 0) (sch : ℕ → Schedule × Schedule)
    (hs : ∀ i, (sch i).2.Of (buildField A (euclidGeom 2) fp lostRows).cells.length) (k : ℕ) :
    (∀ q < 3, passes id 3 (buildField A (euclidGeom 2) fp lostRows).cells sch lostCen 1 q = lostCen1 q) ∧
    ∀ q < 3, passes id 3 (buildField A (euclidGeom 2) fp lostRows).cells sch lostCen (k + 2) q = lostCen2 q := by
  have h1 : ∀ q < 3, passes id 3 (buildField A (euclidGeom 2) fp lostRows).cells sch lostCen 1 q = lostCen1 q := by
    rw [passes, passes]
    exact lost_first A fp hm (sch 0).2 (hs 0)
  refine ⟨h1, ?_⟩
  induction k with
  | zero =>
    rw [passes]
    exact lost_later A fp hm (sch 1).2 (hs 1) _ (.inl h1)
  | succ k ih =>
    rw [show k + 1 + 2 = (k + 2) + 1 from rfl, passes]
    exact lost_later A fp hm (sch (k + 2)).2 (hs (k + 2)) _ (.inr ih)

/-- **C75 fails** ("the standard algorithm ... can never suffer from this problem", namely patches with no points in them): five rows of weight 1,
three of them as initial centres.  For every tree, distribution over threads, tolerance and `max_iter ≥ 1` no row is nearest to the final centre of
patch 0, so that `kmeans_assign_patches` leaves it empty; with two or more passes its centre is the origin, which is far from all the rows. -/
theorem kmeans_empty_patch_wrong : ∃ (rows : List (Obj (EuclideanSpace ℝ (Fin 2)))) (cen : ℕ → EuclideanSpace ℝ (Fin 2)),
    Numbered rows ∧ (∀ o ∈ rows, o.w = 1 ∧ o.wpos = 1) ∧ (∀ q < 3, ∃ o, rows[q]? = some o ∧ o.pos = cen q) ∧ (∀ o ∈ rows, 130 ≤ dist o.pos 0) ∧
    ∀ (A : StdAlg _) (fp : FieldParams), fp.minsize = 0 → ∀ sch : ℕ → Schedule × Schedule,
      (∀ i, (sch i).2.Of (buildField A (euclidGeom 2) fp rows).cells.length) → ∀ maxiter : ℤ, 1 ≤ maxiter → ∀ tol : ℝ,
      ∃ out, kmeansRun id (buildField A (euclidGeom 2) fp rows) 3 maxiter tol false sch cen = some out ∧
        (∀ o ∈ rows, ¬ Nearest out 3 o.pos 0) ∧ (tol = 0 → 2 ≤ maxiter → out 0 = 0) := by
  have hz : pt 0 0 = 0 := by
    ext k
    fin_cases k <;> simp [pt]
  refine ⟨lostRows, lostCen, ?_, ?_, ?_, ?_, ?_⟩
  · intro i o ho
    match i with
    | 0 | 1 | 2 | 3 | 4 => simp [lostRows] at ho; rw [← ho]; rfl
    | i + 5 => simp [lostRows] at ho
  · intro o ho
    simp only [lostRows, List.mem_cons, List.not_mem_nil, or_false] at ho
    rcases ho with rfl | rfl | rfl | rfl | rfl <;> exact ⟨rfl, rfl⟩
  · intro q hq
    interval_cases q <;> exact ⟨_, rfl, rfl⟩
  · intro o ho
    simp only [lostRows, List.mem_cons, List.not_mem_nil, or_false] at ho
    rw [← hz]
    rcases ho with rfl | rfl | rfl | rfl | rfl <;> rw [ob_pos, dist_pt] <;> exact Real.le_sqrt_of_sq_le (by norm_num)
  · intro A fp hm sch hs maxiter h1 tol
    obtain ⟨k, hk, he, hb, hc⟩ := kmeans_run_stops id (buildField A (euclidGeom 2) fp lostRows) 3 maxiter tol sch lostCen
    have hk1 : 1 ≤ k := by
      by_contra h0
      exact absurd (hc (by omega)).1 (by omega)
    refine ⟨_, he, ?_, ?_⟩
    · have hcase : (∀ q < 3, passes id 3 (buildField A (euclidGeom 2) fp lostRows).cells sch lostCen k q = lostCen1 q) ∨
          ∀ q < 3, passes id 3 (buildField A (euclidGeom 2) fp lostRows).cells sch lostCen k q = lostCen2 q := by
        rcases Nat.lt_or_ge k 2 with h | h
        · left
          obtain rfl : k = 1 := by omega
          exact (lost_passes A fp hm sch hs 0).1
        · right
          obtain ⟨j, rfl⟩ : ∃ j, k = j + 2 := ⟨k - 2, by omega⟩
          exact (lost_passes A fp hm sch hs j).2
      intro o ho hn
      have hne : (0 : ℕ) ≠ lostPatch false o := by
        simp only [lostRows, List.mem_cons, List.not_mem_nil, or_false] at ho
        rcases ho with rfl | rfl | rfl | rfl | rfl <;> simp [lostPatch, ob]
      exact absurd (hn.2 _ (lostPatch_lt false o)) (not_le.2 (lost_strict false _ (.inr ⟨rfl, hcase⟩) o ho 0 (by norm_num) hne))
    · rintro rfl h2
      have hk2 : 2 ≤ k := by
        by_contra hlt
        have := (hc (by omega)).2
        rw [zero_mul, zero_pow two_ne_zero, zero_mul] at this
        exact absurd this (not_lt.2 (Finset.sum_nonneg fun q _ => sq_nonneg _))
      obtain ⟨j, rfl⟩ : ∃ j, k = j + 2 := ⟨k - 2, by omega⟩
      exact ((lost_passes A fp hm sch hs j).2 0 (by norm_num)).trans hz

end
end TreeCorr
