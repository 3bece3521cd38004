import Verif.Proofs.KMeansRun
import Verif.Props.KMeans

/-!
C75: the iterations of k-means (`Field.kmeans_refine_centers`).
-/

namespace TreeCorr
open Classical List KMeans
noncomputable section
variable {d : ℕ}

/-- **C75, partial.** One pass of the standard algorithm, flat or 3d positions, any tree with `min_size = 0`, any distribution of the work over
threads: there is a division that gives every row to a nearest centre, and the new centre of each patch is the weighted mean of its rows - or the
origin if the patch has no weight.
Missing: positions on the sphere (`kmeans_update_sphere_wrong`), `w_pos` different from `w`, `min_size > 0`. -/
theorem kmeans_update_means_partial (A : StdAlg (EuclideanSpace ℝ (Fin d))) (fp : FieldParams) (hm : fp.minsize = 0)
    (rows : List (Obj (EuclideanSpace ℝ (Fin d)))) (hw : ∀ o ∈ rows, 0 ≤ o.w) (hp : ∀ o ∈ rows, o.wpos = o.w)
    (cen : ℕ → EuclideanSpace ℝ (Fin d)) (npatch : ℕ) (hn : 1 ≤ npatch) (sched : Schedule)
    (hs : sched.Of (buildField A (euclidGeom d) fp rows).cells.length) :
    ∃ L, NearestDivision rows npatch cen L ∧ ∀ q, updateCenters id cen none npatch (buildField A (euclidGeom d) fp rows).cells sched q =
      if 0 < patchWeight L q then patchMean L q else 0 := by
  have hb := buildField_bounded A (euclidGeom d) (euclidGeom_dominates d) fp hm.ge rows
  obtain ⟨h1, h2⟩ := findAll_spec cen none (by simp) (respects_dist cen hm.ge) _ (fun c hc => (hb c hc).1) npatch hn sched hs
  have hL : NearestDivision rows npatch cen (rowsOfCalls (findAll cen none npatch (buildField A (euclidGeom d) fp rows).cells sched).flatten) := by
    refine ⟨?_, ?_, ?_⟩
    · have e : (rowsOfCalls (findAll cen none npatch (buildField A (euclidGeom d) fp rows).cells sched).flatten).map Prod.snd =
          (findAll cen none npatch (buildField A (euclidGeom d) fp rows).cells sched).flatten.flatMap fun x => x.2.objs := by
        unfold rowsOfCalls
        rw [List.map_flatMap]
        simp [Function.comp_def]
      rw [e]
      exact h1.trans (buildField_objs A (euclidGeom d) fp rows)
    · intro x hx
      obtain ⟨y, hy, hx⟩ := List.mem_flatMap.1 hx
      obtain ⟨o, ho, rfl⟩ := List.mem_map.1 hx
      exact (h2 y hy).1
    · intro x hx q hq
      obtain ⟨y, hy, hx⟩ := List.mem_flatMap.1 hx
      obtain ⟨o, ho, rfl⟩ := List.mem_map.1 hx
      have := (h2 y hy).2 o ho q hq
      rw [hm] at this
      linarith
  refine ⟨_, hL, fun q => ?_⟩
  rw [updateCenters_eq id cen none npatch _ (buildField_sums A fp rows hw hp) sched q]
  split
  · rfl
  · rename_i h
    have h0 := patch_weights_zero (L := rowsOfCalls (findAll cen none npatch (buildField A (euclidGeom d) fp rows).cells sched).flatten)
      (fun x hx => hw _ (hL.rows.mem_iff.1 (List.mem_map.2 ⟨x, hx, rfl⟩))) h
    rw [List.map_congr_left (g := fun _ => (0 : EuclideanSpace ℝ (Fin d))) fun o ho => by rw [h0 o ho, zero_smul]]
    simp

/-- **C75, partial.** A pass of the standard algorithm lowers the total inertia by at least the squares of the shifts times the weights of the
patches; it never raises it. -/
theorem kmeans_pass_inertia_partial (A : StdAlg (EuclideanSpace ℝ (Fin d))) (fp : FieldParams) (hm : fp.minsize = 0)
    (rows : List (Obj (EuclideanSpace ℝ (Fin d)))) (hw : ∀ o ∈ rows, 0 ≤ o.w) (hp : ∀ o ∈ rows, o.wpos = o.w)
    (cen : ℕ → EuclideanSpace ℝ (Fin d)) (npatch : ℕ) (hn : 1 ≤ npatch) (sched : Schedule)
    (hs : sched.Of (buildField A (euclidGeom d) fp rows).cells.length) :
    ∃ L, NearestDivision rows npatch cen L ∧
      wcss rows npatch (updateCenters id cen none npatch (buildField A (euclidGeom d) fp rows).cells sched) +
        ∑ q ∈ Finset.range npatch, patchWeight L q *
          dist (updateCenters id cen none npatch (buildField A (euclidGeom d) fp rows).cells sched q) (cen q) ^ 2 ≤ wcss rows npatch cen := by
  obtain ⟨L, hL, hu⟩ := kmeans_update_means_partial A fp hm rows hw hp cen npatch hn sched hs
  refine ⟨L, hL, ?_⟩
  have hwL : ∀ x ∈ L, 0 ≤ x.2.w := fun x hx => hw _ (hL.rows.mem_iff.1 (List.mem_map.2 ⟨x, hx, rfl⟩))
  rw [wcss_eq hL, cost_update hL.lt hwL cen (updateCenters id cen none npatch (buildField A (euclidGeom d) fp rows).cells sched)
    fun q _ h => by rw [hu q, if_pos h]]
  exact add_le_add_left (wcss_le _ hL.rows hL.lt hw) _

theorem patchWeight_nonneg {L : List (ℕ × Obj (EuclideanSpace ℝ (Fin d)))} (h : ∀ x ∈ L, 0 ≤ x.2.w) (q : ℕ) : 0 ≤ patchWeight L q := by
  refine List.sum_nonneg fun x hx => ?_
  obtain ⟨o, ho, rfl⟩ := List.mem_map.1 hx
  exact h _ (patchRows_mem ho)

theorem pass_le (A : StdAlg (EuclideanSpace ℝ (Fin d))) (fp : FieldParams) (hm : fp.minsize = 0)
    (rows : List (Obj (EuclideanSpace ℝ (Fin d)))) (hw : ∀ o ∈ rows, 0 ≤ o.w) (hp : ∀ o ∈ rows, o.wpos = o.w)
    (cen : ℕ → EuclideanSpace ℝ (Fin d)) (npatch : ℕ) (hn : 1 ≤ npatch) (sched : Schedule)
    (hs : sched.Of (buildField A (euclidGeom d) fp rows).cells.length) :
    wcss rows npatch (updateCenters id cen none npatch (buildField A (euclidGeom d) fp rows).cells sched) ≤ wcss rows npatch cen := by
  obtain ⟨L, hL, h⟩ := kmeans_pass_inertia_partial A fp hm rows hw hp cen npatch hn sched hs
  have : 0 ≤ ∑ q ∈ Finset.range npatch, patchWeight L q *
      dist (updateCenters id cen none npatch (buildField A (euclidGeom d) fp rows).cells sched q) (cen q) ^ 2 :=
    Finset.sum_nonneg fun q _ => mul_nonneg
      (patchWeight_nonneg (fun x hx => hw _ (hL.rows.mem_iff.1 (List.mem_map.2 ⟨x, hx, rfl⟩))) q) (sq_nonneg _)
  linarith

/-! ### The passes of a run -/

/-- The centres after `i` passes of the standard algorithm without a stop. -/
def passes {E : Type} [NormedAddCommGroup E] [InnerProductSpace ℝ E] (norm : E → E) (npatch : ℕ) (cells : List (Cell E))
    (sch : ℕ → Schedule × Schedule) (cen : ℕ → E) : ℕ → ℕ → E
  | 0 => cen
  | i + 1 => updateCenters norm (passes norm npatch cells sch cen i) none npatch cells (sch i).2

theorem kmeansLoop_passes {E : Type} [NormedAddCommGroup E] [InnerProductSpace ℝ E] (norm : E → E) (npatch : ℕ) (cells : List (Cell E)) (tolsq : ℝ)
    (sch : ℕ → Schedule × Schedule) (cen : ℕ → E) (left iter : ℕ) :
    ∃ k ≤ left, kmeansLoop norm false npatch cells tolsq sch left iter (passes norm npatch cells sch cen iter) =
        some (passes norm npatch cells sch cen (iter + k)) ∧
      (∀ i, i + 1 < k → ¬ shiftSq npatch (passes norm npatch cells sch cen (iter + i)) (passes norm npatch cells sch cen (iter + i + 1)) < tolsq) ∧
      (k < left → 0 < k) ∧
      (0 < k → k < left →
        shiftSq npatch (passes norm npatch cells sch cen (iter + k - 1)) (passes norm npatch cells sch cen (iter + k)) < tolsq) := by
  induction left generalizing iter with
  | zero => exact ⟨0, le_rfl, rfl, by simp, by simp, by simp⟩
  | succ left ih =>
    have e : kmeansPass norm false npatch cells (sch iter).1 (sch iter).2 (passes norm npatch cells sch cen iter) =
        some (passes norm npatch cells sch cen (iter + 1)) := rfl
    rw [kmeansLoop, e]
    simp only [Option.bind_eq_bind, Option.bind_some]
    by_cases h : shiftSq npatch (passes norm npatch cells sch cen iter) (passes norm npatch cells sch cen (iter + 1)) < tolsq
    · rw [if_pos h]
      exact ⟨1, by omega, rfl, by omega, by omega, fun _ _ => h⟩
    · rw [if_neg h]
      obtain ⟨k, hk, h1, h2, h3, h4⟩ := ih (iter + 1)
      refine ⟨k + 1, by omega, by rw [h1, show iter + 1 + k = iter + (k + 1) by omega], ?_, by omega, ?_⟩
      · intro i hi
        cases i with
        | zero => exact h
        | succ i =>
          have := h2 i (by omega)
          rwa [show iter + 1 + i = iter + (i + 1) by omega] at this
      · intro _ hlt
        have := h4 (h3 (by omega)) (by omega)
        rwa [show iter + 1 + k - 1 = iter + (k + 1) - 1 by omega, show iter + 1 + k = iter + (k + 1) by omega] at this

/-- **C75.** When the standard algorithm ends: for all settings and all positions (also on the sphere), the result is that of the first `k` passes
over the given (on the sphere: normalised) centres with `k ≤ max_iter`; none of the passes before the last had a shift below the tolerance, and
if there were fewer passes than `max_iter`, the last one had. -/
theorem kmeans_run_stops {E : Type} [NormedAddCommGroup E] [InnerProductSpace ℝ E] (norm : E → E) (f : Field E) (npatch : ℕ) (maxiter : ℤ) (tol : ℝ)
    (sch : ℕ → Schedule × Schedule) (cen : ℕ → E) :
    ∃ k : ℕ, (k : ℤ) ≤ max maxiter 0 ∧
      kmeansRun norm f npatch maxiter tol false sch cen = some (passes norm npatch f.cells sch (fun i => norm (cen i)) k) ∧
      (∀ i, i + 1 < k → (tol * f.size) ^ 2 * npatch ≤ ∑ q ∈ Finset.range npatch,
        dist (passes norm npatch f.cells sch (fun i => norm (cen i)) i q) (passes norm npatch f.cells sch (fun i => norm (cen i)) (i + 1) q) ^ 2) ∧
      ((k : ℤ) < maxiter → 0 < k ∧ ∑ q ∈ Finset.range npatch,
        dist (passes norm npatch f.cells sch (fun i => norm (cen i)) (k - 1) q) (passes norm npatch f.cells sch (fun i => norm (cen i)) k q) ^ 2 <
          (tol * f.size) ^ 2 * npatch) := by
  have hsh : ∀ a b : ℕ → E, shiftSq npatch a b = ∑ q ∈ Finset.range npatch, dist (a q) (b q) ^ 2 := by
    intro a b
    rw [shiftSq, ← List.sum_toFinset _ (List.nodup_range), List.toFinset_range]
    exact Finset.sum_congr rfl fun q _ => by rw [dist_eq_norm]
  obtain ⟨k, hk, h1, h2, h3, h4⟩ := kmeansLoop_passes norm npatch f.cells ((tol * f.size) * (tol * f.size) * npatch) sch
    (fun i => norm (cen i)) maxiter.toNat 0
  refine ⟨k, by omega, ?_, ?_, ?_⟩
  · rw [Nat.zero_add] at h1
    exact h1
  · intro i hi
    have := h2 i hi
    rw [hsh, Nat.zero_add] at this
    rw [sq]
    linarith
  · intro hlt
    have hk0 := h3 (by omega)
    have := h4 hk0 (by omega)
    rw [hsh, Nat.zero_add] at this
    rw [sq]
    exact ⟨hk0, this⟩

theorem passes_le (A : StdAlg (EuclideanSpace ℝ (Fin d))) (fp : FieldParams) (hm : fp.minsize = 0)
    (rows : List (Obj (EuclideanSpace ℝ (Fin d)))) (hw : ∀ o ∈ rows, 0 ≤ o.w) (hp : ∀ o ∈ rows, o.wpos = o.w)
    (cen : ℕ → EuclideanSpace ℝ (Fin d)) (npatch : ℕ) (hn : 1 ≤ npatch) (sch : ℕ → Schedule × Schedule)
    (hs : ∀ i, (sch i).2.Of (buildField A (euclidGeom d) fp rows).cells.length) :
    Antitone fun k => wcss rows npatch (passes id npatch (buildField A (euclidGeom d) fp rows).cells sch cen k) := by
  refine antitone_nat_of_succ_le fun k => ?_
  beta_reduce
  rw [passes]
  exact pass_le A fp hm rows hw hp (passes id npatch (buildField A (euclidGeom d) fp rows).cells sch cen k) npatch hn (sch k).2 (hs k)

/-- **C75, partial.** `kmeans_refine_centers` with the standard algorithm, flat or 3d positions: whatever the initial centres, `max_iter`, `tol`,
tree (`min_size = 0`) and distribution of the work over threads, the total inertia of the result is at most that of the initial centres.
Missing: as for `kmeans_update_means_partial`; the alternate algorithm. -/
theorem kmeans_refine_inertia_partial (A : StdAlg (EuclideanSpace ℝ (Fin d))) (fp : FieldParams) (hm : fp.minsize = 0)
    (rows : List (Obj (EuclideanSpace ℝ (Fin d)))) (hw : ∀ o ∈ rows, 0 ≤ o.w) (hp : ∀ o ∈ rows, o.wpos = o.w)
    (cen : ℕ → EuclideanSpace ℝ (Fin d)) (npatch : ℕ) (hn : 1 ≤ npatch) (maxiter : ℤ) (tol : ℝ) (sch : ℕ → Schedule × Schedule)
    (hs : ∀ i, (sch i).2.Of (buildField A (euclidGeom d) fp rows).cells.length) :
    ∃ out, kmeansRun id (buildField A (euclidGeom d) fp rows) npatch maxiter tol false sch cen = some out ∧
      wcss rows npatch out ≤ wcss rows npatch cen := by
  obtain ⟨k, -, h, -⟩ := kmeans_run_stops id (buildField A (euclidGeom d) fp rows) npatch maxiter tol sch cen
  refine ⟨_, h, ?_⟩
  have := passes_le A fp hm rows hw hp cen npatch hn sch hs (Nat.zero_le k)
  beta_reduce at this
  rw [passes] at this
  exact this

end
end TreeCorr
