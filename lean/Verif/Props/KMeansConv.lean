import Verif.Proofs.KMeansConv
import Verif.Props.KMeansRun

/-!
C75: the iterations of k-means come to rest.
-/

namespace TreeCorr
open Classical List KMeans
noncomputable section
variable {d : ℕ}

/-- **C75, partial.** The passes of the standard algorithm (flat or 3d positions, `min_size = 0`) come to rest: whatever the initial centres, tree and
distributions of the work over threads, there is a number of passes after which no centre moves any more, and then every centre is the mean of
rows that are nearest to it, all rows being divided up in this way, or the origin if it has none with weight.
Missing: as for `kmeans_update_means_partial`. -/
theorem kmeans_rests_partial (A : StdAlg (EuclideanSpace ℝ (Fin d))) (fp : FieldParams) (hm : fp.minsize = 0)
    (rows : List (Obj (EuclideanSpace ℝ (Fin d)))) (hw : ∀ o ∈ rows, 0 ≤ o.w) (hp : ∀ o ∈ rows, o.wpos = o.w)
    (cen : ℕ → EuclideanSpace ℝ (Fin d)) (npatch : ℕ) (hn : 1 ≤ npatch) (sch : ℕ → Schedule × Schedule)
    (hs : ∀ i, (sch i).2.Of (buildField A (euclidGeom d) fp rows).cells.length) :
    ∃ K, (∀ s ≥ K, ∀ q < npatch, passes id npatch (buildField A (euclidGeom d) fp rows).cells sch cen s q =
        passes id npatch (buildField A (euclidGeom d) fp rows).cells sch cen K q) ∧
      ∃ L, NearestDivision rows npatch (passes id npatch (buildField A (euclidGeom d) fp rows).cells sch cen K) L ∧
        ∀ q < npatch, passes id npatch (buildField A (euclidGeom d) fp rows).cells sch cen K q = if 0 < patchWeight L q then patchMean L q else 0 := by
  have h := fun t => kmeans_update_means_partial A fp hm rows hw hp
    (passes id npatch (buildField A (euclidGeom d) fp rows).cells sch cen t) npatch hn (sch t).2 (hs t)
  choose L hL hu using h
  have hc : ∀ t q, passes id npatch (buildField A (euclidGeom d) fp rows).cells sch cen (t + 1) q = meanOr (L t) q := by
    intro t q
    rw [passes, hu t q, meanOr]
  obtain ⟨K, hK⟩ := lloyd_rests hw _ L hL hc
  refine ⟨K, hK, L K, hL K, fun q hq => ?_⟩
  rw [← hK (K + 1) (by omega) q hq, hc, meanOr]

/-- **C75, partial.** With a positive tolerance and a field of positive size, the standard algorithm ends by convergence if `max_iter` is large enough:
there is a number `K`, independent of `max_iter`, such that at most `K` passes are made. -/
theorem kmeans_converges_partial (A : StdAlg (EuclideanSpace ℝ (Fin d))) (fp : FieldParams) (hm : fp.minsize = 0)
    (rows : List (Obj (EuclideanSpace ℝ (Fin d)))) (hw : ∀ o ∈ rows, 0 ≤ o.w) (hp : ∀ o ∈ rows, o.wpos = o.w)
    (cen : ℕ → EuclideanSpace ℝ (Fin d)) (npatch : ℕ) (hn : 1 ≤ npatch) (tol : ℝ) (htol : 0 < tol)
    (hsize : 0 < (buildField A (euclidGeom d) fp rows).size) (sch : ℕ → Schedule × Schedule)
    (hs : ∀ i, (sch i).2.Of (buildField A (euclidGeom d) fp rows).cells.length) :
    ∃ K, ∀ maxiter : ℤ, ∃ k ≤ K, kmeansRun id (buildField A (euclidGeom d) fp rows) npatch maxiter tol false sch cen =
        some (passes id npatch (buildField A (euclidGeom d) fp rows).cells sch cen k) ∧
      ((K : ℤ) < maxiter → ∑ q ∈ Finset.range npatch, dist (passes id npatch (buildField A (euclidGeom d) fp rows).cells sch cen (k - 1) q)
          (passes id npatch (buildField A (euclidGeom d) fp rows).cells sch cen k q) ^ 2 <
        (tol * (buildField A (euclidGeom d) fp rows).size) ^ 2 * npatch) := by
  obtain ⟨K, hK, -⟩ := kmeans_rests_partial A fp hm rows hw hp cen npatch hn sch hs
  refine ⟨K + 1, fun maxiter => ?_⟩
  obtain ⟨k, -, h1, h2, h3⟩ := kmeans_run_stops id (buildField A (euclidGeom d) fp rows) npatch maxiter tol sch cen
  have hkK : k ≤ K + 1 := by
    by_contra hlt
    have := h2 K (by omega)
    rw [Finset.sum_eq_zero fun q hq => ?_] at this
    · have hpos : 0 < (tol * (buildField A (euclidGeom d) fp rows).size) ^ 2 * npatch := by
        have : (0 : ℝ) < npatch := by exact_mod_cast hn
        positivity
      linarith
    · have := hK (K + 1) (by omega) q (Finset.mem_range.1 hq)
      simp only [id] at this ⊢
      rw [this, dist_self]
      norm_num
  exact ⟨k, hkK, h1, fun hlt => (h3 (by omega)).2⟩

end
end TreeCorr
