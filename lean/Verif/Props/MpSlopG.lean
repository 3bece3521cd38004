import Verif.Proofs.MpSlopG
import Verif.Props.MpSlop
import Verif.Props.MultipoleGCases

/-! C80 for shear: with any slop the arrays `gam0 … gam3` of the multipole expansion are the sums of the natural components over the
triangles as seen, and these are the same triangles which are counted in `ntri`. -/

namespace TreeCorr
open Classical
variable {P : Type} [PseudoMetricSpace P]

theorem goodViews_of {p : Params} (hp : LogParams p) {ph fac : P → P → ℂ} (h : UnitDir ph) (h' : UnitDir fac) {δ : ℝ}
    {l1 l2 l3 : List (Obj P)} {L : List (View P)} (hv : SeenViews p δ l1 l2 l3 L) : GoodViews ph fac L := by
  intro v hvL m hm
  have near : SeenNear p δ v.1 m := by
    rcases List.mem_append.1 hm with hm | hm
    · exact (hv.sees2 v hvL).1 m hm
    · exact (hv.sees3 v hvL).1 m hm
  obtain ⟨k, hk, -⟩ := near.bin
  have : 0 < m.sep := lt_of_lt_of_le (mul_pos hp.minsep (Real.exp_pos _)) hk.2.2.1
  exact ⟨h _ _ this.ne', h' _ _ this.ne'⟩

/-- The factor which projects a shear on the plane is of modulus one. -/
theorem flat_unitFactor : UnitDir (flatFactor .G) := by
  intro x y h
  obtain ⟨o1, rfl⟩ : ∃ o : Obj (EuclideanSpace ℝ (Fin 2)), o.pos = x := ⟨{ ob 0 0 0 with pos := x }, rfl⟩
  obtain ⟨o2, rfl⟩ : ∃ o : Obj (EuclideanSpace ℝ (Fin 2)), o.pos = y := ⟨{ ob 0 0 0 with pos := y }, rfl⟩
  exact (flat_isProj [o1] [o2]).unit o1 (List.mem_singleton.2 rfl) o2 (List.mem_singleton.2 rfl) h

section
variable {p : Params} {ph fac : P → P → ℂ} {sh : Obj P → ℂ} {wg : Cell P → ℂ} {maxn : ℕ} (hp : LogParams p) (hwg : AddsShear sh wg)
  (hph : UnitDir ph) (hfac : UnitDir fac)
include hp hwg hph hfac

/-- C80, shear, three catalogues in fixed order, any slop. -/
theorem multipoleG_cross123_slop_partial (A1 A2 A3 : StdAlg P) (g : Geom P) (hg : g.Dominates) (fp1 fp2 fp3 : FieldParams) {δ : ℝ}
    (hδ : 0 ≤ δ) (hf1 : fp1.minsize = δ) (hf2 : fp2.minsize = δ) (hf3 : fp3.minsize = δ) (l1 l2 l3 : List (Obj P)) (g1 : Gathered g l1)
    (g2 : Gathered g l2) (g3 : Gathered g l3) :
    ∃ out L, multipoleCross123G p maxn ph fac wg .fixed (buildField A1 g fp1 l1).cells (buildField A2 g fp2 l2).cells
        (buildField A3 g fp3 l3).cells = some out ∧
      SeenViews p δ l1 l2 l3 L ∧ SeenCounts p (seenTriples L) (baseOut out) ∧ SeenMeans p (seenTriples L) (baseOut out) ∧
      SeenLog3 p (seenTriples L) (baseOut out) ∧
      ∀ n : ℤ, n.natAbs ≤ maxn → SeenPhases p ph n (seenTriples L) (baseOut out) ∧ SeenGam p ph fac sh n (seenTriples L) out := by
  obtain ⟨out, L, e, hv, h1, h2, h3, h4, h5⟩ := runG2_seen (ph := ph) (fac := fac) (maxn := maxn) hp hwg hδ false _ _ _
    (field_slopCell A1 g hg fp1 hδ hf1 l1 g1) (field_slopCell A2 g hg fp2 hδ hf2 l2 g2) (field_slopCell A3 g hg fp3 hδ hf3 l3 g3)
  have hs : seenSwap false L = seenTriples L := by simp [seenSwap]
  rw [hs] at h1 h2 h3 h4 h5
  exact ⟨out, L, e, hv.perm (buildField_objs A1 g fp1 l1) (buildField_objs A2 g fp2 l2) (buildField_objs A3 g fp3 l3), h1, h3, h4 rfl,
    fun n hn => ⟨h2 n hn (seenUnit_of hp (.inr hph) hv), h5 (goodViews_of hp hph hfac hv) n hn⟩⟩

/-- C80, shear, three catalogues, the first kept first, any slop. -/
theorem multipoleG_cross123_first_slop_partial (A1 A2 A3 : StdAlg P) (g : Geom P) (hg : g.Dominates) (fp1 fp2 fp3 : FieldParams) {δ : ℝ}
    (hδ : 0 ≤ δ) (hf1 : fp1.minsize = δ) (hf2 : fp2.minsize = δ) (hf3 : fp3.minsize = δ) (l1 l2 l3 : List (Obj P)) (g1 : Gathered g l1)
    (g2 : Gathered g l2) (g3 : Gathered g l3) :
    ∃ out L, multipoleCross123G p maxn ph fac wg .first (buildField A1 g fp1 l1).cells (buildField A2 g fp2 l2).cells
        (buildField A3 g fp3 l3).cells = some out ∧
      SeenViews p δ l1 l2 l3 L ∧ ∃ T, T = seenTriples L + seenTriples (swapViews L) ∧
        SeenCounts p T (baseOut out) ∧ SeenMeans p T (baseOut out) ∧
        ∀ n : ℤ, n.natAbs ≤ maxn → SeenPhases p ph n T (baseOut out) ∧ SeenGam p ph fac sh n T out := by
  obtain ⟨out, L, e, hv, h1, h2, h3, -, h5⟩ := runG2_seen (ph := ph) (fac := fac) (maxn := maxn) hp hwg hδ true _ _ _
    (field_slopCell A1 g hg fp1 hδ hf1 l1 g1) (field_slopCell A2 g hg fp2 hδ hf2 l2 g2) (field_slopCell A3 g hg fp3 hδ hf3 l3 g3)
  exact ⟨out, L, e, hv.perm (buildField_objs A1 g fp1 l1) (buildField_objs A2 g fp2 l2) (buildField_objs A3 g fp3 l3), _, rfl, h1, h3,
    fun n hn => ⟨h2 n hn (seenUnit_of hp (.inr hph) hv), h5 (goodViews_of hp hph hfac hv) n hn⟩⟩

/-- C80, shear, three catalogues, any order, any slop. -/
theorem multipoleG_cross123_unordered_slop_partial (A1 A2 A3 : StdAlg P) (g : Geom P) (hg : g.Dominates) (fp1 fp2 fp3 : FieldParams) {δ : ℝ}
    (hδ : 0 ≤ δ) (hf1 : fp1.minsize = δ) (hf2 : fp2.minsize = δ) (hf3 : fp3.minsize = δ) (l1 l2 l3 : List (Obj P))
    (g1 : Gathered g l1) (g2 : Gathered g l2) (g3 : Gathered g l3) :
    ∃ out L1 L2 L3, multipoleCross123G p maxn ph fac wg .any (buildField A1 g fp1 l1).cells (buildField A2 g fp2 l2).cells
        (buildField A3 g fp3 l3).cells = some out ∧
      SeenViews p δ l1 l2 l3 L1 ∧ SeenViews p δ l2 l1 l3 L2 ∧ SeenViews p δ l3 l1 l2 L3 ∧
      ∃ T, T = (seenTriples L2 + seenTriples (swapViews L2)) + ((seenTriples L3 + seenTriples (swapViews L3)) +
          (seenTriples L1 + seenTriples (swapViews L1))) ∧
        SeenCounts p T (baseOut out) ∧ SeenMeans p T (baseOut out) ∧
        ∀ n : ℤ, n.natAbs ≤ maxn → SeenPhases p ph n T (baseOut out) ∧ SeenGam p ph fac sh n T out := by
  have q1 := field_slopCell A1 g hg fp1 hδ hf1 l1 g1
  have q2 := field_slopCell A2 g hg fp2 hδ hf2 l2 g2
  have q3 := field_slopCell A3 g hg fp3 hδ hf3 l3 g3
  have e1 := buildField_objs A1 g fp1 l1
  have e2 := buildField_objs A2 g fp2 l2
  have e3 := buildField_objs A3 g fp3 l3
  have u := fun {l1 l2 l3 : List (Obj P)} {L} (h : SeenViews p δ l1 l2 l3 L) => goodViews_of hp hph hfac h
  have w := fun n {l1 l2 l3 : List (Obj P)} {L} (h : SeenViews p δ l1 l2 l3 L) => seenUnit_of (n := n) hp (.inr hph) h
  obtain ⟨a, La, ea, va, a1, a2, a3, -, a5⟩ := runG2_seen (ph := ph) (fac := fac) (maxn := maxn) hp hwg hδ true _ _ _ q2 q1 q3
  obtain ⟨b, Lb, eb, vb, b1, b2, b3, -, b5⟩ := runG2_seen (ph := ph) (fac := fac) (maxn := maxn) hp hwg hδ true _ _ _ q3 q1 q2
  obtain ⟨c, Lc, ec, vc, c1, c2, c3, -, c5⟩ := runG2_seen (ph := ph) (fac := fac) (maxn := maxn) hp hwg hδ true _ _ _ q1 q2 q3
  refine ⟨a ++ (b ++ c), Lc, La, Lb, by simp only [multipoleCross123G, ea, eb, ec], vc.perm e1 e2 e3, va.perm e2 e1 e3,
    vb.perm e3 e1 e2, _, rfl, ?_, ?_, fun n hn => ⟨?_, (a5 (u va) n hn).append ((b5 (u vb) n hn).append (c5 (u vc) n hn))⟩⟩
  all_goals rw [base_append, base_append]
  · exact a1.append (b1.append c1)
  · exact a3.append (b3.append c3)
  · exact (a2 n hn (w n va)).append ((b2 n hn (w n vb)).append (c2 n hn (w n vc)))

/-- C80, shear, two catalogues, the first kept first, any slop, if `min_size` is 0 and no two rows of the second catalogue are in one
place. -/
theorem multipoleG_cross12_apart_slop_partial (A1 A2 : StdAlg P) (g : Geom P) (hg : g.Dominates) (fp1 fp2 : FieldParams)
    (hf1 : fp1.minsize = 0) (hf2 : fp2.minsize = 0) (l1 l2 : List (Obj P)) (g1 : Gathered g l1) (g2 : Gathered g l2) (ha : Apart l2) :
    ∃ out L, multipoleCross12G p maxn ph fac wg true (buildField A1 g fp1 l1).cells (buildField A2 g fp2 l2).cells = some out ∧
      SeenViews p 0 l1 l2 [] L ∧ SeenCounts p (seenPairs L) (baseOut out) ∧ SeenMeans p (seenPairs L) (baseOut out) ∧
      SeenLog3 p (seenPairs L) (baseOut out) ∧
      ∀ n : ℤ, n.natAbs ≤ maxn → SeenPhases p ph n (seenPairs L) (baseOut out) ∧ SeenGam p ph fac sh n (seenPairs L) out := by
  obtain ⟨out, L, e, hv, h1, h2, h3, h4, h5⟩ := runG_seen (ph := ph) (fac := fac) (maxn := maxn) hp hwg le_rfl _ _
    (field_slopCell A1 g hg fp1 le_rfl hf1 l1 g1) (field_slopApart A2 g hg fp2 hf2 l2 g2 ha)
  exact ⟨out, L, by simp [multipoleCross12G, e],
    hv.perm (buildField_objs A1 g fp1 l1) (buildField_objs A2 g fp2 l2) (.refl _), h1, h3, h4,
    fun n hn => ⟨h2 n hn (seenUnit_of hp (.inr hph) hv), h5 (goodViews_of hp hph hfac hv) n hn⟩⟩

/-- C80, shear, two catalogues, any order, any slop, if `min_size` is 0 and no two rows of the second catalogue are in one place. -/
theorem multipoleG_cross12_unordered_apart_slop_partial (A1 A2 : StdAlg P) (g : Geom P) (hg : g.Dominates) (fp1 fp2 : FieldParams)
    (hf1 : fp1.minsize = 0) (hf2 : fp2.minsize = 0) (l1 l2 : List (Obj P)) (g1 : Gathered g l1) (g2 : Gathered g l2) (ha : Apart l2) :
    ∃ out L1 L2, multipoleCross12G p maxn ph fac wg false (buildField A1 g fp1 l1).cells (buildField A2 g fp2 l2).cells = some out ∧
      SeenViews p 0 l1 l2 [] L1 ∧ SeenViews p 0 l2 l1 l2 L2 ∧
      ∃ T, T = (seenTriples L2 + seenTriples (swapViews L2)) + seenPairs L1 ∧
        SeenCounts p T (baseOut out) ∧ SeenMeans p T (baseOut out) ∧
        ∀ n : ℤ, n.natAbs ≤ maxn → SeenPhases p ph n T (baseOut out) ∧ SeenGam p ph fac sh n T out := by
  have q1 := field_slopCell A1 g hg fp1 le_rfl hf1 l1 g1
  have q2 := field_slopCell A2 g hg fp2 le_rfl hf2 l2 g2
  have e1 := buildField_objs A1 g fp1 l1
  have e2 := buildField_objs A2 g fp2 l2
  obtain ⟨a, La, ea, va, a1, a2, a3, -, a5⟩ := runG2_seen (ph := ph) (fac := fac) (maxn := maxn) hp hwg le_rfl true _ _ _ q2 q1 q2
  obtain ⟨b, Lb, eb, vb, b1, b2, b3, -, b5⟩ := runG_seen (ph := ph) (fac := fac) (maxn := maxn) hp hwg le_rfl _ _ q1
    (field_slopApart A2 g hg fp2 hf2 l2 g2 ha)
  refine ⟨a ++ b, Lb, La, by simp only [multipoleCross12G, Bool.false_eq_true, if_false, ea, eb], vb.perm e1 e2 (.refl _),
    va.perm e2 e1 e2, _, rfl, ?_, ?_, fun n hn => ⟨?_, (a5 (goodViews_of hp hph hfac va) n hn).append
      (b5 (goodViews_of hp hph hfac vb) n hn)⟩⟩
  all_goals rw [base_append]
  · exact a1.append b1
  · exact a3.append b3
  · exact (a2 n hn (seenUnit_of hp (.inr hph) va)).append (b2 n hn (seenUnit_of hp (.inr hph) vb))

/-- C80, shear, one catalogue, any slop, if `min_size` is 0 and no two rows are in one place. -/
theorem multipoleG_auto_apart_slop_partial (A : StdAlg P) (g : Geom P) (hg : g.Dominates) (fp : FieldParams)
    (hf : fp.minsize = 0) (l : List (Obj P)) (gl : Gathered g l) (ha : Apart l) :
    ∃ out L, multipoleAutoG p maxn ph fac wg (buildField A g fp l).cells = some out ∧
      SeenViews p 0 l l [] L ∧ SeenCounts p (seenPairs L) (baseOut out) ∧ SeenMeans p (seenPairs L) (baseOut out) ∧
      SeenLog3 p (seenPairs L) (baseOut out) ∧
      ∀ n : ℤ, n.natAbs ≤ maxn → SeenPhases p ph n (seenPairs L) (baseOut out) ∧ SeenGam p ph fac sh n (seenPairs L) out := by
  obtain ⟨out, L, e, hv, h1, h2, h3, h4, h5⟩ := runG_seen (ph := ph) (fac := fac) (maxn := maxn) hp hwg le_rfl _ _
    (field_slopCell A g hg fp le_rfl hf l gl) (field_slopApart A g hg fp hf l gl ha)
  exact ⟨out, L, e, hv.perm (buildField_objs A g fp l) (buildField_objs A g fp l) (.refl _), h1, h3, h4,
    fun n hn => ⟨h2 n hn (seenUnit_of hp (.inr hph) hv), h5 (goodViews_of hp hph hfac hv) n hn⟩⟩

end

/-! ### Cases -/

/-- Any flat shear catalogues of non-negative position weights, `bin_slop = 1/10`, automatic tree sizes. -/
example (sh : Obj (EuclideanSpace ℝ (Fin 2)) → ℂ) (l1 l2 l3 : List (Obj (EuclideanSpace ℝ (Fin 2)))) (h1 : ∀ o ∈ l1, 0 ≤ o.wpos)
    (h2 : ∀ o ∈ l2, 0 ≤ o.wpos) (h3 : ∀ o ∈ l3, 0 ≤ o.wpos) :=
  multipoleG_cross123_slop_partial (ph := flatPhase dist) (fac := flatFactor .G) (sh := sh) (wg := simpleSum sh) (maxn := 5) exSlop2_ok
    (fun _ => rfl) flat_unitDir flat_unitFactor (sortAlg _ 0) (sortAlg _ 0) (sortAlg _ 0) (euclidGeom 2)
    (euclidGeom_dominates 2) (autoFp (logMinMaxSize exSlop2)) (autoFp (logMinMaxSize exSlop2)) (autoFp (logMinMaxSize exSlop2))
    (δ := (logMinMaxSize exSlop2).1) (by norm_num [logMinMaxSize, exSlop2]) rfl rfl rfl l1 l2 l3 (gathered_flat 2 l1 h1)
    (gathered_flat 2 l2 h2) (gathered_flat 2 l3 h3)

example (sh : Obj (EuclideanSpace ℝ (Fin 2)) → ℂ) (l : List (Obj (EuclideanSpace ℝ (Fin 2)))) (h : ∀ o ∈ l, 0 ≤ o.wpos) (ha : Apart l) :=
  multipoleG_auto_apart_slop_partial (ph := flatPhase dist) (fac := flatFactor .G) (sh := sh) (wg := simpleSum sh) (maxn := 5) exSlop2_ok
    (fun _ => rfl) flat_unitDir flat_unitFactor (sortAlg _ 0) (euclidGeom 2) (euclidGeom_dominates 2) exFp rfl l (gathered_flat 2 l h) ha

end TreeCorr
