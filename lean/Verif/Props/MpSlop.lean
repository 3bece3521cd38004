import Verif.Proofs.MpClear
import Verif.Props.MultipoleCases
import Verif.Props.Slop

/-! C80, the multipole expansion with any `bin_slop` and `angle_slop`: the multipole arrays are exact sums over the triangles as seen, where every row of the first
catalogue sees every row of the others once, in a bin the true separation is near to, or else the row is outside the range. -/

namespace TreeCorr
open Classical
variable {P : Type} [PseudoMetricSpace P]

/-- The direction between points that are not in one place is of modulus one. -/
def UnitDir (ph : P → P → ℂ) : Prop := ∀ x y, dist x y ≠ 0 → Complex.normSq (ph x y) = 1

theorem seenUnit_of {p : Params} (hp : LogParams p) {ph : P → P → ℂ} {n : ℤ} (h : n = 0 ∨ UnitDir ph) {δ : ℝ}
    {l1 l2 l3 : List (Obj P)} {L : List (View P)} (hv : SeenViews p δ l1 l2 l3 L) : SeenUnit ph n L := by
  refine h.imp id fun h v hvL m hm => h _ _ ?_
  have near : SeenNear p δ v.1 m := by
    rcases List.mem_append.1 hm with hm | hm
    · exact (hv.sees2 v hvL).1 m hm
    · exact (hv.sees3 v hvL).1 m hm
  obtain ⟨k, hk, -⟩ := near.bin
  have : 0 < m.sep := lt_of_lt_of_le (mul_pos hp.minsep (Real.exp_pos _)) hk.2.2.1
  exact this.ne'

theorem flat_unitDir : UnitDir (flatPhase dist) := by
  intro x y h
  obtain ⟨o1, rfl⟩ : ∃ o : Obj (EuclideanSpace ℝ (Fin 2)), o.pos = x := ⟨{ ob 0 0 0 with pos := x }, rfl⟩
  obtain ⟨o2, rfl⟩ : ∃ o : Obj (EuclideanSpace ℝ (Fin 2)), o.pos = y := ⟨{ ob 0 0 0 with pos := y }, rfl⟩
  exact (flat_isPhase [o1] [o2]).unit o1 (List.mem_singleton.2 rfl) o2 (List.mem_singleton.2 rfl) h

section
variable {p : Params} {ph : P → P → ℂ} {maxn : ℕ} (hp : LogParams p)
include hp

/-- C80, three catalogues in fixed order, any slop. -/
theorem multipole_cross123_slop (A1 A2 A3 : StdAlg P) (g : Geom P) (hg : g.Dominates) (fp1 fp2 fp3 : FieldParams) {δ : ℝ} (hδ : 0 ≤ δ)
    (hf1 : fp1.minsize = δ) (hf2 : fp2.minsize = δ) (hf3 : fp3.minsize = δ) (l1 l2 l3 : List (Obj P)) (g1 : Gathered g l1)
    (g2 : Gathered g l2) (g3 : Gathered g l3) :
    ∃ out L, multipoleCross123 p maxn ph .fixed (buildField A1 g fp1 l1).cells (buildField A2 g fp2 l2).cells
        (buildField A3 g fp3 l3).cells = some out ∧
      SeenViews p δ l1 l2 l3 L ∧ SeenCounts p (seenTriples L) out ∧
      (∀ n : ℤ, n.natAbs ≤ maxn → (n = 0 ∨ UnitDir ph) → SeenPhases p ph n (seenTriples L) out) ∧
      SeenMeans p (seenTriples L) out ∧ SeenLog3 p (seenTriples L) out := by
  obtain ⟨out, L, e, hv, h1, h2, h3, h4⟩ := run2_seen (ph := ph) (maxn := maxn) hp hδ false _ _ _ (field_slopCell A1 g hg fp1 hδ hf1 l1 g1)
    (field_slopCell A2 g hg fp2 hδ hf2 l2 g2) (field_slopCell A3 g hg fp3 hδ hf3 l3 g3)
  have hs : seenSwap false L = seenTriples L := by simp [seenSwap]
  rw [hs] at h1 h2 h3 h4
  exact ⟨out, L, e, hv.perm (buildField_objs A1 g fp1 l1) (buildField_objs A2 g fp2 l2) (buildField_objs A3 g fp3 l3), h1,
    fun n hn hu => h2 n hn (seenUnit_of hp hu hv), h3, h4 rfl⟩

/-- C80, three catalogues, the first kept first, any slop. -/
theorem multipole_cross123_first_slop_partial (A1 A2 A3 : StdAlg P) (g : Geom P) (hg : g.Dominates) (fp1 fp2 fp3 : FieldParams) {δ : ℝ}
    (hδ : 0 ≤ δ) (hf1 : fp1.minsize = δ) (hf2 : fp2.minsize = δ) (hf3 : fp3.minsize = δ) (l1 l2 l3 : List (Obj P))
    (g1 : Gathered g l1) (g2 : Gathered g l2) (g3 : Gathered g l3) :
    ∃ out L, multipoleCross123 p maxn ph .first (buildField A1 g fp1 l1).cells (buildField A2 g fp2 l2).cells
        (buildField A3 g fp3 l3).cells = some out ∧
      SeenViews p δ l1 l2 l3 L ∧ SeenCounts p (seenTriples L + seenTriples (swapViews L)) out ∧
      (∀ n : ℤ, n.natAbs ≤ maxn → (n = 0 ∨ UnitDir ph) → SeenPhases p ph n (seenTriples L + seenTriples (swapViews L)) out) ∧
      SeenMeans p (seenTriples L + seenTriples (swapViews L)) out := by
  obtain ⟨out, L, e, hv, h1, h2, h3, -⟩ := run2_seen (ph := ph) (maxn := maxn) hp hδ true _ _ _ (field_slopCell A1 g hg fp1 hδ hf1 l1 g1)
    (field_slopCell A2 g hg fp2 hδ hf2 l2 g2) (field_slopCell A3 g hg fp3 hδ hf3 l3 g3)
  exact ⟨out, L, e, hv.perm (buildField_objs A1 g fp1 l1) (buildField_objs A2 g fp2 l2) (buildField_objs A3 g fp3 l3), h1,
    fun n hn hu => h2 n hn (seenUnit_of hp hu hv), h3⟩

/-- C80, two catalogues, the first kept first, any slop: the number of triangles. -/
theorem multipole_cross12_slop_partial (A1 A2 : StdAlg P) (g : Geom P) (hg : g.Dominates) (fp1 fp2 : FieldParams) {δ : ℝ} (hδ : 0 ≤ δ)
    (hf1 : fp1.minsize = δ) (hf2 : fp2.minsize = δ) (l1 l2 : List (Obj P)) (g1 : Gathered g l1) (g2 : Gathered g l2) :
    ∃ out L, multipoleCross12 p maxn ph true (buildField A1 g fp1 l1).cells (buildField A2 g fp2 l2).cells = some out ∧
      SeenViews p δ l1 l2 [] L ∧ SeenCounts p (seenPairs L) out := by
  obtain ⟨out, L, e, hv, h1⟩ := run_seen (ph := ph) (maxn := maxn) hp hδ _ _ (field_slopCell A1 g hg fp1 hδ hf1 l1 g1)
    (field_slopCell A2 g hg fp2 hδ hf2 l2 g2)
  exact ⟨out, L, by simp [multipoleCross12, e],
    hv.perm (buildField_objs A1 g fp1 l1) (buildField_objs A2 g fp2 l2) (.refl _), h1⟩

/-- C80, two catalogues, the first kept first, any slop: all the arrays, if `min_size` is 0 and no two rows of the second catalogue are in
one place. -/
theorem multipole_cross12_apart_slop_partial (A1 A2 : StdAlg P) (g : Geom P) (hg : g.Dominates) (fp1 fp2 : FieldParams)
    (hf1 : fp1.minsize = 0) (hf2 : fp2.minsize = 0) (l1 l2 : List (Obj P)) (g1 : Gathered g l1) (g2 : Gathered g l2) (ha : Apart l2) :
    ∃ out L, multipoleCross12 p maxn ph true (buildField A1 g fp1 l1).cells (buildField A2 g fp2 l2).cells = some out ∧
      SeenViews p 0 l1 l2 [] L ∧ SeenCounts p (seenPairs L) out ∧
      (∀ n : ℤ, n.natAbs ≤ maxn → (n = 0 ∨ UnitDir ph) → SeenPhases p ph n (seenPairs L) out) ∧
      SeenMeans p (seenPairs L) out ∧ SeenLog3 p (seenPairs L) out := by
  obtain ⟨out, L, e, hv, h1, h2, h3, h4⟩ := run_seen_apart (ph := ph) (maxn := maxn) hp le_rfl _ _
    (field_slopCell A1 g hg fp1 le_rfl hf1 l1 g1) (field_slopApart A2 g hg fp2 hf2 l2 g2 ha)
  exact ⟨out, L, by simp [multipoleCross12, e],
    hv.perm (buildField_objs A1 g fp1 l1) (buildField_objs A2 g fp2 l2) (.refl _), h1,
    fun n hn hu => h2 n hn (seenUnit_of hp hu hv), h3, h4⟩

/-- C80, one catalogue, any slop: the number of triangles. -/
theorem multipole_auto_slop_partial (A : StdAlg P) (g : Geom P) (hg : g.Dominates) (fp : FieldParams) {δ : ℝ} (hδ : 0 ≤ δ)
    (hf : fp.minsize = δ) (l : List (Obj P)) (gl : Gathered g l) :
    ∃ out L, multipoleAuto p maxn ph (buildField A g fp l).cells = some out ∧
      SeenViews p δ l l [] L ∧ SeenCounts p (seenPairs L) out := by
  obtain ⟨out, L, e, hv, h1⟩ := run_seen (ph := ph) (maxn := maxn) hp hδ _ _ (field_slopCell A g hg fp hδ hf l gl)
    (field_slopCell A g hg fp hδ hf l gl)
  exact ⟨out, L, e, hv.perm (buildField_objs A g fp l) (buildField_objs A g fp l) (.refl _), h1⟩

/-- C80, one catalogue, any slop: all the arrays, if `min_size` is 0 and no two rows are in one place. -/
theorem multipole_auto_apart_slop_partial (A : StdAlg P) (g : Geom P) (hg : g.Dominates) (fp : FieldParams)
    (hf : fp.minsize = 0) (l : List (Obj P)) (gl : Gathered g l) (ha : Apart l) :
    ∃ out L, multipoleAuto p maxn ph (buildField A g fp l).cells = some out ∧
      SeenViews p 0 l l [] L ∧ SeenCounts p (seenPairs L) out ∧
      (∀ n : ℤ, n.natAbs ≤ maxn → (n = 0 ∨ UnitDir ph) → SeenPhases p ph n (seenPairs L) out) ∧
      SeenMeans p (seenPairs L) out ∧ SeenLog3 p (seenPairs L) out := by
  obtain ⟨out, L, e, hv, h1, h2, h3, h4⟩ := run_seen_apart (ph := ph) (maxn := maxn) hp le_rfl _ _
    (field_slopCell A g hg fp le_rfl hf l gl) (field_slopApart A g hg fp hf l gl ha)
  exact ⟨out, L, e, hv.perm (buildField_objs A g fp l) (buildField_objs A g fp l) (.refl _), h1,
    fun n hn hu => h2 n hn (seenUnit_of hp hu hv), h3, h4⟩

/-- C80, three catalogues, any order, any slop: three sets of views, one for each catalogue in the first place. -/
theorem multipole_cross123_unordered_slop_partial (A1 A2 A3 : StdAlg P) (g : Geom P) (hg : g.Dominates) (fp1 fp2 fp3 : FieldParams) {δ : ℝ}
    (hδ : 0 ≤ δ) (hf1 : fp1.minsize = δ) (hf2 : fp2.minsize = δ) (hf3 : fp3.minsize = δ) (l1 l2 l3 : List (Obj P))
    (g1 : Gathered g l1) (g2 : Gathered g l2) (g3 : Gathered g l3) :
    ∃ out L1 L2 L3, multipoleCross123 p maxn ph .any (buildField A1 g fp1 l1).cells (buildField A2 g fp2 l2).cells
        (buildField A3 g fp3 l3).cells = some out ∧
      SeenViews p δ l1 l2 l3 L1 ∧ SeenViews p δ l2 l1 l3 L2 ∧ SeenViews p δ l3 l1 l2 L3 ∧
      ∃ T, T = (seenTriples L2 + seenTriples (swapViews L2)) + ((seenTriples L3 + seenTriples (swapViews L3)) +
          (seenTriples L1 + seenTriples (swapViews L1))) ∧
        SeenCounts p T out ∧ (∀ n : ℤ, n.natAbs ≤ maxn → (n = 0 ∨ UnitDir ph) → SeenPhases p ph n T out) ∧ SeenMeans p T out := by
  have q1 := field_slopCell A1 g hg fp1 hδ hf1 l1 g1
  have q2 := field_slopCell A2 g hg fp2 hδ hf2 l2 g2
  have q3 := field_slopCell A3 g hg fp3 hδ hf3 l3 g3
  have e1 := buildField_objs A1 g fp1 l1
  have e2 := buildField_objs A2 g fp2 l2
  have e3 := buildField_objs A3 g fp3 l3
  obtain ⟨a, La, ea, va, a1, a2, a3, -⟩ := run2_seen (ph := ph) (maxn := maxn) hp hδ true _ _ _ q2 q1 q3
  obtain ⟨b, Lb, eb, vb, b1, b2, b3, -⟩ := run2_seen (ph := ph) (maxn := maxn) hp hδ true _ _ _ q3 q1 q2
  obtain ⟨c, Lc, ec, vc, c1, c2, c3, -⟩ := run2_seen (ph := ph) (maxn := maxn) hp hδ true _ _ _ q1 q2 q3
  exact ⟨a ++ (b ++ c), Lc, La, Lb, by simp only [multipoleCross123, ea, eb, ec], vc.perm e1 e2 e3, va.perm e2 e1 e3, vb.perm e3 e1 e2,
    _, rfl, a1.append (b1.append c1), fun n hn hu => (a2 n hn (seenUnit_of hp hu va)).append ((b2 n hn (seenUnit_of hp hu vb)).append
      (c2 n hn (seenUnit_of hp hu vc))), a3.append (b3.append c3)⟩

/-- C80, two catalogues, any order, any slop: the number of triangles, with the row of the first catalogue in any place. -/
theorem multipole_cross12_unordered_slop_partial (A1 A2 : StdAlg P) (g : Geom P) (hg : g.Dominates) (fp1 fp2 : FieldParams) {δ : ℝ}
    (hδ : 0 ≤ δ) (hf1 : fp1.minsize = δ) (hf2 : fp2.minsize = δ) (l1 l2 : List (Obj P)) (g1 : Gathered g l1) (g2 : Gathered g l2) :
    ∃ out L1 L2, multipoleCross12 p maxn ph false (buildField A1 g fp1 l1).cells (buildField A2 g fp2 l2).cells = some out ∧
      SeenViews p δ l1 l2 [] L1 ∧ SeenViews p δ l2 l1 l2 L2 ∧
      SeenCounts p ((seenTriples L2 + seenTriples (swapViews L2)) + seenPairs L1) out := by
  have q1 := field_slopCell A1 g hg fp1 hδ hf1 l1 g1
  have q2 := field_slopCell A2 g hg fp2 hδ hf2 l2 g2
  have e1 := buildField_objs A1 g fp1 l1
  have e2 := buildField_objs A2 g fp2 l2
  obtain ⟨a, La, ea, va, a1, -⟩ := run2_seen (ph := ph) (maxn := maxn) hp hδ true _ _ _ q2 q1 q2
  obtain ⟨b, Lb, eb, vb, b1⟩ := run_seen (ph := ph) (maxn := maxn) hp hδ _ _ q1 q2
  exact ⟨a ++ b, Lb, La, by simp only [multipoleCross12, Bool.false_eq_true, if_false, ea, eb], vb.perm e1 e2 (.refl _),
    va.perm e2 e1 e2, a1.append b1⟩

/-- C80, two catalogues, any order, any slop: all the arrays but `meanlogd3`, if `min_size` is 0 and no two rows of the second catalogue
are in one place. -/
theorem multipole_cross12_unordered_apart_slop_partial (A1 A2 : StdAlg P) (g : Geom P) (hg : g.Dominates) (fp1 fp2 : FieldParams)
    (hf1 : fp1.minsize = 0) (hf2 : fp2.minsize = 0) (l1 l2 : List (Obj P)) (g1 : Gathered g l1) (g2 : Gathered g l2) (ha : Apart l2) :
    ∃ out L1 L2, multipoleCross12 p maxn ph false (buildField A1 g fp1 l1).cells (buildField A2 g fp2 l2).cells = some out ∧
      SeenViews p 0 l1 l2 [] L1 ∧ SeenViews p 0 l2 l1 l2 L2 ∧
      ∃ T, T = (seenTriples L2 + seenTriples (swapViews L2)) + seenPairs L1 ∧
        SeenCounts p T out ∧ (∀ n : ℤ, n.natAbs ≤ maxn → (n = 0 ∨ UnitDir ph) → SeenPhases p ph n T out) ∧ SeenMeans p T out := by
  have q1 := field_slopCell A1 g hg fp1 le_rfl hf1 l1 g1
  have q2 := field_slopCell A2 g hg fp2 le_rfl hf2 l2 g2
  have e1 := buildField_objs A1 g fp1 l1
  have e2 := buildField_objs A2 g fp2 l2
  obtain ⟨a, La, ea, va, a1, a2, a3, -⟩ := run2_seen (ph := ph) (maxn := maxn) hp le_rfl true _ _ _ q2 q1 q2
  obtain ⟨b, Lb, eb, vb, b1, b2, b3, -⟩ := run_seen_apart (ph := ph) (maxn := maxn) hp le_rfl _ _ q1
    (field_slopApart A2 g hg fp2 hf2 l2 g2 ha)
  exact ⟨a ++ b, Lb, La, by simp only [multipoleCross12, Bool.false_eq_true, if_false, ea, eb], vb.perm e1 e2 (.refl _),
    va.perm e2 e1 e2, _, rfl, a1.append b1, fun n hn hu => (a2 n hn (seenUnit_of hp hu va)).append (b2 n hn (seenUnit_of hp hu vb)),
    a3.append b3⟩

/-- C80: with any slop, three catalogues whose separations from the rows of the first are clear of the edges of the bins are counted
exactly, and `weight` and `zeta` of index 0 are exact. -/
theorem multipole_cross123_clear_partial (A1 A2 A3 : StdAlg P) (g : Geom P) (hg : g.Dominates) (fp1 fp2 fp3 : FieldParams)
    (hf1 : fp1.minsize = 0) (hf2 : fp2.minsize = 0) (hf3 : fp3.minsize = 0) (l1 l2 l3 : List (Obj P)) (g1 : Gathered g l1)
    (g2 : Gathered g l2) (g3 : Gathered g l3) (hc2 : ∀ o ∈ l1, ∀ x ∈ l2, ClearLog p (dist o.pos x.pos))
    (hc3 : ∀ o ∈ l1, ∀ x ∈ l3, ClearLog p (dist o.pos x.pos)) :
    ∃ out, multipoleCross123 p maxn ph .fixed (buildField A1 g fp1 l1).cells (buildField A2 g fp2 l2).cells
        (buildField A3 g fp3 l3).cells = some out ∧
      MpCounts p (crossTriples l1 l2 l3) out ∧ MpPhases p ph 0 (crossTriples l1 l2 l3) out := by
  obtain ⟨out, L, e, hv, h1, h2, -⟩ := multipole_cross123_slop (ph := ph) (maxn := maxn) hp A1 A2 A3 g hg fp1 fp2 fp3 le_rfl hf1 hf2 hf3
    l1 l2 l3 g1 g2 g3
  obtain ⟨c1, c2⟩ := clear_holds (p := p) (ph := ph) (S := seenTriples L) (T := crossTriples l1 l2 l3) (out := out)
    fun K _ k2 k3 g1 a b => seenTriples_clear hp hv hc2 hc3 g1 a b
  exact ⟨out, e, c1 h1, c2 (h2 0 (by simp) (.inl rfl))⟩

/-- C80: the same for one catalogue. -/
theorem multipole_auto_clear_partial (A : StdAlg P) (g : Geom P) (hg : g.Dominates) (fp : FieldParams) (hf : fp.minsize = 0)
    (l : List (Obj P)) (gl : Gathered g l) (hc : ∀ o ∈ l, ∀ x ∈ l, ClearLog p (dist o.pos x.pos)) :
    ∃ out, multipoleAuto p maxn ph (buildField A g fp l).cells = some out ∧ MpCounts p (orderedTriples l) out ∧
      (Apart l → MpPhases p ph 0 (orderedTriples l) out) := by
  have hT : ∀ k2 k3, (cross12Triples l l).filter (InSides p k2 k3) = (orderedTriples l).filter (InSides p k2 k3) :=
    fun k2 k3 => ordered_filter l _ (InSides.ne1 hp) (InSides.ne2 hp)
  obtain ⟨out, L, e, hv, h1⟩ := multipole_auto_slop_partial (ph := ph) (maxn := maxn) hp A g hg fp le_rfl hf l gl
  have c := clear_holds (p := p) (ph := ph) (S := seenPairs L) (T := cross12Triples l l) (out := out)
    fun K _ k2 k3 g1 a b => seenPairs_clear hp hv hc g1 a b
  refine ⟨out, e, (c.1 h1).congr hT, fun ha => ?_⟩
  obtain ⟨out', L', e', hv', -, h2, -⟩ := multipole_auto_apart_slop_partial (ph := ph) (maxn := maxn) hp A g hg fp hf l gl ha
  rw [e] at e'; cases e'
  have c' := clear_holds (p := p) (ph := ph) (S := seenPairs L') (T := cross12Triples l l) (out := out)
    fun K _ k2 k3 g1 a b => seenPairs_clear hp hv' hc g1 a b
  exact (c'.2 (h2 0 (by simp) (.inl rfl))).congr hT

/-- C80: the same for two catalogues. -/
theorem multipole_cross12_clear_partial (A1 A2 : StdAlg P) (g : Geom P) (hg : g.Dominates) (fp1 fp2 : FieldParams)
    (hf1 : fp1.minsize = 0) (hf2 : fp2.minsize = 0) (l1 l2 : List (Obj P)) (g1 : Gathered g l1) (g2 : Gathered g l2)
    (hc : ∀ o ∈ l1, ∀ x ∈ l2, ClearLog p (dist o.pos x.pos)) :
    ∃ out, multipoleCross12 p maxn ph true (buildField A1 g fp1 l1).cells (buildField A2 g fp2 l2).cells = some out ∧
      MpCounts p (cross12Triples l1 l2) out ∧ (Apart l2 → MpPhases p ph 0 (cross12Triples l1 l2) out) := by
  obtain ⟨out, L, e, hv, h1⟩ := multipole_cross12_slop_partial (ph := ph) (maxn := maxn) hp A1 A2 g hg fp1 fp2 le_rfl hf1 hf2 l1 l2 g1 g2
  have c := clear_holds (p := p) (ph := ph) (S := seenPairs L) (T := cross12Triples l1 l2) (out := out)
    fun K _ k2 k3 g1 a b => seenPairs_clear hp hv hc g1 a b
  refine ⟨out, e, c.1 h1, fun ha => ?_⟩
  obtain ⟨out', L', e', hv', -, h2, -⟩ := multipole_cross12_apart_slop_partial (ph := ph) (maxn := maxn) hp A1 A2 g hg fp1 fp2 hf1 hf2
    l1 l2 g1 g2 ha
  rw [e] at e'; cases e'
  have c' := clear_holds (p := p) (ph := ph) (S := seenPairs L') (T := cross12Triples l1 l2) (out := out)
    fun K _ k2 k3 g1 a b => seenPairs_clear hp hv' hc g1 a b
  exact c'.2 (h2 0 (by simp) (.inl rfl))

/-- C80: the same for two catalogues in any order. -/
theorem multipole_cross12_unordered_clear_partial (A1 A2 : StdAlg P) (g : Geom P) (hg : g.Dominates) (fp1 fp2 : FieldParams)
    (hf1 : fp1.minsize = 0) (hf2 : fp2.minsize = 0) (l1 l2 : List (Obj P)) (g1 : Gathered g l1) (g2 : Gathered g l2)
    (hc : ∀ o ∈ l1 ++ l2, ∀ x ∈ l1 ++ l2, ClearLog p (dist o.pos x.pos)) :
    ∃ out, multipoleCross12 p maxn ph false (buildField A1 g fp1 l1).cells (buildField A2 g fp2 l2).cells = some out ∧
      MpCounts p (mixedTriples l1 l2) out ∧ (Apart l2 → MpPhases p ph 0 (mixedTriples l1 l2) out) := by
  have m : ∀ {o : Obj P}, o ∈ l1 ∨ o ∈ l2 → o ∈ l1 ++ l2 := fun h => List.mem_append.2 h
  have hT : ∀ k2 k3, (crossTriples l2 l1 l2 + crossTriples l2 l2 l1 + cross12Triples l1 l2).filter (InSides p k2 k3) =
      (mixedTriples l1 l2).filter (InSides p k2 k3) := fun k2 k3 => mixed_filter l1 l2 _ (InSides.ne1 hp) (InSides.ne2 hp)
  have rs : ∀ L1 L2, SeenViews p 0 l1 l2 [] L1 → SeenViews p 0 l2 l1 l2 L2 →
      RowSums p ((seenTriples L2 + seenTriples (swapViews L2)) + seenPairs L1)
        (crossTriples l2 l1 l2 + crossTriples l2 l2 l1 + cross12Triples l1 l2) := fun L1 L2 v1 v2 =>
    (rowSums_swap hp v2 (fun o ho x hx => hc o (m (.inr ho)) x (m (.inl hx))) fun o ho x hx => hc o (m (.inr ho)) x (m (.inr hx))).add
      fun _ _ _ _ g1 a b => seenPairs_clear hp v1 (fun o ho x hx => hc o (m (.inl ho)) x (m (.inr hx))) g1 a b
  obtain ⟨out, L1, L2, e, v1, v2, h1⟩ := multipole_cross12_unordered_slop_partial (ph := ph) (maxn := maxn) hp A1 A2 g hg fp1 fp2 le_rfl
    hf1 hf2 l1 l2 g1 g2
  refine ⟨out, e, ((clear_holds (ph := ph) (rs L1 L2 v1 v2)).1 h1).congr hT, fun ha => ?_⟩
  obtain ⟨out', L1', L2', e', v1', v2', T, rfl, -, h2, -⟩ := multipole_cross12_unordered_apart_slop_partial (ph := ph) (maxn := maxn) hp
    A1 A2 g hg fp1 fp2 hf1 hf2 l1 l2 g1 g2 ha
  rw [e] at e'; cases e'
  exact ((clear_holds (rs L1' L2' v1' v2')).2 (h2 0 (by simp) (.inl rfl))).congr hT

/-- C80: the same for three catalogues in any order. -/
theorem multipole_cross123_unordered_clear_partial (A1 A2 A3 : StdAlg P) (g : Geom P) (hg : g.Dominates) (fp1 fp2 fp3 : FieldParams)
    (hf1 : fp1.minsize = 0) (hf2 : fp2.minsize = 0) (hf3 : fp3.minsize = 0) (l1 l2 l3 : List (Obj P)) (g1 : Gathered g l1)
    (g2 : Gathered g l2) (g3 : Gathered g l3)
    (hc : ∀ o ∈ l1 ++ l2 ++ l3, ∀ x ∈ l1 ++ l2 ++ l3, ClearLog p (dist o.pos x.pos)) :
    ∃ out, multipoleCross123 p maxn ph .any (buildField A1 g fp1 l1).cells (buildField A2 g fp2 l2).cells
        (buildField A3 g fp3 l3).cells = some out ∧
      MpCounts p (mixed3Triples l1 l2 l3) out ∧ MpPhases p ph 0 (mixed3Triples l1 l2 l3) out := by
  have i1 : ∀ o ∈ l1, o ∈ l1 ++ l2 ++ l3 := by simp +contextual
  have i2 : ∀ o ∈ l2, o ∈ l1 ++ l2 ++ l3 := by simp +contextual
  have i3 : ∀ o ∈ l3, o ∈ l1 ++ l2 ++ l3 := by simp +contextual
  have k : ∀ x y : List (Obj P), (∀ o ∈ x, o ∈ l1 ++ l2 ++ l3) → (∀ o ∈ y, o ∈ l1 ++ l2 ++ l3) →
      ∀ o1 ∈ x, ∀ o2 ∈ y, ClearLog p (dist o1.pos o2.pos) := fun x y hx hy o1 m1 o2 m2 => hc o1 (hx o1 m1) o2 (hy o2 m2)
  obtain ⟨out, L1, L2, L3, e, v1, v2, v3, T, rfl, h1, h2, -⟩ := multipole_cross123_unordered_slop_partial (ph := ph) (maxn := maxn) hp
    A1 A2 A3 g hg fp1 fp2 fp3 le_rfl hf1 hf2 hf3 l1 l2 l3 g1 g2 g3
  have rs := (rowSums_swap hp v2 (k _ _ i2 i1) (k _ _ i2 i3)).add ((rowSums_swap hp v3 (k _ _ i3 i1) (k _ _ i3 i2)).add
    (rowSums_swap hp v1 (k _ _ i1 i2) (k _ _ i1 i3)))
  rw [← mixed3_eq] at rs
  exact ⟨out, e, (clear_holds (ph := ph) rs).1 h1, (clear_holds rs).2 (h2 0 (by simp) (.inl rfl))⟩

end

/-- With `min_size` 0, no row sees a row in the same place, itself for one. -/
theorem seen_not_same {p : Params} {o : Obj P} {m : Seen P} (h : SeenNear p 0 o m) : 0 < dist o.pos m.row.pos := by
  obtain ⟨k, -, -, -, d', hd', hpos, -⟩ := h.bin
  rw [mul_zero] at hd'
  have : d' = dist o.pos m.row.pos := by linarith [abs_nonpos_iff.1 hd']
  rwa [← this]

/-! ### Cases -/

/-- Any flat catalogues of non-negative position weights, `bin_slop = 1/10`, automatic tree sizes. -/
example (l1 l2 l3 : List (Obj (EuclideanSpace ℝ (Fin 2)))) (h1 : ∀ o ∈ l1, 0 ≤ o.wpos) (h2 : ∀ o ∈ l2, 0 ≤ o.wpos)
    (h3 : ∀ o ∈ l3, 0 ≤ o.wpos) :=
  multipole_cross123_slop (ph := flatPhase dist) (maxn := 5) exSlop2_ok (sortAlg _ 0) (sortAlg _ 0) (sortAlg _ 0) (euclidGeom 2)
    (euclidGeom_dominates 2) (autoFp (logMinMaxSize exSlop2)) (autoFp (logMinMaxSize exSlop2)) (autoFp (logMinMaxSize exSlop2))
    (δ := (logMinMaxSize exSlop2).1) (by norm_num [logMinMaxSize, exSlop2]) rfl rfl rfl l1 l2 l3 (gathered_flat 2 l1 h1)
    (gathered_flat 2 l2 h2) (gathered_flat 2 l3 h3)

example (l : List (Obj (EuclideanSpace ℝ (Fin 2)))) (h : ∀ o ∈ l, 0 ≤ o.wpos) (ha : Apart l) :=
  multipole_auto_apart_slop_partial (ph := flatPhase dist) (maxn := 5) exSlop2_ok (sortAlg _ 0) (euclidGeom 2)
    (euclidGeom_dominates 2) exFp rfl l (gathered_flat 2 l h) ha

/-- Rows of the sphere within 80 degrees or so of one another. -/
example (l : List (Obj (EuclideanSpace ℝ (Fin 3)))) (h : ∀ o ∈ l, 0 ≤ o.wpos) (hu : ∀ o ∈ l, ‖o.pos‖ = 1)
    (hd : ∀ o ∈ l, ∀ o' ∈ l, dist o.pos o'.pos ≤ 1) : Gathered sphereGeom l :=
  gathered_sphere h hu (R := 1) (by rw [Real.lt_sqrt (by norm_num)]; norm_num) hd

/-- A separation clear of the edges of the bins. -/
theorem clear_13 : ClearLog exSlop2 13 := by
  refine .inl ⟨0, by norm_num [exSlop2], by norm_num [exSlop2], by norm_num, ?_, ?_⟩
  · have : Real.log 13 - Real.log 10 = Real.log (13 / 10) := (Real.log_div (by norm_num) (by norm_num)).symm
    have h : (1 / 20 : ℝ) < Real.log (13 / 10) := by
      have := Real.one_sub_inv_le_log_of_pos (show (0:ℝ) < 13 / 10 by norm_num)
      norm_num at this ⊢
      linarith
    norm_num [exSlop2] at h ⊢
    linarith
  · have : Real.log 13 - Real.log 10 = Real.log (13 / 10) := (Real.log_div (by norm_num) (by norm_num)).symm
    have h := Real.log_le_sub_one_of_pos (show (0:ℝ) < 13 / 10 by norm_num)
    norm_num [exSlop2] at h ⊢
    linarith

/-- Two catalogues of rows 13 apart from the one row of the first. -/
example : ∃ out, multipoleCross123 exSlop2 3 (flatPhase dist) .fixed (buildField (sortAlg _ 0) (euclidGeom 2) exFp [ob 0 0 0]).cells
      (buildField (sortAlg _ 0) (euclidGeom 2) exFp [ob 13 0 1]).cells
      (buildField (sortAlg _ 0) (euclidGeom 2) exFp [ob 0 13 2]).cells = some out ∧
    MpCounts exSlop2 (crossTriples [ob 0 0 0] [ob 13 0 1] [ob 0 13 2]) out := by
  have hd1 : dist (pt 0 0) (pt 13 0) = 13 := by rw [dist_pt, Real.sqrt_eq_iff_mul_self_eq_of_pos] <;> norm_num
  have hd2 : dist (pt 0 0) (pt 0 13) = 13 := by rw [dist_pt, Real.sqrt_eq_iff_mul_self_eq_of_pos] <;> norm_num
  obtain ⟨out, e, h, -⟩ := multipole_cross123_clear_partial (ph := flatPhase dist) (maxn := 3) exSlop2_ok (sortAlg _ 0) (sortAlg _ 0)
    (sortAlg _ 0) (euclidGeom 2) (euclidGeom_dominates 2) exFp exFp exFp rfl rfl rfl [ob 0 0 0] [ob 13 0 1] [ob 0 13 2]
    (gathered_flat 2 _ (by simp [ob])) (gathered_flat 2 _ (by simp [ob])) (gathered_flat 2 _ (by simp [ob]))
    (by simp only [List.mem_singleton, forall_eq, ob_pos, hd1]; exact clear_13)
    (by simp only [List.mem_singleton, forall_eq, ob_pos, hd2]; exact clear_13)
  exact ⟨out, e, h⟩

/-- Any flat catalogues in any order. -/
example (l1 l2 l3 : List (Obj (EuclideanSpace ℝ (Fin 2)))) (h1 : ∀ o ∈ l1, 0 ≤ o.wpos) (h2 : ∀ o ∈ l2, 0 ≤ o.wpos)
    (h3 : ∀ o ∈ l3, 0 ≤ o.wpos) :=
  multipole_cross123_unordered_slop_partial (ph := flatPhase dist) (maxn := 5) exSlop2_ok (sortAlg _ 0) (sortAlg _ 0) (sortAlg _ 0)
    (euclidGeom 2) (euclidGeom_dominates 2) (autoFp (logMinMaxSize exSlop2)) (autoFp (logMinMaxSize exSlop2))
    (autoFp (logMinMaxSize exSlop2)) (δ := (logMinMaxSize exSlop2).1) (by norm_num [logMinMaxSize, exSlop2]) rfl rfl rfl l1 l2 l3
    (gathered_flat 2 l1 h1) (gathered_flat 2 l2 h2) (gathered_flat 2 l3 h3)

theorem clear_0 : ClearLog exSlop2 0 := .inr (.inl (mul_pos (by norm_num [exSlop2]) (Real.exp_pos _)))

theorem clear_12 : ClearLog exSlop2 12 := by
  have e : Real.log 12 - Real.log 10 = Real.log (6 / 5) := by rw [← Real.log_div (by norm_num) (by norm_num)]; norm_num
  have h1 := Real.one_sub_inv_le_log_of_pos (show (0:ℝ) < 6 / 5 by norm_num)
  have h2 := Real.log_le_sub_one_of_pos (show (0:ℝ) < 6 / 5 by norm_num)
  refine .inl ⟨0, by norm_num [exSlop2], by norm_num [exSlop2], by norm_num, ?_, ?_⟩ <;> norm_num [exSlop2] at h1 h2 ⊢ <;> linarith

theorem clear_24 : ClearLog exSlop2 24 := by
  have e : Real.log 24 - Real.log 10 = Real.log 2 + Real.log (6 / 5) := by
    rw [← Real.log_div (by norm_num) (by norm_num), ← Real.log_mul (by norm_num) (by norm_num)]; norm_num
  have h1 := Real.one_sub_inv_le_log_of_pos (show (0:ℝ) < 6 / 5 by norm_num)
  have h2 := Real.log_le_sub_one_of_pos (show (0:ℝ) < 6 / 5 by norm_num)
  have h3 := Real.log_two_gt_d9
  have h4 := Real.log_two_lt_d9
  refine .inl ⟨1, by norm_num [exSlop2], by norm_num [exSlop2], by norm_num, ?_, ?_⟩ <;> norm_num [exSlop2] at h1 h2 h3 h4 ⊢ <;> linarith

/-- Three rows in a line, 12 apart, the middle one in the first catalogue. -/
example : ∃ out, multipoleCross12 exSlop2 3 (flatPhase dist) false (buildField (sortAlg _ 0) (euclidGeom 2) exFp [ob 0 0 0]).cells
      (buildField (sortAlg _ 0) (euclidGeom 2) exFp [ob 12 0 1, ob (-12) 0 2]).cells = some out ∧
    MpCounts exSlop2 (mixedTriples [ob 0 0 0] [ob 12 0 1, ob (-12) 0 2]) out := by
  obtain ⟨out, e, h, -⟩ := multipole_cross12_unordered_clear_partial (ph := flatPhase dist) (maxn := 3) exSlop2_ok (sortAlg _ 0)
    (sortAlg _ 0) (euclidGeom 2) (euclidGeom_dominates 2) exFp exFp rfl rfl [ob 0 0 0] [ob 12 0 1, ob (-12) 0 2]
    (gathered_flat 2 _ (by simp [ob])) (gathered_flat 2 _ (by simp [ob]))
    (by
      have a1 : |(24 : ℝ)| = 24 := by norm_num
      have a2 : |(12 : ℝ)| = 12 := by norm_num
      simp only [List.cons_append, List.nil_append, List.mem_cons, List.not_mem_nil, or_false]
      rintro o (rfl | rfl | rfl) x (rfl | rfl | rfl) <;> simp only [ob_pos, dist_pt_x] <;> norm_num [a1, a2] <;>
        first | exact clear_0 | exact clear_12 | exact clear_24)
  exact ⟨out, e, h⟩

end TreeCorr
