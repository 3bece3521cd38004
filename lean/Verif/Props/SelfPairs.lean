import Verif.Model.MultipoleG
import Verif.Proofs.KMeansRun
import Verif.Props.LogCounts

/-!
C57, C73: the sums of squares that the multipole algorithms take off, for cells of any size.
-/

namespace TreeCorr
open Classical List
noncomputable section
variable {P : Type}

theorem single_of_eq [PseudoMetricSpace P] {os : List (Obj P)} (h0 : os ≠ []) (hd : os.Pairwise fun a b => dist a.pos b.pos ≠ 0) (p : P)
    (hp : ∀ o ∈ os, dist o.pos p ≤ 0) : ∃ o, os = [o] := by
  match os, h0 with
  | [o], _ => exact ⟨o, rfl⟩
  | a :: b :: os, _ =>
    exfalso
    have h1 := hp a (by simp)
    have h2 := hp b (by simp)
    have h3 := List.rel_of_pairwise_cons hd (a' := b) (by simp)
    exact h3 (le_antisymm (by linarith [dist_triangle_right a.pos b.pos p]) dist_nonneg)

/-- The four sums of squares of a cell are those of its rows. -/
def SelfSums (z : Obj P → ℂ) (c : Cell P) : Prop :=
  c.sumWSq = (c.objs.map fun o => o.w ^ 2).sum ∧ c.sumWKSq = (c.objs.map fun o => o.wk ^ 2).sum ∧
  c.sumWGSq (simpleSum z) = (c.objs.map fun o => z o ^ 2).sum ∧ c.sumAbsWGSq (simpleSum z) = (c.objs.map fun o => Complex.normSq (z o)).sum

theorem selfSums_each [PseudoMetricSpace P] (z : Obj P → ℂ) (c : Cell P) (hb : c.Bounded 0) (hs : c.SumsOK)
    (hd : c.objs.Pairwise fun a b => dist a.pos b.pos ≠ 0) : c.Each (SelfSums z) := by
  induction c with
  | leaf d os =>
    obtain ⟨o, rfl⟩ := single_of_eq hs.1 hd d.pos hb
    obtain ⟨-, -, h1, h2⟩ := hs
    simp only [List.map_cons, List.map_nil, List.sum_cons, List.sum_nil, add_zero] at h1 h2
    simp [Cell.Each, SelfSums, Cell.sumWSq, Cell.sumWKSq, Cell.sumWGSq, Cell.sumAbsWGSq, simpleSum, Cell.objs, h1, h2]
  | node d s l r ihl ihr =>
    obtain ⟨hs0, -, hbl, hbr⟩ := hb
    obtain ⟨hn, hw, hk, hsl, hsr⟩ := hs
    have hd' : (l.objs ++ r.objs).Pairwise fun a b => dist a.pos b.pos ≠ 0 := hd
    obtain ⟨hdl, hdr, -⟩ := List.pairwise_append.1 hd'
    have el := ihl hbl hsl hdl
    have er := ihr hbr hsr hdr
    refine ⟨?_, el, er⟩
    obtain ⟨l1, l2, l3, l4⟩ := el.self
    obtain ⟨r1, r2, r3, r4⟩ := er.self
    by_cases h1 : d.n = 1
    · have hlen : (l.objs ++ r.objs).length = 1 := by
        have : (Cell.node d s l r).objs = l.objs ++ r.objs := rfl
        rw [this] at hn
        omega
      obtain ⟨o, ho⟩ := List.length_eq_one_iff.1 hlen
      have ho' : (Cell.node d s l r).objs = [o] := ho
      rw [ho'] at hw hk
      simp only [List.map_cons, List.map_nil, List.sum_cons, List.sum_nil, add_zero] at hw hk
      refine ⟨?_, ?_, ?_, ?_⟩
      · rw [ho', Cell.sumWSq, if_neg hs0.ne', if_pos h1, hw]; simp
      · rw [ho', Cell.sumWKSq, if_neg hs0.ne', if_pos h1, hk]; simp
      · rw [Cell.sumWGSq, if_neg hs0.ne', if_pos h1, simpleSum, ho']; simp
      · rw [Cell.sumAbsWGSq, if_neg hs0.ne', if_pos h1, simpleSum, ho']; simp
    · have ho' : (Cell.node d s l r).objs = l.objs ++ r.objs := rfl
      refine ⟨?_, ?_, ?_, ?_⟩
      · rw [ho', Cell.sumWSq, if_neg hs0.ne', if_neg h1, l1, r1, List.map_append, List.sum_append]
      · rw [ho', Cell.sumWKSq, if_neg hs0.ne', if_neg h1, l2, r2, List.map_append, List.sum_append]
      · rw [ho', Cell.sumWGSq, if_neg hs0.ne', if_neg h1, l3, r3, List.map_append, List.sum_append]
      · rw [ho', Cell.sumAbsWGSq, if_neg hs0.ne', if_neg h1, l4, r4, List.map_append, List.sum_append]

/-- **C57, C73, partial.** The sums of squares that are taken off where points 2 and 3 fall into the same bin: for rows at pairwise different places and
`min_size = 0`, in every cell of the tree, of any size, they are the sums over the rows of the squared weights, scalars and shears, so that only the pairs of a
row with itself are taken off - with any slop.  (Flat and 3d positions, where the shears of a cell are added as they are.)
Missing: rows at the same place (`multipole_coincident_wrong`). -/
theorem self_sums_partial [PseudoMetricSpace P] (A : StdAlg P) (g : Geom P) (hg : g.Dominates) (fp : FieldParams) (hm : fp.minsize = 0)
    (rows : List (Obj P)) (hd : rows.Pairwise fun a b => dist a.pos b.pos ≠ 0) (z : Obj P → ℂ) :
    ∀ c ∈ (buildField A g fp rows).cells, c.Each fun c =>
      c.sumWSq = (c.objs.map fun o => o.w ^ 2).sum ∧ c.sumWKSq = (c.objs.map fun o => o.wk ^ 2).sum ∧
      c.sumWGSq (simpleSum z) = (c.objs.map fun o => z o ^ 2).sum ∧ c.sumAbsWGSq (simpleSum z) = (c.objs.map fun o => Complex.normSq (z o)).sum := by
  intro c hc
  obtain ⟨hb, hs⟩ := buildField_bounded A g hg fp hm.ge rows c hc
  rw [hm] at hb
  refine selfSums_each z c hb hs ?_
  have hperm := buildField_objs A g fp rows
  have hsub : c.objs.Sublist (objsOf (buildField A g fp rows).cells) := by
    obtain ⟨s, t, e⟩ := List.append_of_mem hc
    rw [e]
    unfold objsOf
    rw [List.flatMap_append, List.flatMap_cons]
    exact (List.sublist_append_left _ _).trans (List.sublist_append_right _ _)
  have hall : (objsOf (buildField A g fp rows).cells).Pairwise fun a b => dist a.pos b.pos ≠ 0 :=
    (hperm.pairwise_iff fun h => by rwa [dist_comm]).2 hd
  exact hall.sublist hsub

/-- A case: three rows. -/
example (z : Obj (EuclideanSpace ℝ (Fin 2)) → ℂ) : ∀ c ∈ (buildField (sortAlg _ 0) (euclidGeom 2) exFp [ob 0 0 0, ob 2 0 1, ob 7 0 2]).cells,
    c.sumWGSq (simpleSum z) = (c.objs.map fun o => z o ^ 2).sum := by
  intro c hc
  refine (self_sums_partial (sortAlg _ 0) (euclidGeom 2) (euclidGeom_dominates 2) exFp rfl _ ?_ z c hc).self.2.2.1
  simp only [List.pairwise_cons, List.mem_cons, List.not_mem_nil, or_false, forall_eq_or_imp, forall_eq, ob_pos, dist_pt_x]
  norm_num

end
end TreeCorr
