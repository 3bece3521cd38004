import Verif.Props.Local3

/-!
C68: cases that meet the hypotheses, and cases in which the claims fail.
-/

namespace TreeCorr
open Classical
noncomputable section

/-! ### The hypotheses can be met -/

/-- The triangle with sides 3, 4, 5 between three patches is counted once. -/
theorem local3_threePatches (nn : Bool) (S : TriCorr Acc3) :
    ((triEx nn).localAuto false exRuv.maxsep true threePatches S).self.acc.ntri 29 = 1 := by
  have ef : threePatches.flatMap Prod.snd = [ob 0 0 0, ob 0 3 1, ob 4 0 2] := rfl
  have h := local3_auto_ruv_partial (sortAlg _ 0) (euclidGeom 2) (euclidGeom_dominates 2) exFp rfl (fun a b => a = b) nn false
    (cats := threePatches) (by simp [UnitFar]) (by rw [ef]; simp [ob_valid]) S 29 exRuv_ok rfl rfl rfl flatMetric3_of
  rw [ef, ex345_filter] at h
  exact (h.ntri (by simp [ob])).trans (by simp [brute3N])

/-- C68, the two modes on the three patches. -/
example (S : TriCorr Acc3) (k : ℤ) : ((triEx true).localAuto false exRuv.maxsep true threePatches S).self.acc.SameAt
    ((triEx true).processAuto true threePatches S).self.acc k := by
  have ef : threePatches.flatMap Prod.snd = [ob 0 0 0, ob 0 3 1, ob 4 0 2] := rfl
  exact local3_auto_is_global_partial (sortAlg _ 0) (euclidGeom 2) (euclidGeom_dominates 2) exFp rfl (fun a b => a = b) true
    (by simp [threePatches]) (by rw [ef]; simp [ob]) S k exRuv_ok rfl rfl rfl flatMetric3_of
    (by rw [ef]; exact fun t ht e => ex345_tie ht e)

/-- C68, LogSAS: the right angle between the three patches. -/
example (S : TriCorr Acc3) : ((triKit (sortAlg _ 0) (euclidGeom 2) exFp (binSAS exSas flatMetric3) flatMetric3 exSas (fun a b => a = b)
    true).localAuto false exSas.maxsep true threePatches S).self.acc.Holds 9
      ((orderedTriples [ob 0 0 0, ob 0 3 1, ob 4 0 2]).filter (inSas exSas flatMetric3.ccw 9)) triPhi triCos ∧
    inSas exSas flatMetric3.ccw 9 (ob 0 0 0, ob 0 3 1, ob 4 0 2) := by
  have ef : threePatches.flatMap Prod.snd = [ob 0 0 0, ob 0 3 1, ob 4 0 2] := rfl
  have h := local3_auto_sas_partial (sortAlg _ 0) (euclidGeom 2) (euclidGeom_dominates 2) exFp rfl (fun a b => a = b) true false
    (cats := threePatches) (by simp [UnitFar]) (by rw [ef]; simp [ob_valid]) S 9 exSas_ok rfl rfl rfl flatMetric3_of
    flatMetric3_oriented (by rw [ef]; exact fun t ht _ => ex345_line ht)
  rw [ef] at h
  exact ⟨h, ex345_sas_in⟩

/-- C68, three catalogues, the last of which is divided. -/
example (S : TriCorr Acc3) : ((triEx true).localCross false exRuv.maxsep true .any [(0, [ob 0 0 0])] [(0, [ob 0 3 1])]
    [(0, [ob 50 0 3]), (1, [ob 4 0 2])] S).self.acc.Holds 29
      ((mixed3Triples [ob 0 0 0] [ob 0 3 1] [ob 50 0 3, ob 4 0 2]).filter (inRuv exRuv flatMetric3.ccw 29))
    triU (triVs flatMetric3.ccw) :=
  local3_cross_unordered_ruv_partial (sortAlg _ 0) (euclidGeom 2) (euclidGeom_dominates 2) exFp rfl (fun a b => a = b) true false
    (by simp [UnitFar]) (by simp [UnitFar]) (by simp [UnitFar]) (by simp [ob_valid]) (by simp [ob_valid]) (by simp [ob_valid]) S 29
    exRuv_ok rfl rfl rfl flatMetric3_of

/-- C68, the total of the three patches is 27/2; in the global mode it is 9/2. -/
theorem local3_threePatches_tot (S : TriCorr Acc3) :
    ((triEx true).localAuto false exRuv.maxsep true threePatches S).self.tot = 27 / 2 := by
  have := local3_auto_tot (sortAlg _ 0) (euclidGeom 2) exFp (fun a b => a = b) (triEx_good true) (Real.exp_pos 3) false
    (cats := threePatches) (by simp [UnitFar]) (by simp [threePatches]) S
  refine this.trans ?_
  norm_num [threePatches, ob]

/-- C68, four processes. -/
example (S : TriCorr Acc3) : ∃ R, (triEx true).mpiLocalAuto false exRuv.maxsep true 4 threePatches S = some R ∧
    R.self.acc.ntri 29 = 1 ∧ R.self.tot = 27 / 2 := by
  obtain ⟨R, h1, h2, _⟩ := local3_mpi_auto_same false exRuv.maxsep threePatches (triEx_good true) (show 0 < 4 by norm_num)
    (by simp [threePatches]) S
  exact ⟨R, h1, by rw [h2]; exact local3_threePatches true S, by rw [h2]; exact local3_threePatches_tot S⟩

/-! ### Isosceles triangles -/

theorem auto_three_patches {V C : Type} [AddCommMonoid V] {K : Kit3 V C} {G : V → Prop} (hK : K.Good G) (a b c : C) (ea : K.auto a = 0)
    (eb : K.auto b = 0) (ec : K.auto c = 0) (e12 : ∀ x y, x = a ∨ x = b ∨ x = c → y = a ∨ y = b ∨ y = c → K.cross12 false x y = 0)
    (ht : ¬ K.triv a b c) (S : TriCorr V) : (K.processAuto true [(0, a), (1, b), (2, c)] S).self.acc = K.cross .any a b c := by
  have v : ∀ J : Job3 V, J.temp.acc = 0 → (J.val K).acc = 0 := by
    intro J h
    unfold Job3.val
    split
    · exact h
    · exact h
  have j12 : ∀ key gate x y, x = a ∨ x = b ∨ x = c → y = a ∨ y = b ∨ y = c →
      ((job12 K false false key gate x y).val K).acc = 0 := by
    intro key gate x y hx hy
    refine v _ ?_
    simp only [job12]
    split
    · rfl
    · exact e12 x y hx hy
  have j111 : ∀ i x, K.auto x = 0 → ((job111 K (i, x)).val K).acc = 0 := fun i x h => v _ h
  have j123 : ((job123 K false .any (0, a) (1, b) (2, c)).val K).acc = K.cross .any a b c := by
    by_cases h : K.nz (K.cross .any a b c)
    · simp [Job3.val, job123, ht, Kit3.crossRes, h]
    · have z := hK.eq_zero (hK.cross .any a b c) h
      rw [z, v]
      simp [job123, ht, Kit3.crossRes, z]
  rw [processAuto3_jobs hK (by simp)]
  show ((autoJobs3 K _).map (Job3.val K)).sum.acc = _
  rw [Res3.sum_acc, List.map_map]
  simp [autoJobs3, autoRowJobs3, autoPairJobs3, j111, ea, eb, ec, j12, j123]

/-- The rows (-5,0), (5,0), (0,12), each in its own patch. -/
def isoPatches : List (ℕ × List (Obj (EuclideanSpace ℝ (Fin 2)))) := [(0, [ob (-5) 0 0]), (1, [ob 5 0 1]), (2, [ob 0 12 2])]

theorem iso_d1 : dist (pt 5 0) (pt 0 12) = 13 := by
  rw [dist_pt, show ((5 : ℝ) - 0) ^ 2 + (0 - 12) ^ 2 = 13 ^ 2 by norm_num, Real.sqrt_sq (by norm_num)]
theorem iso_d2 : dist (pt (-5) 0) (pt 0 12) = 13 := by
  rw [dist_pt, show ((-5 : ℝ) - 0) ^ 2 + (0 - 12) ^ 2 = 13 ^ 2 by norm_num, Real.sqrt_sq (by norm_num)]
theorem iso_d3 : dist (pt (-5) 0) (pt 5 0) = 10 := by
  rw [dist_pt, show ((-5 : ℝ) - 5) ^ 2 + (0 - 0) ^ 2 = 10 ^ 2 by norm_num, Real.sqrt_sq (by norm_num)]

theorem iso_orders {t : Obj (EuclideanSpace ℝ (Fin 2)) × Obj _ × Obj _} (ht : t ∈ orderedTriples [ob (-5) 0 0, ob 5 0 1, ob 0 12 2])
    (h1 : side2 t ≤ side1 t) (h2 : side3 t ≤ side2 t) : t = (ob (-5) 0 0, ob 5 0 1, ob 0 12 2) ∨ t = (ob 5 0 1, ob (-5) 0 0, ob 0 12 2) := by
  have e : orderedTriples [ob (-5) 0 0, ob 5 0 1, ob 0 12 2] = orders6 (ob (-5) 0 0, ob 5 0 1, ob 0 12 2) := by
    simp [orderedTriples, autoTriples, autoPairs]
  rw [e] at ht
  simp only [orders6, Multiset.mem_add, Multiset.mem_singleton] at ht
  have e1 := iso_d1
  have e2 := iso_d2
  have e3 := iso_d3
  have e4 := (dist_comm _ _).trans e1
  have e5 := (dist_comm _ _).trans e2
  have e6 := (dist_comm _ _).trans e3
  rcases ht with ((((rfl | rfl) | rfl) | rfl) | rfl) | rfl <;>
    simp only [side1, side2, side3, ob_pos, e1, e2, e3, e4, e5, e6] at h1 h2 <;> first | exact Or.inl rfl | exact Or.inr rfl | (exfalso; linarith)

theorem iso_in {o1 o2 o3 : Obj (EuclideanSpace ℝ (Fin 2))} (h1 : dist o2.pos o3.pos = 13) (h2 : dist o1.pos o3.pos = 13)
    (h3 : dist o1.pos o2.pos = 10) (k : ℤ) :
    inRuv exRuv flatMetric3.ccw k (o1, o2, o3) ↔ k = if flatMetric3.ccw o1.pos o2.pos o3.pos then 46 else 45 := by
  have hq : ruvPlace exRuv 2 3 0 (flatMetric3.ccw o1.pos o2.pos o3.pos) =
      if flatMetric3.ccw o1.pos o2.pos o3.pos then 46 else 45 := by
    unfold ruvPlace
    split <;> norm_num [exRuv]
  have hin : InRuv exRuv 2 3 0 (o1, o2, o3) := by
    refine ⟨?_, ?_, ?_, ?_, ?_, ?_⟩
    · simp only [side1, side2, h1, h2]; norm_num
    · simp only [side3, side2, h3, h2]; norm_num
    · simp only [side3, h3]; norm_num
    · simp only [side2, h2]; exact inLog2
    · simp only [triU, side2, side3, h2, h3]; norm_num [InLinBin, linEdge, exRuv]
    · simp only [triV, side1, side2, side3, h1, h2, h3]; norm_num [InLinBin, linEdge, exRuv]
  constructor
  · rintro ⟨kr, ku, kv, h, rfl⟩
    have a : kr = 2 := inLogBin_unique exLog_ok h.2.2.2.1 hin.2.2.2.1
    have b : ku = 3 := (lin_unique (by norm_num [exRuv]) h.2.2.2.2.1).symm.trans (lin_unique (by norm_num [exRuv]) hin.2.2.2.2.1)
    have c : kv = 0 := (lin_unique (by norm_num [exRuv]) h.2.2.2.2.2).symm.trans (lin_unique (by norm_num [exRuv]) hin.2.2.2.2.2)
    subst a b c
    exact hq
  · rintro rfl
    exact ⟨2, 3, 0, hin, hq.symm⟩

/-- **C68, negation for isosceles triangles.** The rows (-5,0), (5,0), (0,12), each in a patch of its own: the local mode counts the triangle
twice, once with positive and once with negative `v`; the global mode counts it once. -/
theorem local3_isosceles_wrong (nn : Bool) (S : TriCorr Acc3) :
    let L := ((triEx nn).localAuto false exRuv.maxsep true isoPatches S).self.acc
    let G := ((triEx nn).processAuto true isoPatches S).self.acc
    L.ntri 45 = 1 ∧ L.ntri 46 = 1 ∧ G.ntri 45 = 1 ∧ G.ntri 46 = 0 := by
  intro L G
  have ef : isoPatches.flatMap Prod.snd = [ob (-5) 0 0, ob 5 0 1, ob 0 12 2] := rfl
  have y : flatMetric3.ccw (pt (-5) 0) (pt 5 0) (pt 0 12) := by norm_num [flatMetric3, pt]
  have n : ¬ flatMetric3.ccw (pt 5 0) (pt (-5) 0) (pt 0 12) := by norm_num [flatMetric3, pt]
  have hne1 : ob (-5) 0 0 ≠ ob 5 0 1 := fun h => by simpa [ob] using congrArg Obj.idx h
  have hne2 : ob (-5) 0 0 ≠ ob 0 12 2 := fun h => by simpa [ob] using congrArg Obj.idx h
  have hne3 : ob 5 0 1 ≠ ob 0 12 2 := fun h => by simpa [ob] using congrArg Obj.idx h
  have i1 : ∀ k, inRuv exRuv flatMetric3.ccw k (ob (-5) 0 0, ob 5 0 1, ob 0 12 2) ↔ k = 46 := by
    intro k
    have := iso_in (o1 := ob (-5) 0 0) (o2 := ob 5 0 1) (o3 := ob 0 12 2) iso_d1 iso_d2 iso_d3 k
    rwa [ob_pos, ob_pos, ob_pos, if_pos y] at this
  have i2 : ∀ k, inRuv exRuv flatMetric3.ccw k (ob 5 0 1, ob (-5) 0 0, ob 0 12 2) ↔ k = 45 := by
    intro k
    have := iso_in (o1 := ob 5 0 1) (o2 := ob (-5) 0 0) (o3 := ob 0 12 2) iso_d2 iso_d1 ((dist_comm _ _).trans iso_d3) k
    rwa [ob_pos, ob_pos, ob_pos, if_neg n] at this
  have e : orderedTriples [ob (-5) 0 0, ob 5 0 1, ob 0 12 2] = orders6 (ob (-5) 0 0, ob 5 0 1, ob 0 12 2) := by
    simp [orderedTriples, autoTriples, autoPairs]
  have f45 : (orderedTriples [ob (-5) 0 0, ob 5 0 1, ob 0 12 2]).filter (inRuv exRuv flatMetric3.ccw 45) =
      {(ob 5 0 1, ob (-5) 0 0, ob 0 12 2)} := by
    have key : ∀ t ∈ orderedTriples [ob (-5) 0 0, ob 5 0 1, ob 0 12 2],
        (inRuv exRuv flatMetric3.ccw 45 t ↔ t = (ob 5 0 1, ob (-5) 0 0, ob 0 12 2)) := by
      intro t ht
      constructor
      · intro hin
        obtain ⟨_, _, _, h, _⟩ := id hin
        rcases iso_orders ht h.1 h.2.1 with rfl | rfl
        · exact absurd ((i1 45).1 hin) (by norm_num)
        · rfl
      · rintro rfl
        exact (i2 45).2 rfl
    rw [Multiset.filter_congr key, e]
    simp [orders6, Multiset.filter_add, Multiset.filter_singleton, hne1, hne2, hne3, hne1.symm, hne2.symm, hne3.symm]
  have f46 : (orderedTriples [ob (-5) 0 0, ob 5 0 1, ob 0 12 2]).filter (inRuv exRuv flatMetric3.ccw 46) =
      {(ob (-5) 0 0, ob 5 0 1, ob 0 12 2)} := by
    have key : ∀ t ∈ orderedTriples [ob (-5) 0 0, ob 5 0 1, ob 0 12 2],
        (inRuv exRuv flatMetric3.ccw 46 t ↔ t = (ob (-5) 0 0, ob 5 0 1, ob 0 12 2)) := by
      intro t ht
      constructor
      · intro hin
        obtain ⟨_, _, _, h, _⟩ := id hin
        rcases iso_orders ht h.1 h.2.1 with rfl | rfl
        · rfl
        · exact absurd ((i2 46).1 hin) (by norm_num)
      · rintro rfl
        exact (i1 46).2 rfl
    rw [Multiset.filter_congr key, e]
    simp [orders6, Multiset.filter_add, Multiset.filter_singleton, hne1, hne2, hne3, hne1.symm, hne2.symm, hne3.symm]
  have hL : ∀ k, L.Holds k ((orderedTriples [ob (-5) 0 0, ob 5 0 1, ob 0 12 2]).filter (inRuv exRuv flatMetric3.ccw k)) triU
      (triVs flatMetric3.ccw) := fun k =>
    local3_auto_ruv_partial (sortAlg _ 0) (euclidGeom 2) (euclidGeom_dominates 2) exFp rfl (fun a b => a = b) nn false
      (cats := isoPatches) (by simp [UnitFar]) (by rw [ef]; simp [ob_valid]) S k exRuv_ok rfl rfl rfl flatMetric3_of
  obtain ⟨es, h, hk⟩ := exRuv_run (ob (-5) 0 0) (ob 5 0 1) (ob 0 12 2) iso_d1 iso_d2 iso_d3
  have hc : (triEx nn).cross .any [ob (-5) 0 0] [ob 5 0 1] [ob 0 12 2] = accumulate3 Acc3.zero es := by
    show runAcc3 (processCross123 (binRUV exRuv flatMetric3) flatMetric3 .any _ _ _) = _
    simp only [field_one]
    erw [h]
    rfl
  have hG : G = accumulate3 Acc3.zero es := by
    rw [← hc]
    have e1 := triKit_auto_one (sortAlg _ 0) (euclidGeom 2) exFp flatMetric3 (fun a b => a = b) nn exRuv_ok.minsep
    have e2 := triKit_cross12_one (p := exRuv) (sortAlg _ 0) (euclidGeom 2) exFp flatMetric3 (fun a b => a = b) nn false
    refine auto_three_patches (triEx_good nn) _ _ _ (e1 _) (e1 _) (e1 _) (by
      rintro x y (rfl | rfl | rfl) (rfl | rfl | rfl) <;> exact e2 _ _) ?_ S
    intro ht
    have := (trivZero3_rows (r := exRuv.maxsep)).1 ht
    simp only [ob_pos, iso_d1, dist_comm (pt 0 12) (pt (-5) 0), iso_d2, iso_d3] at this
    have h3 := Real.add_one_le_exp (3 : ℝ)
    have h2 := inLog2.2.2.2
    simp only [logEdge] at h2
    norm_num at h2
    have : 2 * Real.exp 3 < 13 := lt_of_lt_of_le this (by simp [middle])
    linarith
  refine ⟨?_, ?_, ?_, ?_⟩
  · have := hL 45
    rw [f45] at this
    exact (this.ntri (by simp [ob])).trans (by simp [brute3N])
  · have := hL 46
    rw [f46] at this
    exact (this.ntri (by simp [ob])).trans (by simp [brute3N])
  · rw [hG, hk, ob_pos, ob_pos, ob_pos, if_neg n]; norm_num
  · rw [hG, hk, ob_pos, ob_pos, ob_pos, if_neg n]; norm_num

/-! ### Totals -/

theorem overwritten {V C : Type} [AddCommMonoid V] (K : Kit3 V C) (r1 r2 : C → Res3 V) (x y z : C) (h : ¬ K.nz (r1 x).acc) :
    (K.localPass (fun _ _ _ => True) r2 [(0, y), (1, z)] (K.localPass (fun _ _ _ => True) r1 [(0, x)] TriCorr.clear)).results =
      [((0, 0, 0), r2 y), ((1, 1, 1), r2 z)] := by
  simp [Kit3.localPass, Kit3.keep, TriCorr.clear, Dict3.get, Dict3.set, h]
  rfl

theorem reach_none {x : ℝ} {i : ℕ} {cats2 : List (ℕ × List (Obj (EuclideanSpace ℝ (Fin 2))))}
    (h : ∀ c ∈ cats2, ∃ x' j, c.2 = [ob x' 0 j] ∧ 27 ≤ |x' - x|) :
    expandPatch false exRuv.maxsep [ob x 0 i] (cats2.map Prod.snd) = none := by
  have hlt := exp3_lt
  refine expand_none ?_
  intro c hc o ho
  obtain ⟨x', j, e, hx⟩ := h c hc
  rw [e, List.mem_singleton] at ho
  subst ho
  simp only [centerSize_single, collapse, Bool.false_eq_true, false_and, if_false, zero_add, ob_pos, dist_pt_x]
  exact le_trans (show Real.exp 3 ≤ 27 from hlt.le) hx

theorem reach_one {x x1 x2 : ℝ} {i j1 j2 : ℕ} (h1 : |x1 - x| ≤ 13) (h2 : 27 ≤ |x2 - x|) :
    expandPatch false exRuv.maxsep [ob x 0 i] [[ob x1 0 j1], [ob x2 0 j2]] = some [ob x1 0 j1] := by
  have hlt := exp3_lt
  have hgt := exp3_gt
  have k1 : keptRows false exRuv.maxsep [ob x 0 i] [ob x1 0 j1] = [ob x1 0 j1] := by
    simp only [keptRows, centerSize_single, collapse, Bool.false_eq_true, false_and, if_false, ob_pos, dist_pt_x, exRuv]
    rw [if_neg (by simp only [not_lt]; linarith), List.filter_cons_of_pos (by
      refine decide_eq_true ?_
      rw [ob_pos, dist_pt_x]; linarith), List.filter_nil]
  have k2 : keptRows false exRuv.maxsep [ob x 0 i] [ob x2 0 j2] = [] := by
    simp only [keptRows, centerSize_single, collapse, Bool.false_eq_true, false_and, if_false, ob_pos, dist_pt_x, exRuv]
    rw [if_pos (by linarith)]
  rw [expandPatch_eq]
  simp [k1, k2]

theorem reach_single {x x1 : ℝ} {i j1 : ℕ} (h1 : |x1 - x| ≤ 13) :
    expandPatch false exRuv.maxsep [ob x 0 i] [[ob x1 0 j1]] = some [ob x1 0 j1] := by
  have hgt := exp3_gt
  have k1 : keptRows false exRuv.maxsep [ob x 0 i] [ob x1 0 j1] = [ob x1 0 j1] := by
    simp only [keptRows, centerSize_single, collapse, Bool.false_eq_true, false_and, if_false, ob_pos, dist_pt_x, exRuv]
    rw [if_neg (by simp only [not_lt]; linarith), List.filter_cons_of_pos (by
      refine decide_eq_true ?_
      rw [ob_pos, dist_pt_x]; linarith), List.filter_nil]
  rw [expandPatch_eq]
  simp [k1]

/-- **C68, negation for the total.** Rows 0 and 40 on a line against rows 2 and -60, each in its own patch: nothing of the second catalogue
is in reach of row 40, and its share of `tot` is lost: 2 instead of `2*2²/2 = 4`. -/
theorem local3_cross12_tot_wrong (S : TriCorr Acc3) :
    let cats1 := [(0, [ob 0 0 0]), (1, [ob 40 0 3])]
    let cats2 := [(0, [ob 2 0 1]), (1, [ob (-60) 0 2])]
    ((triEx true).localCross12 false exRuv.maxsep true true cats1 cats2 S).self.tot = 2 ∧
      0.5 * (cats1.map fun c => (triEx true).sumw c.2).sum * (cats2.map fun c => (triEx true).sumw c.2).sum ^ 2 = 4 := by
  intro cats1 cats2
  have hgt := exp3_gt
  have e1 : expandPatch false exRuv.maxsep [ob 0 0 0] (cats2.map Prod.snd) = some [ob 2 0 1] :=
    reach_one (by norm_num) (by norm_num)
  have e2 : expandPatch false exRuv.maxsep [ob 40 0 3] (cats2.map Prod.snd) = none := by
    refine reach_none ?_
    intro c hc
    simp only [cats2, List.mem_cons, List.not_mem_nil, or_false] at hc
    rcases hc with rfl | rfl
    · exact ⟨2, 1, rfl, by norm_num [abs_of_neg]⟩
    · exact ⟨-60, 2, rfl, by norm_num [abs_of_neg]⟩
  have t1 : ¬ (triEx true).triv [ob 0 0 0] [ob 2 0 1] [ob 2 0 1] := by
    rw [triEx_triv]
    norm_num [middle]
  have w : (triEx true).allSumw cats2 = 2 := by
    norm_num [Kit3.allSumw, cats2, triEx_sumw]
  constructor
  · rw [localCross12_self (triEx_good true), if_pos rfl, add_zero, pass12Val, Res3.sum_tot]
    simp only [cats1, List.map_cons, List.map_nil, e1, e2, Kit3.localRes12, if_neg t1, w, triEx_sumw]
    norm_num [triEx, triKit, Res3.zero]
  · norm_num [cats1, cats2, triEx_sumw]

/-- **C68, negation for the stored results** (NNN, two catalogues, `ordered=False`). Row 0 against rows 2 and 60 on a line, in two patches:
the first loop stores an entry under (0,0,0) that holds no triangle but has `tot = 2`; the second loop writes over it.  The object has
`tot = 4`, its stored results add up to 2. -/
theorem local3_results_tot_wrong (S : TriCorr Acc3) :
    let R := (triEx true).localCross12 false exRuv.maxsep true false [(0, [ob 0 0 0])] [(0, [ob 2 0 1]), (1, [ob 60 0 2])] S
    R.self.tot = 4 ∧ ((R.results.map Prod.snd).map Res3.tot).sum = 2 := by
  intro R
  have hgt := exp3_gt
  have e1 : expandPatch false exRuv.maxsep [ob 0 0 0] [[ob 2 0 1], [ob 60 0 2]] = some [ob 2 0 1] :=
    reach_one (by norm_num) (by norm_num)
  have e2 : expandPatch false exRuv.maxsep [ob 2 0 1] [[ob 2 0 1], [ob 60 0 2]] = some [ob 2 0 1] :=
    reach_one (by norm_num) (by norm_num)
  have e3 : expandPatch false exRuv.maxsep [ob 2 0 1] [[ob 0 0 0]] = some [ob 0 0 0] :=
    reach_single (by norm_num)
  have e4 : expandPatch false exRuv.maxsep [ob 60 0 2] [[ob 0 0 0]] = none := by
    refine reach_none (cats2 := [(0, [ob 0 0 0])]) ?_
    intro c hc
    rw [List.mem_singleton] at hc
    subst hc
    exact ⟨0, 0, rfl, by norm_num [abs_of_neg]⟩
  have t1 : ¬ (triEx true).triv [ob 0 0 0] [ob 2 0 1] [ob 2 0 1] := by
    rw [triEx_triv]
    norm_num [middle]
  have t2 : ¬ (triEx true).triv [ob 2 0 1] [ob 0 0 0] [ob 2 0 1] := by
    rw [triEx_triv]
    norm_num [middle]
  have w1 : (triEx true).allSumw [(0, [ob 0 0 0])] = 1 := by
    norm_num [Kit3.allSumw, triEx_sumw]
  have w : (triEx true).allSumw [(0, [ob 2 0 1]), (1, [ob 60 0 2])] = 2 := by
    norm_num [Kit3.allSumw, triEx_sumw]
  have hnn : (triEx true).nn = true := rfl
  have z : (triEx true).cross12 true [ob 0 0 0] [ob 2 0 1] = 0 := triKit_cross12_one _ _ _ _ _ _ _ _ _
  have hR : R.results = _ := overwritten (triEx true)
    (fun c => (triEx true).localRes12 ((triEx true).allSumw [(0, [ob 2 0 1]), (1, [ob 60 0 2])]) c
      (expandPatch false exRuv.maxsep c [[ob 2 0 1], [ob 60 0 2]]))
    (fun c => (triEx true).localRes123 .first ((triEx true).allSumw [(0, [ob 0 0 0])])
      ((triEx true).allSumw [(0, [ob 2 0 1]), (1, [ob 60 0 2])]) c (expandPatch false exRuv.maxsep c [[ob 0 0 0]])
      (expandPatch false exRuv.maxsep c [[ob 2 0 1], [ob 60 0 2]])) [ob 0 0 0] [ob 2 0 1] [ob 60 0 2] (by
        simp only [e1, Kit3.localRes12, if_neg t1, z]
        exact (triEx_good true).nz_zero)
  constructor
  · show ((triEx true).localCross12 _ _ _ _ _ _ _).self.tot = 4
    rw [localCross12_self (triEx_good true), if_neg (by simp), Res3.add_tot, pass12Val, pass123Val, Res3.sum_tot, Res3.sum_tot]
    simp only [List.map_cons, List.map_nil, e1, e2, e3, e4, Kit3.localRes12, Kit3.localRes123, if_neg t1, if_neg t2, w, w1,
      triEx_sumw, hnn, if_true]
    norm_num [Res3.zero]
  · rw [hR]
    simp only [List.map_cons, List.map_nil, e2, e3, e4, Kit3.localRes123, if_neg t2, w, w1, triEx_sumw, hnn, if_true]
    norm_num [Res3.zero]

/-! ### The `Periodic` metric -/

/-- **C68, negation for the `Periodic` metric.** Periods 100, rows (0,0), (0,3), (96,0) of three catalogues, the third of which has a second
patch.  Across the boundary they form a triangle with sides 3, 4, 5, in range, but the third catalogue is searched without the periods,
nothing of it is found, and nothing is counted. -/
theorem local3_periodic_wrong (A : StdAlg (EuclideanSpace ℝ (Fin 2))) (g : Geom (EuclideanSpace ℝ (Fin 2))) (fp : FieldParams) (nn : Bool)
    {O : Ord3} (hO : O ≠ .any) (S : TriCorr Acc3) :
    let t := (ob 0 0 0, ob 0 3 1, ob 96 0 2)
    ∃ k, inRuv (P := PerSpace bigPer) exRuv (perMetric3 bigPer).ccw k t ∧
      ((triKit A g fp (binRUV exRuv (perMetric3 bigPer)) (perMetric3 bigPer) exRuv (fun a b => a = b) nn).localCross false exRuv.maxsep true
        O [(0, [t.1])] [(0, [t.2.1])] [(0, [t.2.2]), (1, [ob 50 0 3])] S).self.acc.ntri k = 0 := by
  intro t
  obtain ⟨k, h, _⟩ := patched_periodic_wrong A g fp nn S
  refine ⟨k, h, ?_⟩
  have e4 : expandPatch false exRuv.maxsep [ob 0 0 0] [[ob 96 0 2], [ob 50 0 3]] = none := by
    refine reach_none (cats2 := [(0, [ob 96 0 2]), (1, [ob 50 0 3])]) ?_
    intro c hc
    simp only [List.mem_cons, List.not_mem_nil, or_false] at hc
    rcases hc with rfl | rfl
    · exact ⟨96, 2, rfl, by norm_num⟩
    · exact ⟨50, 3, rfl, by norm_num⟩
  generalize triKit A g fp (binRUV exRuv (perMetric3 bigPer)) (perMetric3 bigPer) exRuv (fun a b => a = b) nn = K
  have : ∀ O, (K.localPass123 (fun _ _ _ => True) false exRuv.maxsep O [(0, [t.1])] [(0, [t.2.1])] [(0, [t.2.2]), (1, [ob 50 0 3])]
      TriCorr.clear).self.acc.ntri k = 0 := by
    intro O
    simp only [Kit3.localPass123, Kit3.localPass, List.foldl_cons, List.foldl_nil, if_true, List.map_cons, List.map_nil, t, e4]
    generalize expandPatch false exRuv.maxsep [ob 0 0 0] [[ob 0 3 1]] = e
    cases e <;> simp [Kit3.localRes123, Kit3.keep, Kit3.iadd, TriCorr.clear, Res3.zero] <;> rfl
  cases O with
  | any => exact absurd rfl hO
  | first => exact this _
  | fixed => exact this _

end
end TreeCorr
