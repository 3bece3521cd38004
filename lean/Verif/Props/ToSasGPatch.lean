import Verif.Model.ToSasGPatch
import Verif.Props.ToSasG
import Verif.Props.ToSasPatch

/-!
C79 for shear: `process` of a `LogSAS` object of shear with patches.
-/

namespace TreeCorr
open Classical
noncomputable section

/-- What a `LogSAS` object of shear holds for a multiset `T` of triples of rows; `F` are their natural components in the "x" projection. -/
structure SasGArrays {P : Type} [PseudoMetricSpace P] (φ : P → P → P → ℝ) (F : Fin 4 → Obj P × Obj P × Obj P → ℂ) (p : Params) (B : PhiBins)
    (maxn : ℕ) (conv convLog : ℝ → ℝ) (m3 : Prop) (T : Multiset (Obj P × Obj P × Obj P)) (S : SasGObj (ℕ × ℕ × ℕ)) : Prop where
  /-- counts, weights and sides are those of a scalar object -/
  base : SasArrays φ p B maxn conv convLog m3 T S.base
  /-- the components are the sums of those of the triangles, each spread around its angle, turned by the phase of the bin -/
  gam : ∀ k2 k3, p.hasBin k2 → p.hasBin k3 → ∀ k, S.base.weightr k2 k3 k ≠ 0 → ∀ μ : Fin 4,
    (S.gam μ k2 k3 k).map (fun x => x * (S.base.weightr k2 k3 k : ℂ)) =
      (gamPhase (S.base.meand2 k2 k3 k) (S.base.meand3 k2 k3 k) (B.phi k) μ).map fun f =>
        (B.size / (2 * Real.pi) : ℝ) * spreadSumC (F μ) maxn φ (T.filter (InSides p k2 k3)) (B.phi k) * f
  /-- the stored results of the patches add up to the object -/
  res_gam : ∀ k2 k3, p.hasBin k2 → p.hasBin k3 → ∀ k, S.base.weightr k2 k3 k ≠ 0 → ∀ (μ : Fin 4) x, S.gam μ k2 k3 k = some x →
    x * (S.base.weightr k2 k3 k : ℂ) = (S.results.map fun r => (r.2 μ k2 k3 k).getD 0).sum ∧ ∀ r ∈ S.results, (r.2 μ k2 k3 k).isSome

theorem gamArr_eq (maxn : ℕ) (r : Res3 (MpArr GVals)) (μ : Fin 4) (i j n : ℤ) : r.gamArr maxn μ i j (n + maxn) = (r.acc i j).gam μ n := by
  unfold Res3.gamArr
  rw [add_sub_cancel_right]
  fin_cases μ <;> rfl

theorem list_accG {X V : Type} [AddCommMonoid V] (f : GVals →+ V) (l : List X) (a : X → MpArr GVals) (i j : ℤ) :
    f ((l.map a).sum i j) = (l.map fun x => f (a x i j)).sum := by
  induction l with
  | nil => simp
  | cons x t ih => rw [List.map_cons, List.sum_cons, Pi.add_apply, Pi.add_apply, map_add, ih, List.map_cons, List.sum_cons]

theorem base_sum {X : Type} (l : List X) (a : X → MpArr GVals) :
    (fun i j => ((l.map a).sum i j).base) = (l.map fun x => ((fun i j => (a x i j).base) : MpArr MpVals)).sum := by
  induction l with
  | nil => rfl
  | cons x t ih => rw [List.map_cons, List.sum_cons, List.map_cons, List.sum_cons, ← ih]; rfl

theorem Whole.base {P : Type} [PseudoMetricSpace P] {p : Params} {ph : P → P → ℂ} {F : Fin 4 → Obj P × Obj P × Obj P → ℂ} {N : ℤ → Prop}
    {m3 : Prop} {T : Multiset (Obj P × Obj P × Obj P)} {R : TriCorr (MpArr GVals)} (h : Whole (GArrays p ph F N m3 T) R) :
    Whole (MpArrays p ph N True m3 T) R.base := by
  refine ⟨h.self.base, ?_⟩
  have := h.results.base
  rw [base_sum] at this
  show MpArrays p ph N True m3 T ((R.results.map _).map _).sum
  rw [List.map_map]
  exact this

/-- The conversion of the arrays of C78. -/
theorem sasGArrays_of {P : Type} [PseudoMetricSpace P] {ph : P → P → ℂ} {φ : P → P → P → ℝ} {f : Fin 4 → Obj P × Obj P × Obj P → ℂ}
    {p : Params} {m3 : Prop} {B : PhiBins} (hu : B.units ≠ 0) {maxn : ℕ} {T : Multiset (Obj P × Obj P × Obj P)} {R : TriCorr (MpArr GVals)}
    (hφ : ∀ k2 k3, ∀ q ∈ T.filter (InSides p k2 k3),
      ph q.1.pos q.2.2.pos / ph q.1.pos q.2.1.pos = Complex.exp (φ q.1.pos q.2.1.pos q.2.2.pos * Complex.I) ∧
      Opposite φ q.1.pos q.2.1.pos q.2.2.pos)
    (hφ' : ∀ k2 k3, ∀ q ∈ T.filter (InSides p k2 k3),
      ph q.1.pos q.2.2.pos / ph q.1.pos q.2.1.pos = Complex.exp (-(φ q.1.pos q.2.2.pos q.2.1.pos) * Complex.I))
    (h : Whole (GArrays p ph f (fun n => n.natAbs ≤ maxn) m3 T) R) (F : FinParams3) (logd2 logd3 : ℤ → ℤ → ℤ → ℝ) (varNum : ℝ) :
    SasGArrays φ f p B maxn F.unitD F.unitLogD m3 T
      (toSasG { R.toMpGObj maxn with base := (R.toMpGObj maxn).base.finalize F logd2 logd3, varNum := varNum } B) := by
  refine ⟨sasArrays_of hφ h.base (fun _ hn => hn) trivial F logd2 logd3, ?_, ?_⟩
  · intro k2 k3 b2 b3 k hw μ
    refine toSasG_spread (ph := ph) (φ := φ) f _ B k2 k3 _ (hφ' k2 k3) (fun μ n hn => ?_) k hu hw μ
    rw [← h.self.gam n hn k2 k3 b2 b3 μ]
    exact gamArr_eq maxn R.self μ k2 k3 n
  · intro k2 k3 b2 b3 k hw μ x hx
    refine toSasG_results_sum _ B k2 k3 k μ hu (fun n hn => ?_) hw hx
    refine (gamArr_eq maxn R.self μ k2 k3 n).trans ?_
    rw [h.self.gam n hn k2 k3 b2 b3 μ, ← h.results.gam n hn k2 k3 b2 b3 μ]
    refine (list_accG ⟨⟨fun v => v.gam μ n, gam_zero μ n⟩, fun a b => gam_add a b μ n⟩ R.results (fun x => x.2.acc) k2 k3).trans ?_
    show _ = ((R.results.map _).map _).sum
    rw [List.map_map]
    congr 2
    funext x
    exact (gamArr_eq maxn x.2 μ k2 k3 n).symm

theorem SasGArrays.mono {P : Type} [PseudoMetricSpace P] {φ : P → P → P → ℝ} {F : Fin 4 → Obj P × Obj P × Obj P → ℂ} {p : Params} {B : PhiBins}
    {maxn : ℕ} {u v u' v' : ℝ → ℝ} {m m' : Prop} {T : Multiset (Obj P × Obj P × Obj P)} {S : SasGObj (ℕ × ℕ × ℕ)}
    (h : SasGArrays φ F p B maxn u v m T S) (hu : u' = u) (hv : v' = v) (hm : m' → m) : SasGArrays φ F p B maxn u' v' m' T S :=
  ⟨h.base.mono hu hv hm, h.gam, h.res_gam⟩

theorem processSasG_eq {K : Type} (run : MpGObj K → Option (MpGObj K)) (F : FinParams3) (logd2 logd3 : ℤ → ℤ → ℤ → ℝ) (B : PhiBins)
    (given : Option ℕ) (init : Bool) (varNum : ℝ) (self : SasGObj K) :
    processSasG run F logd2 logd3 B given init true varNum self = (run (MpGObj.new K (B.maxN given))).map fun corr =>
      toSasG { corr with base := corr.base.finalize F logd2 logd3, varNum := varNum } B := by
  have e1 : (if init = true then MpGObj.new K (MpGObj.new K (B.maxN given)).base.maxn else MpGObj.new K (B.maxN given)) =
      MpGObj.new K (B.maxN given) := by split <;> rfl
  simp only [processSasG, e1]
  cases run (MpGObj.new K (B.maxN given)) <;> rfl

theorem flat_angles' {p : Params} (hp : LogParams p)
    (T : Multiset (Obj (EuclideanSpace ℝ (Fin 2)) × Obj (EuclideanSpace ℝ (Fin 2)) × Obj (EuclideanSpace ℝ (Fin 2)))) (k2 k3 : ℤ) :
    ∀ q ∈ T.filter (InSides p k2 k3), flatPhase dist q.1.pos q.2.2.pos / flatPhase dist q.1.pos q.2.1.pos =
      Complex.exp (-(planeAngle q.1.pos q.2.2.pos q.2.1.pos) * Complex.I) := by
  rintro ⟨o1, o2, o3⟩ hq
  have := InSides.ne hp (Multiset.mem_filter.1 hq).2
  have n2 : o2.pos ≠ o1.pos := fun e => this.1 (dist_eq_zero.2 e.symm)
  have n3 : o3.pos ≠ o1.pos := fun e => this.2 (dist_eq_zero.2 e.symm)
  have a := flat_phase_angle n3 n2
  show flatPhase dist o1.pos o3.pos / flatPhase dist o1.pos o2.pos = _
  rw [neg_mul, Complex.exp_neg, ← a, inv_div]

section
variable (A : StdAlg (EuclideanSpace ℝ (Fin 2))) (g : Geom (EuclideanSpace ℝ (Fin 2))) (hg : g.Dominates) (fp : FieldParams)
  (hf : fp.minsize = 0) {p : Params} (hp : LogParams p) (hnb : 0 < p.nbins) (ha : p.a = 0)
  (same : List (Obj (EuclideanSpace ℝ (Fin 2))) → List (Obj (EuclideanSpace ℝ (Fin 2))) → Prop)
  {cats cats1 cats2 cats3 : List (ℕ × List (Obj (EuclideanSpace ℝ (Fin 2))))} (sh : Obj (EuclideanSpace ℝ (Fin 2)) → ℂ)
  (F : FinParams3) (hc : F.chord = false) (logd2 logd3 : ℤ → ℤ → ℤ → ℝ) (B : PhiBins) (hu : B.units ≠ 0) (given : Option ℕ) (init : Bool)
  (varNum : ℝ) (S0 : TriCorr (MpArr GVals)) (self : SasGObj (ℕ × ℕ × ℕ))
include hg hf hp hnb ha hc hu

/-- **C79, shear, one catalogue, partly.** `process` of a `LogSAS` object of shear with patches, default algorithm, flat coordinates,
`angle_slop = 0`, no two rows at the same place: the arrays are those of the undivided catalogue (C74), and the stored results of the patches
add up to them.  Missing: as for scalars and as in C74. -/
theorem processSasG_patches_auto_partial (hl : Apart (cats.flatMap Prod.snd)) :
    ∃ S, processSasG (runPatchesG fun N => (mpKitG A g fp p N (flatPhase dist) same (flatFactor .G) (simpleSum sh)).localAuto false p.maxsep
        true cats S0) F logd2 logd3 B given init true varNum self = some S ∧ S.varNum = varNum ∧
      SasGArrays planeAngle (natX (flatPhase dist) (flatFactor .G) sh) p B (B.maxN given) (fun x => x / F.sepUnits)
        (fun x => x - Real.log F.sepUnits) True (orderedTriples (cats.flatMap Prod.snd)) S := by
  refine ⟨_, by rw [processSasG_eq]; rfl, rfl, ?_⟩
  exact (sasGArrays_of (φ := planeAngle) hu (flat_angles hp _) (flat_angles' hp _) (localMpG_auto_partial A g hg fp hf hp hnb (B.maxN given)
    same false ha (sumsShear_simple sh) (flat_unitFar cats) hl (flat_isProj _ _) S0) F logd2 logd3 varNum).mono (flat_conv hc).1
    (flat_conv hc).2 id

/-- **C79, shear, two catalogues, `ordered=True`, partly.** -/
theorem processSasG_patches_cross12_partial (hl : Apart (cats2.flatMap Prod.snd)) :
    ∃ S, processSasG (runPatchesG fun N => (mpKitG A g fp p N (flatPhase dist) same (flatFactor .G) (simpleSum sh)).localCross12 false p.maxsep
        true true cats1 cats2 S0) F logd2 logd3 B given init true varNum self = some S ∧ S.varNum = varNum ∧
      SasGArrays planeAngle (natX (flatPhase dist) (flatFactor .G) sh) p B (B.maxN given) (fun x => x / F.sepUnits)
        (fun x => x - Real.log F.sepUnits) True (cross12Triples (cats1.flatMap Prod.snd) (cats2.flatMap Prod.snd)) S := by
  refine ⟨_, by rw [processSasG_eq]; rfl, rfl, ?_⟩
  exact (sasGArrays_of (φ := planeAngle) hu (flat_angles hp _) (flat_angles' hp _) (localMpG_cross12_partial A g hg fp hf hp hnb (B.maxN given)
    same false ha (sumsShear_simple sh) (flat_unitFar cats1) (flat_unitFar cats2) hl (flat_isProj _ _) S0) F logd2 logd3 varNum).mono
    (flat_conv hc).1 (flat_conv hc).2 id

/-- **C79, shear, two catalogues, `ordered=False`, partly.** Missing besides: `meanlogd3` (C57). -/
theorem processSasG_patches_cross12_unordered_partial (hl : Apart (cats2.flatMap Prod.snd)) :
    ∃ S, processSasG (runPatchesG fun N => (mpKitG A g fp p N (flatPhase dist) same (flatFactor .G) (simpleSum sh)).localCross12 false p.maxsep
        true false cats1 cats2 S0) F logd2 logd3 B given init true varNum self = some S ∧ S.varNum = varNum ∧
      SasGArrays planeAngle (natX (flatPhase dist) (flatFactor .G) sh) p B (B.maxN given) (fun x => x / F.sepUnits)
        (fun x => x - Real.log F.sepUnits) False (mixedTriples (cats1.flatMap Prod.snd) (cats2.flatMap Prod.snd)) S := by
  refine ⟨_, by rw [processSasG_eq]; rfl, rfl, ?_⟩
  exact (sasGArrays_of (φ := planeAngle) hu (flat_angles hp _) (flat_angles' hp _) (localMpG_cross12_unordered_partial A g hg fp hf hp hnb
    (B.maxN given) same false ha (sumsShear_simple sh) (flat_unitFar cats1) (flat_unitFar cats2) hl (flat_isProj _ _) S0) F logd2 logd3
    varNum).mono (flat_conv hc).1 (flat_conv hc).2 id

/-- **C79, shear, three catalogues, `ordered=True`, partly.** -/
theorem processSasG_patches_cross_partial :
    ∃ S, processSasG (runPatchesG fun N => (mpKitG A g fp p N (flatPhase dist) same (flatFactor .G) (simpleSum sh)).localCross false p.maxsep
        true .fixed cats1 cats2 cats3 S0) F logd2 logd3 B given init true varNum self = some S ∧ S.varNum = varNum ∧
      SasGArrays planeAngle (natX (flatPhase dist) (flatFactor .G) sh) p B (B.maxN given) (fun x => x / F.sepUnits)
        (fun x => x - Real.log F.sepUnits) True
        (crossTriples (cats1.flatMap Prod.snd) (cats2.flatMap Prod.snd) (cats3.flatMap Prod.snd)) S := by
  refine ⟨_, by rw [processSasG_eq]; rfl, rfl, ?_⟩
  exact (sasGArrays_of (φ := planeAngle) hu (flat_angles hp _) (flat_angles' hp _) (localMpG_cross_partial A g hg fp hf hp hnb (B.maxN given)
    same false ha (sumsShear_simple sh) (flat_unitFar cats1) (flat_unitFar cats2) (flat_unitFar cats3) (flat_isProj _ _) S0) F logd2 logd3
    varNum).mono (flat_conv hc).1 (flat_conv hc).2 id

/-- **C79, shear, three catalogues, `ordered=1`, partly.** Missing besides: `meanlogd3`. -/
theorem processSasG_patches_cross_first_partial :
    ∃ S, processSasG (runPatchesG fun N => (mpKitG A g fp p N (flatPhase dist) same (flatFactor .G) (simpleSum sh)).localCross false p.maxsep
        true .first cats1 cats2 cats3 S0) F logd2 logd3 B given init true varNum self = some S ∧ S.varNum = varNum ∧
      SasGArrays planeAngle (natX (flatPhase dist) (flatFactor .G) sh) p B (B.maxN given) (fun x => x / F.sepUnits)
        (fun x => x - Real.log F.sepUnits) False
        (crossTriples (cats1.flatMap Prod.snd) (cats2.flatMap Prod.snd) (cats3.flatMap Prod.snd) +
          crossTriples (cats1.flatMap Prod.snd) (cats3.flatMap Prod.snd) (cats2.flatMap Prod.snd)) S := by
  refine ⟨_, by rw [processSasG_eq]; rfl, rfl, ?_⟩
  exact (sasGArrays_of (φ := planeAngle) hu (flat_angles hp _) (flat_angles' hp _) (localMpG_cross_first_partial A g hg fp hf hp hnb
    (B.maxN given) same false ha (sumsShear_simple sh) (flat_unitFar cats1) (flat_unitFar cats2) (flat_unitFar cats3) (flat_isProj _ _) S0)
    F logd2 logd3 varNum).mono (flat_conv hc).1 (flat_conv hc).2 id

/-- **C79, shear, three catalogues, `ordered=False`, partly.** Missing besides: `meanlogd3`. -/
theorem processSasG_patches_cross_unordered_partial :
    ∃ S, processSasG (runPatchesG fun N => (mpKitG A g fp p N (flatPhase dist) same (flatFactor .G) (simpleSum sh)).localCross false p.maxsep
        true .any cats1 cats2 cats3 S0) F logd2 logd3 B given init true varNum self = some S ∧ S.varNum = varNum ∧
      SasGArrays planeAngle (natX (flatPhase dist) (flatFactor .G) sh) p B (B.maxN given) (fun x => x / F.sepUnits)
        (fun x => x - Real.log F.sepUnits) False
        (mixed3Triples (cats1.flatMap Prod.snd) (cats2.flatMap Prod.snd) (cats3.flatMap Prod.snd)) S := by
  refine ⟨_, by rw [processSasG_eq]; rfl, rfl, ?_⟩
  exact (sasGArrays_of (φ := planeAngle) hu (flat_angles hp _) (flat_angles' hp _) (localMpG_cross_unordered_partial A g hg fp hf hp hnb
    (B.maxN given) same false ha (sumsShear_simple sh) (flat_unitFar _) (flat_isProj _ _) S0)
    F logd2 logd3 varNum).mono (flat_conv hc).1 (flat_conv hc).2 id

end

/-! ### A concrete case -/

/-- C79 for shear applied to a right angle at the origin, its corners in three patches; all shears 1. -/
example (S0 : TriCorr (MpArr GVals)) (self : SasGObj (ℕ × ℕ × ℕ)) :
    ∃ S, processSasG (runPatchesG fun N => (mpKitG (sortAlg _ 0) (euclidGeom 2) exFp exMp N (flatPhase dist) (fun _ _ => False) (flatFactor .G)
        (simpleSum fun _ => 1)).localCross false exMp.maxsep true .fixed [(0, [ob 0 0 0])] [(1, [ob 2 0 1])] [(2, [ob 0 2 2])] S0)
        exFin3 (fun _ _ _ => 0) (fun _ _ _ => 0) ⟨0, Real.pi, 1, 1⟩ none true true 0 self = some S ∧ S.varNum = 0 ∧
      SasGArrays planeAngle (natX (flatPhase dist) (flatFactor .G) fun _ => 1) exMp ⟨0, Real.pi, 1, 1⟩ (PhiBins.maxN ⟨0, Real.pi, 1, 1⟩ none)
        (fun x => x / exFin3.sepUnits) (fun x => x - Real.log exFin3.sepUnits) True
        (crossTriples [ob 0 0 0] [ob 2 0 1] [ob 0 2 2]) S :=
  processSasG_patches_cross_partial (sortAlg _ 0) (euclidGeom 2) (euclidGeom_dominates 2) exFp rfl exMp_ok (by norm_num [exMp]) rfl
    (fun _ _ => False) (cats1 := [(0, [ob 0 0 0])]) (cats2 := [(1, [ob 2 0 1])]) (cats3 := [(2, [ob 0 2 2])]) (fun _ => 1) exFin3 rfl _ _ _
    one_ne_zero none true 0 S0 self

end
end TreeCorr
