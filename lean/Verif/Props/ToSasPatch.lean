import Verif.Model.ToSasPatch
import Verif.Props.LocalMp
import Verif.Props.ToSasSides

/-!
C79: `process` of a `LogSAS` object with patches.
-/

namespace TreeCorr
open Classical
noncomputable section

/-- What a `LogSAS` object holds for a multiset `T` of triples of rows; `φ` is the angle at the first point, `conv` turns a distance and
`convLog` the logarithm of one into the user's units; `meanlogd3` only if `m3`. -/
structure SasArrays {P : Type} [PseudoMetricSpace P] (φ : P → P → P → ℝ) (p : Params) (B : PhiBins) (maxn : ℕ) (conv convLog : ℝ → ℝ)
    (m3 : Prop) (T : Multiset (Obj P × Obj P × Obj P))
    (S : SasObj (ℕ × ℕ × ℕ)) : Prop where
  /-- every triangle is spread around its angle -/
  weight : ∀ k2 k3, p.hasBin k2 → p.hasBin k3 → ∀ k,
    S.weightr k2 k3 k = B.size / (2 * Real.pi) * spreadSum tripleW maxn φ (T.filter (InSides p k2 k3)) (B.phi k)
  zeta : ∀ k2 k3, p.hasBin k2 → p.hasBin k3 → ∀ k, S.weightr k2 k3 k ≠ 0 →
    S.z1 k2 k3 k * S.weightr k2 k3 k = B.size / (2 * Real.pi) * spreadSum tripleK maxn φ (T.filter (InSides p k2 k3)) (B.phi k)
  /-- the numbers of triangles add up -/
  ntri : ∀ k2 k3, p.hasBin k2 → p.hasBin k3 → ∑ k ∈ Finset.Ico (0 : ℤ) B.n, S.weightr k2 k3 k ≠ 0 →
    ∑ k ∈ Finset.Ico (0 : ℤ) B.n, S.ntri k2 k3 k = brute3N (T.filter (InSides p k2 k3)) * ((B.maxphi - B.minphi) / (2 * Real.pi))
  /-- the two sides are weighted means over all angles -/
  sides : ∀ k2 k3, p.hasBin k2 → p.hasBin k3 → ∀ k, brute3 (fun _ => 1) (T.filter (InSides p k2 k3)) ≠ 0 →
    S.meand2 k2 k3 k = conv (mean3 side2 (T.filter (InSides p k2 k3))) ∧
    S.meand3 k2 k3 k = conv (mean3 side3 (T.filter (InSides p k2 k3))) ∧
    S.meanlogd2 k2 k3 k = convLog (mean3 (fun t => Real.log (side2 t)) (T.filter (InSides p k2 k3))) ∧
    (m3 → S.meanlogd3 k2 k3 k = convLog (mean3 (fun t => Real.log (side3 t)) (T.filter (InSides p k2 k3))))
  /-- the stored results of the patches add up to the object -/
  res_weight : ∀ k2 k3, p.hasBin k2 → p.hasBin k3 → ∀ k, S.weightr k2 k3 k = (S.results.map fun r => r.2.weightr k2 k3 k).sum
  res_ntri : ∀ k2 k3, p.hasBin k2 → p.hasBin k3 → ∀ k, S.ntri k2 k3 k = (S.results.map fun r => r.2.ntri k2 k3 k).sum
  res_zeta : ∀ k2 k3, p.hasBin k2 → p.hasBin k3 → ∀ k, S.weightr k2 k3 k ≠ 0 →
    S.z1 k2 k3 k * S.weightr k2 k3 k = (S.results.map fun r => r.2.z1 k2 k3 k).sum

theorem finalize_mp' (F : FinParams3) (logd2 logd3 : ℤ → ℤ → ℤ → ℝ) (maxn : ℤ) (A : AccMp) (i j n : ℤ) :
    let R := finalizeMp F logd2 logd3 maxn A
    let W := A.weightr i j maxn
    W ≠ 0 → R.meand2 i j n = F.unitD (A.meand2 i j maxn / W) ∧ R.meand3 i j n = F.unitD (A.meand3 i j maxn / W) ∧
      R.meanlogd2 i j n = F.unitLogD (A.meanlogd2 i j maxn / W) ∧ R.meanlogd3 i j n = F.unitLogD (A.meanlogd3 i j maxn / W) := by
  intro R W h
  simp only [R, finalizeMp, ne_eq, show A.weightr i j maxn ≠ 0 from h, not_false_eq_true, if_true, W, and_self]

theorem transform_congr (maxn : ℕ) (B : PhiBins) {w w' : ℤ → ℤ → ℤ → ℂ} {i j : ℤ} (k : ℤ)
    (h : ∀ n : ℤ, n.natAbs ≤ maxn → w i j (n + maxn) = w' i j (n + maxn)) : transform maxn B w i j k = transform maxn B w' i j k := by
  unfold transform
  rw [Finset.sum_congr rfl fun n hn => by rw [h n (by rw [Finset.mem_Icc] at hn; omega)]]

theorem transform_list {X : Type} (maxn : ℕ) (B : PhiBins) (l : List X) (w : X → ℤ → ℤ → ℤ → ℂ) (i j k : ℤ) :
    (l.map fun x => transform maxn B (w x) i j k).sum = transform maxn B (fun i j m => (l.map fun x => w x i j m).sum) i j k := by
  induction l with
  | nil => simp [transform]
  | cons x t ih =>
    rw [List.map_cons, List.sum_cons, ih]
    simp only [transform, List.map_cons, List.sum_cons, add_mul, Finset.sum_add_distrib, Complex.add_re, add_div]

theorem list_acc {X V : Type} [AddCommMonoid V] (f : MpVals →+ V) (l : List X) (a : X → MpArr MpVals) (i j : ℤ) :
    f ((l.map a).sum i j) = (l.map fun x => f (a x i j)).sum := by
  induction l with
  | nil => simp
  | cons x t ih => rw [List.map_cons, List.sum_cons, Pi.add_apply, Pi.add_apply, map_add, ih, List.map_cons, List.sum_cons]

/-- The conversion of the arrays of C78. -/
theorem sasArrays_of {P : Type} [PseudoMetricSpace P] {ph : P → P → ℂ} {φ : P → P → P → ℝ} {p : Params} {N : ℤ → Prop} {m m3 : Prop}
    {B : PhiBins} {maxn : ℕ} {T : Multiset (Obj P × Obj P × Obj P)} {R : TriCorr (MpArr MpVals)}
    (hφ : ∀ k2 k3, ∀ q ∈ T.filter (InSides p k2 k3),
      ph q.1.pos q.2.2.pos / ph q.1.pos q.2.1.pos = Complex.exp (φ q.1.pos q.2.1.pos q.2.2.pos * Complex.I) ∧
      Opposite φ q.1.pos q.2.1.pos q.2.2.pos)
    (h : Whole (MpArrays p ph N m m3 T) R) (hN : ∀ n : ℤ, n.natAbs ≤ maxn → N n) (hm : m)
    (F : FinParams3) (logd2 logd3 : ℤ → ℤ → ℤ → ℝ) :
    SasArrays φ p B maxn F.unitD F.unitLogD m3 T (toSas ((R.toMpObj maxn).finalize F logd2 logd3) B) := by
  set M := (R.toMpObj maxn).finalize F logd2 logd3 with hM
  have hang : ∀ k2 k3 n, phaseW ph n (T.filter (InSides p k2 k3)) = angleW φ n (T.filter (InSides p k2 k3)) ∧
      phaseZ ph n (T.filter (InSides p k2 k3)) = angleZ φ n (T.filter (InSides p k2 k3)) :=
    fun k2 k3 n => phase_eq_angle n fun q hq => (hφ k2 k3 q hq).1
  have ho := fun k2 k3 q hq => (hφ k2 k3 q hq).2
  have ew : ∀ k2 k3 n, M.weight k2 k3 (n + maxn) = (R.self.acc k2 k3).weight n := fun k2 k3 n => by
    show (R.self.acc k2 k3).weight (n + maxn - maxn) = _
    rw [add_sub_cancel_right]
  have ez : ∀ k2 k3 n, M.zeta k2 k3 (n + maxn) = (R.self.acc k2 k3).zeta n := fun k2 k3 n => by
    show (R.self.acc k2 k3).zeta (n + maxn - maxn) = _
    rw [add_sub_cancel_right]
  have hs := fun k2 k3 (b2 : p.hasBin k2) (b3 : p.hasBin k3) => toSas_spread (φ := φ) M B k2 k3 _ (ho k2 k3)
    (fun n hn => by rw [← (hang k2 k3 n).1, ← h.self.weight n (hN n hn) k2 k3 b2 b3]; exact ew k2 k3 n)
    (fun n hn => by rw [← (hang k2 k3 n).2, ← h.self.zeta n (hN n hn) k2 k3 b2 b3]; exact ez k2 k3 n)
  have hw : ∀ k2 k3, p.hasBin k2 → p.hasBin k3 → ∀ k, (toSas M B).weightr k2 k3 k = ((toSas M B).results.map fun r => r.2.weightr k2 k3 k).sum := by
    intro k2 k3 b2 b3 k
    show transform maxn B M.weight k2 k3 k = (((R.results.map _).map _).map _).sum
    rw [List.map_map, List.map_map]
    refine Eq.trans ?_ (transform_list maxn B R.results (fun x => (x.2.toEntry maxn).weight) k2 k3 k).symm
    refine transform_congr maxn B k fun n hn => ?_
    rw [ew, h.self.weight n (hN n hn) k2 k3 b2 b3, ← h.results.weight n (hN n hn) k2 k3 b2 b3]
    refine (list_acc ⟨⟨fun v => v.weight n, rfl⟩, fun _ _ => rfl⟩ R.results (fun x => x.2.acc) k2 k3).trans ?_
    congr 2
    funext x
    show (x.2.acc k2 k3).weight n = (x.2.acc k2 k3).weight (n + maxn - maxn)
    rw [add_sub_cancel_right]
  refine ⟨fun k2 k3 b2 b3 k => (hs k2 k3 b2 b3 k).1, fun k2 k3 b2 b3 k => (hs k2 k3 b2 b3 k).2, ?_, ?_, hw, ?_, ?_⟩
  · intro k2 k3 b2 b3 hne
    rw [toSas_ntri_total _ B k2 k3 hne, ← h.self.ntri k2 k3 b2 b3]
    congr 1
    show (if (maxn : ℤ) = maxn then (R.self.acc k2 k3).ntri else 0) = _
    rw [if_pos rfl]
  · intro k2 k3 b2 b3 k hne
    have hw0 : ((R.toMpObj maxn).weight k2 k3 maxn).re = brute3 (fun _ => 1) (T.filter (InSides p k2 k3)) := by
      show ((R.self.acc k2 k3).weight ((maxn : ℤ) - maxn)).re = _
      rw [sub_self, h.self.weight 0 (hN 0 (by simp)) k2 k3 b2 b3]
      unfold phaseW brute3
      generalize T.filter (InSides p k2 k3) = T'
      induction T' using Multiset.induction with
      | empty => simp
      | cons q T' ih =>
        rw [Multiset.map_cons, Multiset.sum_cons, Multiset.map_cons, Multiset.sum_cons, Complex.add_re, ih]
        simp
    have f1 := finalize_mp' F logd2 logd3 maxn
      ⟨(R.toMpObj maxn).ntri, fun i j n => ((R.toMpObj maxn).weight i j n).re, (R.toMpObj maxn).meand2, (R.toMpObj maxn).meanlogd2,
        (R.toMpObj maxn).meand3, (R.toMpObj maxn).meanlogd3⟩ k2 k3 0
    simp only [hw0] at f1
    have at0 : ∀ x : ℝ, (if (maxn : ℤ) = maxn then x else 0) = x := fun x => if_pos rfl
    have v2 : (R.toMpObj maxn).meand2 k2 k3 maxn = brute3 side2 (T.filter (InSides p k2 k3)) := (at0 _).trans (h.self.meand2 hm k2 k3 b2 b3)
    have v2l : (R.toMpObj maxn).meanlogd2 k2 k3 maxn = brute3 (fun q => Real.log (side2 q)) (T.filter (InSides p k2 k3)) :=
      (at0 _).trans (h.self.meanlogd2 hm k2 k3 b2 b3)
    have v3 : (R.toMpObj maxn).meand3 k2 k3 maxn = brute3 side3 (T.filter (InSides p k2 k3)) := (at0 _).trans (h.self.meand3 hm k2 k3 b2 b3)
    rw [v2, v2l, v3] at f1
    obtain ⟨a, b, c, e⟩ := f1 hne
    refine ⟨a, b, c, fun h3 => ?_⟩
    have v3l : (R.toMpObj maxn).meanlogd3 k2 k3 maxn = brute3 (fun q => Real.log (side3 q)) (T.filter (InSides p k2 k3)) :=
      (at0 _).trans (h.self.meanlogd3 h3 k2 k3 b2 b3)
    rw [v3l] at e
    exact e
  · intro k2 k3 b2 b3 k
    show (toSas M B).weightr k2 k3 k * allocRatio B (M.ntri k2 k3 0) ((toSas M B).weightr k2 k3) = _
    rw [hw k2 k3 b2 b3 k]
    generalize hr : allocRatio B (M.ntri k2 k3 0) ((toSas M B).weightr k2 k3) = ρ
    rw [← List.sum_map_mul_right]
    show _ = ((M.results.map _).map _).sum
    rw [List.map_map, ← hr]
    show (((M.results.map _).map _)).sum = _
    rw [List.map_map]
    rfl
  · intro k2 k3 b2 b3 k hne
    rw [show (toSas M B).z1 k2 k3 k = transform maxn B M.zeta k2 k3 k / (toSas M B).weightr k2 k3 k from if_pos hne, div_mul_cancel₀ _ hne]
    show transform maxn B M.zeta k2 k3 k = (((R.results.map _).map _).map _).sum
    rw [List.map_map, List.map_map]
    refine Eq.trans ?_ (transform_list maxn B R.results (fun x => (x.2.toEntry maxn).zeta) k2 k3 k).symm
    refine transform_congr maxn B k fun n hn => ?_
    rw [ez, h.self.zeta n (hN n hn) k2 k3 b2 b3, ← h.results.zeta n (hN n hn) k2 k3 b2 b3]
    refine (list_acc ⟨⟨fun v => v.zeta n, rfl⟩, fun _ _ => rfl⟩ R.results (fun x => x.2.acc) k2 k3).trans ?_
    congr 2
    funext x
    show (x.2.acc k2 k3).zeta n = (x.2.acc k2 k3).zeta (n + maxn - maxn)
    rw [add_sub_cancel_right]

theorem SasArrays.mono {P : Type} [PseudoMetricSpace P] {φ : P → P → P → ℝ} {p : Params} {B : PhiBins} {maxn : ℕ} {u v u' v' : ℝ → ℝ}
    {m m' : Prop} {T : Multiset (Obj P × Obj P × Obj P)} {S : SasObj (ℕ × ℕ × ℕ)} (h : SasArrays φ p B maxn u v m T S)
    (hu : u' = u) (hv : v' = v) (hm : m' → m) : SasArrays φ p B maxn u' v' m' T S where
  weight := h.weight
  zeta := h.zeta
  ntri := h.ntri
  sides := fun k2 k3 b2 b3 k hne => by
    subst hu hv
    exact ⟨(h.sides k2 k3 b2 b3 k hne).1, (h.sides k2 k3 b2 b3 k hne).2.1, (h.sides k2 k3 b2 b3 k hne).2.2.1,
      fun x => (h.sides k2 k3 b2 b3 k hne).2.2.2 (hm x)⟩
  res_weight := h.res_weight
  res_ntri := h.res_ntri
  res_zeta := h.res_zeta

theorem flat_unitFar (cats : List (ℕ × List (Obj (EuclideanSpace ℝ (Fin 2))))) : UnitFar false cats := fun h => absurd h (by decide)

theorem flat_angles {p : Params} (hp : LogParams p)
    (T : Multiset (Obj (EuclideanSpace ℝ (Fin 2)) × Obj (EuclideanSpace ℝ (Fin 2)) × Obj (EuclideanSpace ℝ (Fin 2)))) (k2 k3 : ℤ) :
    ∀ q ∈ T.filter (InSides p k2 k3), flatPhase dist q.1.pos q.2.2.pos / flatPhase dist q.1.pos q.2.1.pos =
      Complex.exp (planeAngle q.1.pos q.2.1.pos q.2.2.pos * Complex.I) ∧ Opposite planeAngle q.1.pos q.2.1.pos q.2.2.pos := by
  rintro ⟨o1, o2, o3⟩ hq
  have := InSides.ne hp (Multiset.mem_filter.1 hq).2
  exact ⟨flat_phase_angle (fun e => this.1 (dist_eq_zero.2 e.symm)) (fun e => this.2 (dist_eq_zero.2 e.symm)),
    plane_opposite (fun e => this.1 (dist_eq_zero.2 e.symm)) (fun e => this.2 (dist_eq_zero.2 e.symm))⟩

theorem flat_conv {F : FinParams3} (hc : F.chord = false) :
    (fun x => x / F.sepUnits) = F.unitD ∧ (fun x => x - Real.log F.sepUnits) = F.unitLogD := by
  constructor <;> funext x <;> simp [FinParams3.unitD, FinParams3.unitLogD, hc]

section
variable (A : StdAlg (EuclideanSpace ℝ (Fin 2))) (g : Geom (EuclideanSpace ℝ (Fin 2))) (hg : g.Dominates) (fp : FieldParams)
  (hf : fp.minsize = 0) {p : Params} (hp : LogParams p) (hnb : 0 < p.nbins) (ha : p.a = 0)
  (same : List (Obj (EuclideanSpace ℝ (Fin 2))) → List (Obj (EuclideanSpace ℝ (Fin 2))) → Prop) (nn : Bool)
  {cats cats1 cats2 cats3 : List (ℕ × List (Obj (EuclideanSpace ℝ (Fin 2))))} (F : FinParams3) (hc : F.chord = false)
  (logd2 logd3 : ℤ → ℤ → ℤ → ℝ) (B : PhiBins) (given : Option ℕ) (init : Bool) (S0 : TriCorr (MpArr MpVals)) (self : SasObj (ℕ × ℕ × ℕ))
include hg hf hp hnb ha hc

/-- **C79, one catalogue, partly.** `process` of a `LogSAS` object with patches, default algorithm, flat coordinates, `angle_slop = 0`, no
two rows at the same place: the arrays are those of the undivided catalogue (C70), and the stored results of the patches add up to them.
Missing: rows at the same place, slop, coordinates on the sphere or in 3d. -/
theorem processSas_patches_auto_partial (hl : Apart (cats.flatMap Prod.snd)) :
    ∃ S, processSas (runPatches fun N => (mpKit A g fp p N (flatPhase dist) same nn).localAuto false p.maxsep true cats S0) F logd2 logd3 B
        given init true self = some S ∧
      SasArrays planeAngle p B (B.maxN given) (fun x => x / F.sepUnits) (fun x => x - Real.log F.sepUnits) True (orderedTriples (cats.flatMap Prod.snd)) S := by
  refine ⟨_, by rw [processSas_eq]; rfl, ?_⟩
  have h := sasArrays_of (φ := planeAngle) (B := B) (flat_angles hp _) (localMp_auto_partial A g hg fp hf hp hnb (B.maxN given) (flatPhase dist) same nn false (.inr ha)
    (flat_unitFar cats) S0) (fun n hn => ⟨hl, hn, .inr ⟨ha, flat_isPhase _ _⟩⟩) ⟨hl, ha⟩ F logd2 logd3
  exact h.mono (flat_conv hc).1 (flat_conv hc).2 fun _ => ⟨hl, ha⟩

/-- **C79, two catalogues, `ordered=True`, partly.** -/
theorem processSas_patches_cross12_partial (hl : Apart (cats2.flatMap Prod.snd)) :
    ∃ S, processSas (runPatches fun N => (mpKit A g fp p N (flatPhase dist) same nn).localCross12 false p.maxsep true true cats1 cats2 S0)
        F logd2 logd3 B given init true self = some S ∧
      SasArrays planeAngle p B (B.maxN given) (fun x => x / F.sepUnits) (fun x => x - Real.log F.sepUnits) True (cross12Triples (cats1.flatMap Prod.snd) (cats2.flatMap Prod.snd)) S := by
  refine ⟨_, by rw [processSas_eq]; rfl, ?_⟩
  have h := sasArrays_of (φ := planeAngle) (B := B) (flat_angles hp _) (localMp_cross12_partial A g hg fp hf hp hnb (B.maxN given) (flatPhase dist) same nn false (.inr ha)
    (flat_unitFar cats1) (flat_unitFar cats2) S0) (fun n hn => ⟨hl, hn, .inr ⟨ha, flat_isPhase _ _⟩⟩) ⟨hl, ha⟩ F logd2 logd3
  exact h.mono (flat_conv hc).1 (flat_conv hc).2 fun _ => ⟨hl, ha⟩

/-- **C79, two catalogues, `ordered=False`, partly.** Missing besides: `meanlogd3` (C57). -/
theorem processSas_patches_cross12_unordered_partial (hl : Apart (cats2.flatMap Prod.snd)) :
    ∃ S, processSas (runPatches fun N => (mpKit A g fp p N (flatPhase dist) same nn).localCross12 false p.maxsep true false cats1 cats2 S0)
        F logd2 logd3 B given init true self = some S ∧
      SasArrays planeAngle p B (B.maxN given) (fun x => x / F.sepUnits) (fun x => x - Real.log F.sepUnits) False (mixedTriples (cats1.flatMap Prod.snd) (cats2.flatMap Prod.snd)) S := by
  refine ⟨_, by rw [processSas_eq]; rfl, ?_⟩
  refine (sasArrays_of (φ := planeAngle) (B := B) (flat_angles hp _) (localMp_cross12_unordered_partial A g hg fp hf hp hnb (B.maxN given) (flatPhase dist) same nn false (.inr ha)
    (flat_unitFar cats1) (flat_unitFar cats2) S0) (fun n hn => ⟨hl, hn, .inr ⟨ha, flat_isPhase _ _⟩⟩) ⟨hl, ha⟩ F logd2 logd3).mono (flat_conv hc).1 (flat_conv hc).2 id

/-- **C79, three catalogues, `ordered=True`, partly.** -/
theorem processSas_patches_cross_partial :
    ∃ S, processSas (runPatches fun N => (mpKit A g fp p N (flatPhase dist) same nn).localCross false p.maxsep true .fixed cats1 cats2 cats3 S0)
        F logd2 logd3 B given init true self = some S ∧
      SasArrays planeAngle p B (B.maxN given) (fun x => x / F.sepUnits) (fun x => x - Real.log F.sepUnits) True (crossTriples (cats1.flatMap Prod.snd) (cats2.flatMap Prod.snd) (cats3.flatMap Prod.snd)) S := by
  refine ⟨_, by rw [processSas_eq]; rfl, ?_⟩
  have h := sasArrays_of (φ := planeAngle) (B := B) (flat_angles hp _) (localMp_cross_partial A g hg fp hf hp hnb (B.maxN given) (flatPhase dist) same nn false (.inr ha)
    (flat_unitFar cats1) (flat_unitFar cats2) (flat_unitFar cats3) S0) (fun n hn => ⟨hn, .inr ⟨ha, flat_isPhase _ _⟩⟩) ha F logd2 logd3
  exact h.mono (flat_conv hc).1 (flat_conv hc).2 fun _ => ha

/-- **C79, three catalogues, `ordered=1`, partly.** Missing besides: `meanlogd3`. -/
theorem processSas_patches_cross_first_partial :
    ∃ S, processSas (runPatches fun N => (mpKit A g fp p N (flatPhase dist) same nn).localCross false p.maxsep true .first cats1 cats2 cats3 S0)
        F logd2 logd3 B given init true self = some S ∧
      SasArrays planeAngle p B (B.maxN given) (fun x => x / F.sepUnits) (fun x => x - Real.log F.sepUnits) False (crossTriples (cats1.flatMap Prod.snd) (cats2.flatMap Prod.snd) (cats3.flatMap Prod.snd) +
        crossTriples (cats1.flatMap Prod.snd) (cats3.flatMap Prod.snd) (cats2.flatMap Prod.snd)) S := by
  refine ⟨_, by rw [processSas_eq]; rfl, ?_⟩
  refine (sasArrays_of (φ := planeAngle) (B := B) (flat_angles hp _) (localMp_cross_first_partial A g hg fp hf hp hnb (B.maxN given) (flatPhase dist) same nn false (.inr ha)
    (flat_unitFar cats1) (flat_unitFar cats2) (flat_unitFar cats3) S0) (fun n hn => ⟨hn, .inr ⟨ha, flat_isPhase _ _⟩⟩) ha F logd2 logd3).mono (flat_conv hc).1 (flat_conv hc).2 id

/-- **C79, three catalogues, `ordered=False`, partly.** Missing besides: `meanlogd3`. -/
theorem processSas_patches_cross_unordered_partial :
    ∃ S, processSas (runPatches fun N => (mpKit A g fp p N (flatPhase dist) same nn).localCross false p.maxsep true .any cats1 cats2 cats3 S0)
        F logd2 logd3 B given init true self = some S ∧
      SasArrays planeAngle p B (B.maxN given) (fun x => x / F.sepUnits) (fun x => x - Real.log F.sepUnits) False (mixed3Triples (cats1.flatMap Prod.snd) (cats2.flatMap Prod.snd) (cats3.flatMap Prod.snd)) S := by
  refine ⟨_, by rw [processSas_eq]; rfl, ?_⟩
  refine (sasArrays_of (φ := planeAngle) (B := B) (flat_angles hp _) (localMp_cross_unordered_partial A g hg fp hf hp hnb (B.maxN given) (flatPhase dist) same nn false (.inr ha)
    (flat_unitFar _) S0) (fun n hn => ⟨hn, .inr ⟨ha, flat_isPhase _ _⟩⟩) ha F logd2 logd3).mono (flat_conv hc).1 (flat_conv hc).2 id

end

/-! ### On the sphere -/

/-- Rows on the unit sphere, none at a pole, none opposite to one of the others. -/
def SkyRows (l1 l2 : List (Obj (EuclideanSpace ℝ (Fin 3)))) : Prop :=
  (∀ o ∈ l1, ‖o.pos‖ = 1 ∧ ¬ (o.pos 0 = 0 ∧ o.pos 1 = 0)) ∧ (∀ o ∈ l2, ‖o.pos‖ = 1) ∧ ∀ o1 ∈ l1, ∀ o2 ∈ l2, o2.pos ≠ -o1.pos

theorem sky_angles {p : Params} (hp : LogParams p) {l1 l2 : List (Obj (EuclideanSpace ℝ (Fin 3)))} (hl : SkyRows l1 l2)
    {T : Multiset (Obj (EuclideanSpace ℝ (Fin 3)) × Obj (EuclideanSpace ℝ (Fin 3)) × Obj (EuclideanSpace ℝ (Fin 3)))}
    (hT : ∀ q ∈ T, q.1 ∈ l1 ∧ q.2.1 ∈ l2 ∧ q.2.2 ∈ l2) (k2 k3 : ℤ) :
    ∀ q ∈ T.filter (InSides p k2 k3), sphPhase q.1.pos q.2.2.pos / sphPhase q.1.pos q.2.1.pos =
      Complex.exp (skyAngle q.1.pos q.2.1.pos q.2.2.pos * Complex.I) ∧ Opposite skyAngle q.1.pos q.2.1.pos q.2.2.pos := by
  rintro ⟨o1, o2, o3⟩ hq
  have := InSides.ne hp (Multiset.mem_filter.1 hq).2
  obtain ⟨m1, m2, m3⟩ := hT _ (Multiset.mem_filter.1 hq).1
  exact ⟨sph_phase_angle (hl.1 _ m1).1 (hl.2.1 _ m2) (hl.2.1 _ m3) (hl.1 _ m1).2 (fun e => this.1 (dist_eq_zero.2 e.symm))
    (hl.2.2 _ m1 _ m2) (fun e => this.2 (dist_eq_zero.2 e.symm)) (hl.2.2 _ m1 _ m3), sky_opposite _ _ _⟩

theorem sky_conv {F : FinParams3} (hc : F.chord = true) : (fun x => 2 * Real.arcsin (x / 2) / F.sepUnits) = F.unitD ∧
    (fun x => Real.log (2 * Real.arcsin (Real.exp x / 2)) - Real.log F.sepUnits) = F.unitLogD := by
  constructor <;> funext x <;> simp [FinParams3.unitD, FinParams3.unitLogD, hc]

section
variable (A : StdAlg (EuclideanSpace ℝ (Fin 3))) (g : Geom (EuclideanSpace ℝ (Fin 3))) (hg : g.Dominates) (fp : FieldParams)
  (hf : fp.minsize = 0) {p : Params} (hp : LogParams p) (hnb : 0 < p.nbins) (ha : p.a = 0)
  (same : List (Obj (EuclideanSpace ℝ (Fin 3))) → List (Obj (EuclideanSpace ℝ (Fin 3))) → Prop) (nn : Bool)
  {cats cats1 cats2 cats3 : List (ℕ × List (Obj (EuclideanSpace ℝ (Fin 3))))} (F : FinParams3) (hc : F.chord = true)
  (logd2 logd3 : ℤ → ℤ → ℤ → ℝ) (B : PhiBins) (given : Option ℕ) (init : Bool) (S0 : TriCorr (MpArr MpVals)) (self : SasObj (ℕ × ℕ × ℕ))
include hg hf hp hnb ha hc

/-- **C79, one catalogue on the sphere, partly.** The bins are those of the chords; the angle is the one between the great circles, clockwise
on the sky, and the mean sides are converted to angles.  Missing besides: rows at a pole or opposite to each other. -/
theorem processSas_patches_auto_sphere_partial (hs : SkyRows (cats.flatMap Prod.snd) (cats.flatMap Prod.snd))
    (hl : Apart (cats.flatMap Prod.snd)) :
    ∃ S, processSas (runPatches fun N => (mpKit A g fp p N sphPhase same nn).localAuto false p.maxsep true cats S0) F logd2 logd3 B
        given init true self = some S ∧
      SasArrays skyAngle p B (B.maxN given) (fun x => 2 * Real.arcsin (x / 2) / F.sepUnits)
        (fun x => Real.log (2 * Real.arcsin (Real.exp x / 2)) - Real.log F.sepUnits) True (orderedTriples (cats.flatMap Prod.snd)) S := by
  refine ⟨_, by rw [processSas_eq]; rfl, ?_⟩
  have h := sasArrays_of (φ := skyAngle) (B := B) (sky_angles hp hs fun q hq => mem_orderedTriples hq)
    (localMp_auto_partial A g hg fp hf hp hnb (B.maxN given) sphPhase same nn false (.inr ha)
    (fun h => absurd h (by decide)) S0) (fun n hn => ⟨hl, hn, .inr ⟨ha, sph_isPhase hs.1 hs.2.1 hs.2.2⟩⟩) ⟨hl, ha⟩ F logd2 logd3
  exact h.mono (sky_conv hc).1 (sky_conv hc).2 fun _ => ⟨hl, ha⟩

/-- **C79, three catalogues on the sphere, `ordered=True`, partly.** -/
theorem processSas_patches_cross_sphere_partial
    (hs : SkyRows (cats1.flatMap Prod.snd) (cats2.flatMap Prod.snd ++ cats3.flatMap Prod.snd)) :
    ∃ S, processSas (runPatches fun N => (mpKit A g fp p N sphPhase same nn).localCross false p.maxsep true .fixed cats1 cats2 cats3 S0)
        F logd2 logd3 B given init true self = some S ∧
      SasArrays skyAngle p B (B.maxN given) (fun x => 2 * Real.arcsin (x / 2) / F.sepUnits)
        (fun x => Real.log (2 * Real.arcsin (Real.exp x / 2)) - Real.log F.sepUnits) True
        (crossTriples (cats1.flatMap Prod.snd) (cats2.flatMap Prod.snd) (cats3.flatMap Prod.snd)) S := by
  refine ⟨_, by rw [processSas_eq]; rfl, ?_⟩
  have h := sasArrays_of (φ := skyAngle) (B := B) (sky_angles hp hs fun q hq => by
      have := mem_crossTriples.1 hq
      exact ⟨this.1, List.mem_append.2 (.inl this.2.1), List.mem_append.2 (.inr this.2.2)⟩)
    (localMp_cross_partial A g hg fp hf hp hnb (B.maxN given) sphPhase same nn false (.inr ha)
    (fun h => absurd h (by decide)) (fun h => absurd h (by decide)) (fun h => absurd h (by decide)) S0)
    (fun n hn => ⟨hn, .inr ⟨ha, sph_isPhase hs.1 hs.2.1 hs.2.2⟩⟩) ha F logd2 logd3
  exact h.mono (sky_conv hc).1 (sky_conv hc).2 fun _ => ha

end

/-! ### Concrete cases -/

/-- The hypotheses on the sphere, for three rows in two patches. -/
example : SkyRows (([(0, [ob3 1 0 0 0]), (1, [ob3 0 1 0 1, ob3 (3 / 5) (4 / 5) 0 2])] :
      List (ℕ × List (Obj (EuclideanSpace ℝ (Fin 3))))).flatMap Prod.snd)
    (([(0, [ob3 1 0 0 0]), (1, [ob3 0 1 0 1, ob3 (3 / 5) (4 / 5) 0 2])] : List (ℕ × List (Obj (EuclideanSpace ℝ (Fin 3))))).flatMap Prod.snd) := by
  have n1 : ‖pt3 1 0 0‖ = 1 := by rw [norm_pt3]; norm_num
  have n2 : ‖pt3 0 1 0‖ = 1 := by rw [norm_pt3]; norm_num
  have n3 : ‖pt3 (3 / 5) (4 / 5) 0‖ = 1 := by rw [norm_pt3]; norm_num
  have e : ([(0, [ob3 1 0 0 0]), (1, [ob3 0 1 0 1, ob3 (3 / 5) (4 / 5) 0 2])] : List (ℕ × List (Obj (EuclideanSpace ℝ (Fin 3))))).flatMap Prod.snd =
      [ob3 1 0 0 0, ob3 0 1 0 1, ob3 (3 / 5) (4 / 5) 0 2] := rfl
  rw [e]
  refine ⟨?_, ?_, ?_⟩
  · intro o ho
    simp only [List.mem_cons, List.not_mem_nil, or_false] at ho
    rcases ho with rfl | rfl | rfl
    · exact ⟨n1, fun h => by simpa [ob3, pt3] using h.1⟩
    · exact ⟨n2, fun h => by simpa [ob3, pt3] using h.2⟩
    · exact ⟨n3, fun h => by simpa [ob3, pt3] using h.1⟩
  · intro o ho
    simp only [List.mem_cons, List.not_mem_nil, or_false] at ho
    rcases ho with rfl | rfl | rfl
    · exact n1
    · exact n2
    · exact n3
  · intro o1 h1 o2 h2 e
    have e0 := congrArg (fun p : EuclideanSpace ℝ (Fin 3) => p 0) e
    have e1 := congrArg (fun p : EuclideanSpace ℝ (Fin 3) => p 1) e
    simp only [List.mem_cons, List.not_mem_nil, or_false] at h1 h2
    rcases h1 with rfl | rfl | rfl <;> rcases h2 with rfl | rfl | rfl <;> simp [ob3, pt3] at e0 e1 <;> linarith

/-- C79 applied to the right angle of `exRight` with the row at the corner in a patch of its own: both sides are 2, in units of 2, 1. -/
example (S0 : TriCorr (MpArr MpVals)) (self : SasObj (ℕ × ℕ × ℕ)) : ∃ S, processSas (runPatches fun N =>
      (mpKit (sortAlg _ 0) (euclidGeom 2) exFp exMp N (flatPhase dist) (fun _ _ => False) true).localAuto false exMp.maxsep true
        [(0, [ob 0 0 0]), (1, [ob 2 0 1, ob 0 2 2])] S0)
      exFin3 (fun _ _ _ => 0) (fun _ _ _ => 0) ⟨0, Real.pi, 2, 1⟩ none true true self = some S ∧ S.meand2 0 0 1 = 1 ∧ S.meand3 0 0 1 = 1 := by
  obtain ⟨S, e, h⟩ := processSas_patches_auto_partial (sortAlg _ 0) (euclidGeom 2) (euclidGeom_dominates 2) exFp rfl exMp_ok
    (by norm_num [exMp]) rfl (fun _ _ => False) true (cats := [(0, [ob 0 0 0]), (1, [ob 2 0 1, ob 0 2 2])]) exFin3 rfl (fun _ _ _ => 0)
    (fun _ _ _ => 0) ⟨0, Real.pi, 2, 1⟩ none true S0 self exRight.1
  have k0 : exMp.hasBin 0 := by norm_num [Params.hasBin, exMp]
  have hT : (orderedTriples (([(0, [ob 0 0 0]), (1, [ob 2 0 1, ob 0 2 2])] : List (ℕ × List (Obj (EuclideanSpace ℝ (Fin 2))))).flatMap Prod.snd)).filter
      (InSides exMp 0 0) = _ := exRight.2
  have h1 := h.sides 0 0 k0 k0 1
  rw [hT] at h1
  have d1 : dist (pt 0 0) (pt 2 0) = 2 := by rw [dist_pt_x]; norm_num
  have d2 : dist (pt 0 0) (pt 0 2) = 2 := by
    rw [dist_pt, show ((0 : ℝ) - 0) ^ 2 + (0 - 2) ^ 2 = 2 ^ 2 by norm_num, Real.sqrt_sq (by norm_num)]
  obtain ⟨a, b, -⟩ := h1 (by norm_num [brute3])
  refine ⟨S, e, ?_, ?_⟩
  · rw [a]; simp [mean3, brute3, side2, d1, d2, exFin3]; norm_num
  · rw [b]; simp [mean3, brute3, side3, d1, d2, exFin3]; norm_num

end
end TreeCorr
