import Verif.Props.ToSasCases
import Verif.Props.Finalize3Sphere

/-!
C70, continued: the sides and angles that a converted object reports.
-/

namespace TreeCorr
open Classical
noncomputable section

/-- **C70**: the angle of every bin is its centre, in the user's units, the third side follows from the other two and this angle, its
logarithm is the logarithm of it, and the totals are kept. -/
theorem toSas_nominal {K : Type} (M : MpObj K) {B : PhiBins} (hB : B.Ok) (hu : 0 < B.units) (i j k : ℤ) (h0 : 0 ≤ k) (hk : k < B.n) :
    let S := toSas M B
    let φ := S.meanphi i j k * B.units
    φ = B.minphi + (k + 1 / 2) * ((B.maxphi - B.minphi) / B.n) ∧ B.minphi < φ ∧ φ < B.maxphi ∧
    S.meand1 i j k ^ 2 = S.meand2 i j k ^ 2 + S.meand3 i j k ^ 2 - 2 * S.meand2 i j k * S.meand3 i j k * Real.cos φ ∧
    0 ≤ S.meand1 i j k ∧ S.meanlogd1 i j k = Real.log (S.meand1 i j k) ∧ S.tot = M.tot ∧
    S.results.map (fun r => (r.1, r.2.tot)) = M.results.map (fun r => (r.1, r.2.tot)) := by
  intro S φ
  have hφ : φ = B.phi k := div_mul_cancel₀ _ hu.ne'
  refine ⟨?_, ?_, ?_, ?_, Real.sqrt_nonneg _, rfl, rfl, ?_⟩
  · rw [hφ]; unfold PhiBins.phi PhiBins.size; ring
  · rw [hφ]; exact (hB.mem h0 hk).1
  · rw [hφ]; exact (hB.mem h0 hk).2
  · rw [hφ]
    refine Real.sq_sqrt ?_
    have c1 := Real.cos_le_one (B.phi k)
    have c2 := Real.neg_one_le_cos (B.phi k)
    show 0 ≤ M.meand2 i j 0 ^ 2 + M.meand3 i j 0 ^ 2 - 2 * M.meand2 i j 0 * M.meand3 i j 0 * Real.cos (B.phi k)
    nlinarith [sq_nonneg (M.meand2 i j 0 - M.meand3 i j 0 * Real.cos (B.phi k)), sq_nonneg (M.meand3 i j 0),
      mul_nonneg (sq_nonneg (M.meand3 i j 0)) (by nlinarith : 0 ≤ 1 - Real.cos (B.phi k) ^ 2)]
  · show (M.results.map _).map _ = _
    rw [List.map_map]; rfl

/-- **C70, one catalogue in the plane, partly.** The two sides of an entry are the weighted means over all its triangles, whatever their
angle, in the user's units; an entry without weight has the nominal sides. -/
theorem processSas_plane_sides_partial {K : Type} {p : Params} (hp : LogParams p) (hnb : 0 < p.nbins) (ha : p.a = 0)
    (A : StdAlg (EuclideanSpace ℝ (Fin 2))) (g : Geom (EuclideanSpace ℝ (Fin 2))) (hg : g.Dominates) (fp : FieldParams)
    (hf : fp.minsize = 0) (l : List (Obj (EuclideanSpace ℝ (Fin 2)))) (hl : Apart l)
    (F : FinParams3) (hc : F.chord = false) (logd2 logd3 : ℤ → ℤ → ℤ → ℝ) (B : PhiBins) (given : Option ℕ) (init : Bool) (self : SasObj K) :
    ∃ S, processSas (runAuto p (flatPhase dist) (buildField A g fp l).cells) F logd2 logd3 B given init true self = some S ∧
      ∀ k2 k3, p.hasBin k2 → p.hasBin k3 → ∀ k,
        (brute3 (fun _ => 1) ((orderedTriples l).filter (InSides p k2 k3)) ≠ 0 →
          S.meand2 k2 k3 k = mean3 side2 ((orderedTriples l).filter (InSides p k2 k3)) / F.sepUnits ∧
          S.meand3 k2 k3 k = mean3 side3 ((orderedTriples l).filter (InSides p k2 k3)) / F.sepUnits ∧
          S.meanlogd2 k2 k3 k = mean3 (fun t => Real.log (side2 t)) ((orderedTriples l).filter (InSides p k2 k3)) - Real.log F.sepUnits ∧
          S.meanlogd3 k2 k3 k = mean3 (fun t => Real.log (side3 t)) ((orderedTriples l).filter (InSides p k2 k3)) - Real.log F.sepUnits) ∧
        (brute3 (fun _ => 1) ((orderedTriples l).filter (InSides p k2 k3)) = 0 →
          S.meand2 k2 k3 k = Real.exp (logd2 k2 k3 (B.maxN given)) ∧ S.meand3 k2 k3 k = Real.exp (logd3 k2 k3 (B.maxN given)) ∧
          S.meanlogd2 k2 k3 k = logd2 k2 k3 (B.maxN given) ∧ S.meanlogd3 k2 k3 k = logd3 k2 k3 (B.maxN given)) := by
  set N := B.maxN given with hN
  obtain ⟨out, e, h⟩ := multipole_plane_exact_partial hp hnb ha N A g hg fp hf l hl
  obtain ⟨out', e', -, h'⟩ := multipole_auto_exact_partial hp hnb (.inr ha) N (flatPhase dist) A g hg fp hf l
  obtain rfl : out = out' := Option.some.inj (e.symm.trans e')
  obtain ⟨hm, hm3⟩ := (h' hl).2 ha
  refine ⟨toSas (((MpObj.new K N).add out).finalize F logd2 logd3) B, ?_, ?_⟩
  · rw [processSas_eq]
    show Option.map _ ((multipoleAuto p N (flatPhase dist) (buildField A g fp l).cells).map (MpObj.new K N).add) = _
    rw [e]; rfl
  · intro k2 k3 b2 b3 k
    set T := (orderedTriples l).filter (InSides p k2 k3)
    obtain ⟨m1, m2, m3⟩ := hm k2 k3 b2 b3
    have m4 := hm3 k2 k3 b2 b3
    set M := (MpObj.new K N).add out with hM
    have hw : (M.weight k2 k3 N).re = brute3 (fun _ => 1) T := by
      have h0 := (h 0 (by simp) k2 k3 b2 b3).1
      have e1 : M.weight k2 k3 N = 0 + mpTotal (fun v => v.weight ((N : ℤ) - N)) out k2 k3 := rfl
      rw [e1, zero_add, sub_self, h0]
      have e2 : angleW planeAngle 0 T = ((brute3 (fun _ => 1) T : ℝ) : ℂ) := by
        unfold angleW brute3
        clear_value T
        induction T using Multiset.induction with
        | empty => simp
        | cons q T ih =>
          rw [Multiset.map_cons, Multiset.sum_cons, Multiset.map_cons, Multiset.sum_cons, ih]
          push_cast; simp
      rw [e2, Complex.ofReal_re]
    have at0 : ∀ (f : MpVals → ℝ), (if (N : ℤ) = N then (0 : ℝ) + mpTotal f out k2 k3 else 0) = mpTotal f out k2 k3 := by
      intro f; rw [if_pos rfl, zero_add]
    obtain ⟨-, -, f1, f2⟩ := finalize_mp F hc logd2 logd3 N
      ⟨M.ntri, fun i j n => (M.weight i j n).re, M.meand2, M.meanlogd2, M.meand3, M.meanlogd3⟩ k2 k3 0
    simp only [hw] at f1 f2
    have v2 : M.meand2 k2 k3 N = brute3 side2 T := (at0 _).trans m1
    have v2l : M.meanlogd2 k2 k3 N = brute3 (fun q => Real.log (side2 q)) T := (at0 _).trans m2
    have v3 : M.meand3 k2 k3 N = brute3 side3 T := (at0 _).trans m3
    have v3l : M.meanlogd3 k2 k3 N = brute3 (fun q => Real.log (side3 q)) T := (at0 _).trans m4
    rw [v2, v3, v2l, v3l] at f1
    constructor
    · intro hne
      obtain ⟨a, b, c, d⟩ := f1 hne
      exact ⟨a, b, c, d⟩
    · intro hz
      exact f2 hz

/-- C70 applied to the right angle of `exRight`: both sides are 2, in every angle bin; in units of 2, 1. -/
example : ∃ S, processSas (K := Unit) (runAuto exMp (flatPhase dist)
      (buildField (sortAlg _ 0) (euclidGeom 2) exFp [ob 0 0 0, ob 2 0 1, ob 0 2 2]).cells)
    exFin3 (fun _ _ _ => 0) (fun _ _ _ => 0) ⟨0, Real.pi, 2, 1⟩ none true true
    ⟨0, 0, 0, 0, 0, 0, 0, 0, 0, 0, 0, []⟩ = some S ∧ S.meand2 0 0 1 = 1 ∧ S.meand3 0 0 1 = 1 := by
  obtain ⟨S, e, h⟩ := processSas_plane_sides_partial (K := Unit) exMp_ok (by norm_num [exMp]) rfl (sortAlg _ 0) (euclidGeom 2)
    (euclidGeom_dominates 2) exFp rfl _ exRight.1 exFin3 rfl (fun _ _ _ => 0) (fun _ _ _ => 0) ⟨0, Real.pi, 2, 1⟩ none true
    ⟨0, 0, 0, 0, 0, 0, 0, 0, 0, 0, 0, []⟩
  have k0 : exMp.hasBin 0 := by norm_num [Params.hasBin, exMp]
  obtain ⟨h1, -⟩ := h 0 0 k0 k0 1
  rw [exRight.2] at h1
  have d1 : dist (pt 0 0) (pt 2 0) = 2 := by rw [dist_pt_x]; norm_num
  have d2 : dist (pt 0 0) (pt 0 2) = 2 := by
    rw [dist_pt, show ((0 : ℝ) - 0) ^ 2 + (0 - 2) ^ 2 = 2 ^ 2 by norm_num, Real.sqrt_sq (by norm_num)]
  obtain ⟨a, b, -⟩ := h1 (by norm_num [brute3])
  refine ⟨S, e, ?_, ?_⟩
  · rw [a]; simp [mean3, brute3, side2, d1, d2, exFin3]; norm_num
  · rw [b]; simp [mean3, brute3, side3, d1, d2, exFin3]; norm_num

end
end TreeCorr
