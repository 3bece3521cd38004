import Verif.Model.Metric
import Verif.Spec.Metric

/-!
C27: which metrics are accepted with which coordinate systems, and which metric then runs.
-/

namespace TreeCorr

/-- **C27**, auto-correlations: the metric is accepted exactly where it is documented, and in addition `Periodic` with
spherical coordinates, which the documentation calls invalid. -/
theorem metric_auto_iff_partial (m c : String) (r : String × String) :
    parseMetric m c none none = .ok r ↔
      (DocAuto m c ∨ (m = "Periodic" ∧ c = "spherical")) ∧ r = (c, m) := by
  have hrl : ¬ (m = "Rlens" ∧ DocAuto m c) := by
    rintro ⟨rfl, h⟩
    simp [DocAuto] at h
  unfold parseMetric
  simp only [Option.isNone_none, if_true]
  split_ifs with h1 h2 h3 h4 h5 h6 <;> simp only [reduceCtorEq, false_iff, not_and, Except.ok.injEq] <;>
    simp only [DocAuto, IsCoords, List.mem_cons, List.not_mem_nil, or_false, not_or, not_and, not_not] at * <;>
    grind

/-- **C27**, cross-correlations. -/
theorem metric_cross_iff_partial (m c1 c2 : String) (r : String × String) :
    parseMetric m c1 (some c2) none = .ok r ↔
      ∃ c, (DocCross m c1 c2 c ∨ (m = "Periodic" ∧ c1 = "spherical" ∧ c2 = "spherical" ∧ c = "spherical")) ∧ r = (c, m) := by
  have hn : ¬ (none : Option String) ≠ none := by simp
  unfold parseMetric
  by_cases hA : m = "Arc"
  · subst hA
    by_cases h1 : c1 = "3d" <;> by_cases h2 : c2 = "3d" <;> by_cases h3 : c1 = "spherical" <;>
      by_cases h4 : c2 = "spherical" <;> simp [h1, h2, h3, h4, DocCross] <;> grind
  · by_cases hR : m = "Rlens"
    · subst hR
      by_cases h1 : c1 = "3d" <;> by_cases h2 : c2 = "3d" <;>
      by_cases h4 : c2 = "spherical" <;> simp [h1, h2, h4, DocCross, DocAuto] <;> grind
    · by_cases he : c2 = c1
      · subst he
        simp only [Option.isNone_some, hA, hR, false_and, if_false, Bool.false_eq_true, ne_eq, not_true, or_self,
          DocCross, DocAuto, IsCoords]
        split_ifs <;> simp only [reduceCtorEq, false_iff, Except.ok.injEq] <;>
          simp only [List.mem_cons, List.not_mem_nil, or_false, not_or, not_and, not_not] at *
        all_goals
          first
          | (refine ⟨fun h => ⟨c2, ?_, h.symm⟩, ?_⟩
             · grind
             · rintro ⟨c, h, rfl⟩; grind)
          | grind
      · simp [hA, hR, he, DocCross]
        grind

/-- **C27**: catalogues with flat positions never go together with others, whatever the metric, for two catalogues and
for three. -/
theorem mixed_flat_rejected (m c1 c2 : String) (c3 : Option String)
    (hmix : (∃ c ∈ [some c1, some c2, c3], c = some "flat") ∧ ∃ c ∈ [some c1, some c2, c3], c ≠ some "flat" ∧ c ≠ none) :
    parseMetric m c1 (some c2) c3 = .error .valueError := by
  unfold parseMetric
  cases c3 with
  | none =>
    by_cases hA : m = "Arc"
    · subst hA; simp at hmix ⊢; grind
    · by_cases hR : m = "Rlens" <;> simp [hA, hR] at hmix ⊢ <;> grind
  | some c3 =>
    by_cases hA : m = "Arc"
    · subst hA; simp at hmix ⊢; grind
    · by_cases hR : m = "Rlens" <;> simp [hA, hR] at hmix ⊢ <;> grind

/-- The metric that a name stands for. -/
def metricOf : String → Option CMetric
  | "Euclidean" => some .euclidean
  | "Rperp" => some .rperp
  | "FisherRperp" => some .rperp
  | "OldRperp" => some .oldRperp
  | "Rlens" => some .rlens
  | "Arc" => some .arc
  | "Periodic" => some .periodic
  | _ => none

/-- **C27**: whenever the settings are accepted, and they are not `Periodic` on the sphere, the code of the metric that was
asked for runs. -/
theorem run_metric_partial (S : MetricSettings) (m c1 : String) (c2 : Option String) (k : CMetric)
    (hr : runMetric S m c1 c2 = .ok k) (hp : ¬ (m = "Periodic" ∧ c1 = "spherical")) :
    metricOf m = some k := by
  unfold runMetric at hr
  cases hs : setMetric S m c1 c2 with
  | error e => rw [hs] at hr; cases hr
  | ok r =>
    rw [hs] at hr
    have hpm : parseMetric m c1 c2 none = .ok r := by
      unfold setMetric at hs
      cases h : parseMetric m c1 c2 none with
      | error e => rw [h] at hs; cases hs
      | ok r' =>
        rw [h] at hs
        obtain ⟨c', m'⟩ := r'
        simp only at hs
        split_ifs at hs <;> simpa using hs
    have key : ∃ c, r = (c, m) ∧ ((DocAuto m c ∧ c = c1) ∨ ∃ c2, DocCross m c1 c2 c) := by
      cases c2 with
      | none =>
        rw [metric_auto_iff_partial] at hpm
        exact ⟨c1, hpm.2, .inl ⟨hpm.1.resolve_right hp, rfl⟩⟩
      | some c2 =>
        rw [metric_cross_iff_partial] at hpm
        obtain ⟨c, h, hr'⟩ := hpm
        exact ⟨c, hr', .inr ⟨c2, h.resolve_right (fun h => hp ⟨h.1, h.2.1⟩)⟩⟩
    obtain ⟨c, rfl, hd⟩ := key
    clear hs hpm
    simp only [DocCross, DocAuto, IsCoords] at hd
    have hd' : (m = "Euclidean" ∧ (c = "flat" ∨ c = "spherical" ∨ c = "3d")) ∨ (m = "Arc" ∧ (c = "spherical" ∨ c = "3d")) ∨
        ((m = "Rperp" ∨ m = "FisherRperp" ∨ m = "OldRperp") ∧ c = "3d") ∨
        (m = "Periodic" ∧ (c = "flat" ∨ c = "3d")) ∨ (m = "Rlens" ∧ c = "3d") := by
      grind
    rcases hd' with ⟨rfl, rfl | rfl | rfl⟩ | ⟨rfl, rfl | rfl⟩ | ⟨rfl | rfl | rfl, rfl⟩ | ⟨rfl, rfl | rfl⟩ | ⟨rfl, rfl⟩ <;>
      simp [coordEnum, metricEnum, validMC, helperHas] at hr <;> subst hr <;> rfl

/-- C27 fails for `Periodic` with spherical coordinates: it is accepted (given periods), and the code for the Euclidean
metric runs instead. -/
theorem periodic_sphere_wrong :
    runMetric ⟨false, false, false, true, true, true⟩ "Periodic" "spherical" none = .ok .euclidean ∧
      metricOf "Periodic" ≠ some .euclidean := by
  constructor
  · simp [runMetric, setMetric, parseMetric, coordEnum, metricEnum, validMC, helperHas]
  · decide

/-- The limits on the line-of-sight separation need distances for both catalogues (docs/metric.rst, Rlens), but are accepted
for sources without distances. -/
theorem rlens_rpar_without_distance_accepted :
    runMetric ⟨false, false, true, false, false, false⟩ "Rlens" "3d" (some "spherical") = .ok .rlens := by
  simp [runMetric, setMetric, parseMetric, coordEnum, metricEnum, validMC, helperHas]

/-- **C27**: with which other settings an accepted metric can be used. -/
theorem set_metric_ok_iff (S : MetricSettings) (m c1 : String) (c2 : Option String) (c m' : String) :
    setMetric S m c1 c2 = .ok (c, m') ↔ parseMetric m c1 c2 none = .ok (c, m') ∧
      (S.rparSet = true → c = "3d") ∧ (S.twoD = true → c = "flat" ∧ m' = "Euclidean") ∧
      (S.sepUnits = true → c = "3d" → m' = "Arc") ∧
      (m' = "Periodic" → S.xp = true ∧ S.yp = true ∧ (c = "3d" → S.zp = true)) ∧
      (m' ≠ "Periodic" → S.xp = false ∧ S.yp = false ∧ S.zp = false) := by
  unfold setMetric
  cases parseMetric m c1 c2 none with
  | error e => simp
  | ok r =>
    obtain ⟨c', m''⟩ := r
    simp only [Except.ok.injEq, Prod.mk.injEq]
    obtain ⟨t, u, rp, x, y, z⟩ := S
    simp only
    split_ifs <;> simp only [reduceCtorEq, false_iff, Except.ok.injEq, Prod.mk.injEq] <;> grind

/-- The documentation (`/repo/treecorr/corr2base.py:81-84`) says that `Rperp` means `OldRperp` after
`treecorr.Rperp_alias = 'OldRperp'`.  The assignment has no effect. -/
theorem rperp_alias_ignored (v : String) :
    metricEnumIn (AliasNames.imported.assign v) "Rperp" = .ok .rperp ∧ metricEnum "OldRperp" = .ok .oldRperp := by
  simp [metricEnumIn, AliasNames.imported, AliasNames.assign, metricEnum]

/-- Lenses with distances and sources without: accepted for `Rlens` only. -/
example : parseMetric "Rlens" "3d" (some "spherical") none = .ok ("3d", "Rlens") ∧
    parseMetric "Rperp" "3d" (some "spherical") none = .error .valueError := by
  constructor <;> simp [parseMetric]

example : runMetric ⟨false, true, false, false, false, false⟩ "Arc" "spherical" (some "3d") = .ok .arc := by
  simp [runMetric, setMetric, parseMetric, coordEnum, metricEnum, validMC, helperHas]

end TreeCorr
