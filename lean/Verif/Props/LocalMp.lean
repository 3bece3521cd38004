import Verif.Proofs.LocalMp
import Verif.Props.Local
import Verif.Props.Multipole
import Verif.Props.MultipoleCases
import Verif.Props.MultipoleG
import Verif.Props.MultipoleGCases

/-!
C78: `process` with patches and `LogMultipole` bins (always `patch_method='local'`) gives the arrays of the undivided catalogue.
-/

namespace TreeCorr
open Classical
noncomputable section

theorem IsPhase.mono {P : Type} [PseudoMetricSpace P] {ph : P → P → ℂ} {l1 l2 l1' l2' : List (Obj P)} (h : IsPhase ph l1 l2)
    (h1 : ∀ o ∈ l1', o ∈ l1) (h2 : ∀ o ∈ l2', o ∈ l2) : IsPhase ph l1' l2' :=
  ⟨fun o1 m1 o2 m2 => h.unit o1 (h1 o1 m1) o2 (h2 o2 m2), h.same⟩

theorem IsProj.mono {P : Type} [PseudoMetricSpace P] {ph fac : P → P → ℂ} {l1 l2 l1' l2' : List (Obj P)} (h : IsProj ph fac l1 l2)
    (h1 : ∀ o ∈ l1', o ∈ l1) (h2 : ∀ o ∈ l2', o ∈ l2) : IsProj ph fac l1' l2' :=
  ⟨h.phase.mono h1 h2, fun o1 m1 o2 m2 => h.unit o1 (h1 o1 m1) o2 (h2 o2 m2), h.same⟩

theorem Apart.sub {P : Type} [PseudoMetricSpace P] {l l' : List (Obj P)} (h : Apart l) (hs : l'.Sublist l) : Apart l' :=
  List.Pairwise.sublist hs h

section
variable {d : ℕ} (A : StdAlg (EuclideanSpace ℝ (Fin d))) (g : Geom (EuclideanSpace ℝ (Fin d))) (hg : g.Dominates) (fp : FieldParams)
  (hf : fp.minsize = 0) {p : Params} (hp : LogParams p) (hnb : 0 < p.nbins) (maxn : ℕ)
  (ph : EuclideanSpace ℝ (Fin d) → EuclideanSpace ℝ (Fin d) → ℂ)
  (same : List (Obj (EuclideanSpace ℝ (Fin d))) → List (Obj (EuclideanSpace ℝ (Fin d))) → Prop) (nn threeD : Bool)
  {cats cats1 cats2 cats3 : List (ℕ × List (Obj (EuclideanSpace ℝ (Fin d))))}

theorem rows_of {c : ℕ × List (Obj (EuclideanSpace ℝ (Fin d)))} (hc : c ∈ cats) : ∀ o ∈ c.2, o ∈ cats.flatMap Prod.snd :=
  fun _ ho => List.mem_flatMap.2 ⟨c, hc, ho⟩

/-! ### Counts and scalars -/

section scalar
variable (hsh : p.b = 0 ∨ p.a = 0)
include hg hf hp hnb hsh

theorem mp_job12 {N : ℤ → Prop} {m : Prop} {c l2 L : List (Obj (EuclideanSpace ℝ (Fin d)))} (hL : L.Sublist l2)
    (hN : ∀ n, N n → Apart l2 ∧ n.natAbs ≤ maxn ∧ (n = 0 ∨ p.a = 0 ∧ IsPhase ph c l2)) (hm : m → Apart l2 ∧ p.a = 0) :
    MpArrays p ph N m m (cross12Triples c L) ((mpKit A g fp p maxn ph same nn).cross12 true c L) := by
  obtain ⟨out, e, h1, h2⟩ := multipole_cross12_exact_partial hp hnb hsh maxn ph A A g hg fp fp hf hf c L
  refine mpArrays_of e h1 (fun n hn => ?_) (fun h => ((h2 ((hm h).1.sub hL)).2 (hm h).2).1)
    (fun h => ((h2 ((hm h).1.sub hL)).2 (hm h).2).2)
  obtain ⟨ha, hn1, hn2⟩ := hN n hn
  exact (h2 (ha.sub hL)).1 n hn1 (hn2.imp id fun ⟨h, h'⟩ => ⟨h, h'.mono (fun _ h => h) fun o ho => hL.subset ho⟩)

theorem mp_job123 {N : ℤ → Prop} {m : Prop} {c l L L' : List (Obj (EuclideanSpace ℝ (Fin d)))} (hL : ∀ o ∈ L, o ∈ l) (hL' : ∀ o ∈ L', o ∈ l)
    (hN : ∀ n, N n → n.natAbs ≤ maxn ∧ (n = 0 ∨ p.a = 0 ∧ IsPhase ph c l)) (hm : m → p.a = 0) :
    MpArrays p ph N m m (crossTriples c L L') ((mpKit A g fp p maxn ph same nn).cross .fixed c L L') := by
  obtain ⟨out, e, h1, h2, h3⟩ := multipole_cross123_exact_partial hp hnb hsh maxn ph A A A g hg fp fp fp hf hf hf c L L'
  refine mpArrays_of e h1 (fun n hn => ?_) (fun h => (h3 (hm h)).1) (fun h => (h3 (hm h)).2)
  obtain ⟨hn1, hn2⟩ := hN n hn
  exact h2 n hn1 (hn2.imp id fun ⟨h, h'⟩ => ⟨h, h'.mono (fun _ h => h) fun o ho => (List.mem_append.1 ho).elim (hL o) (hL' o)⟩)

theorem mp_job123_first {N : ℤ → Prop} {m : Prop} {c l L L' : List (Obj (EuclideanSpace ℝ (Fin d)))} (hL : ∀ o ∈ L, o ∈ l)
    (hL' : ∀ o ∈ L', o ∈ l) (hN : ∀ n, N n → n.natAbs ≤ maxn ∧ (n = 0 ∨ p.a = 0 ∧ IsPhase ph c l)) (hm : m → p.a = 0) :
    MpArrays p ph N m False (crossTriples c L L' + crossTriples c L' L) ((mpKit A g fp p maxn ph same nn).cross .first c L L') := by
  obtain ⟨out, e, h1, h2, h3⟩ := multipole_cross123_first_exact_partial hp hnb hsh maxn ph A A A g hg fp fp fp hf hf hf c L L'
  refine mpArrays_of e h1 (fun n hn => ?_) (fun h => h3 (hm h)) (fun h => h.elim)
  obtain ⟨hn1, hn2⟩ := hN n hn
  exact h2 n hn1 (hn2.imp id fun ⟨h, h'⟩ => ⟨h, h'.mono (fun _ h => h) fun o ho => (List.mem_append.1 ho).elim (hL o) (hL' o)⟩)

/-- **C78, one catalogue, partly.** `process(cat)` on a catalogue with patches, with `bin_slop = 0` or `angle_slop = 0`: `ntri` is that of
the whole catalogue, however it is divided; if no two rows are at the same place, the total weight and correlation are; with
`angle_slop = 0` so are all multipoles with `|n| ≤ max_n` and the sums of the sides and of their logarithms.  Missing: rows at the same
place (C57), slop, 3d coordinates nearer than 1 to the origin, other metrics. -/
theorem localMp_auto_partial (hu : UnitFar threeD cats) (S : TriCorr (MpArr MpVals)) :
    Whole (MpArrays p ph (fun n => Apart (cats.flatMap Prod.snd) ∧ n.natAbs ≤ maxn ∧
        (n = 0 ∨ p.a = 0 ∧ IsPhase ph (cats.flatMap Prod.snd) (cats.flatMap Prod.snd)))
      (Apart (cats.flatMap Prod.snd) ∧ p.a = 0) (Apart (cats.flatMap Prod.snd) ∧ p.a = 0) (orderedTriples (cats.flatMap Prod.snd)))
      ((mpKit A g fp p maxn ph same nn).localAuto threeD p.maxsep true cats S) :=
  mp_localAuto hp (mpArrays_rel rfl ph _ _ _) rfl (hu.near hu) (fun _ hc _ hL => mp_job12 A g hg fp hf hp hnb maxn ph same nn hsh hL
    (fun _ ⟨ha, h1, h2⟩ => ⟨ha, h1, h2.imp id fun ⟨h, h'⟩ => ⟨h, h'.mono (rows_of hc) fun _ h => h⟩⟩) fun h => h) S

/-- **C78, the stored results, one catalogue, partly.** The entry of a patch holds the triangles with their first point in it. -/
theorem localMp_auto_patches_partial (hu : UnitFar threeD cats) (hid : (cats.map Prod.fst).Nodup) (S : TriCorr (MpArr MpVals)) :
    ∃ res : List (Obj (EuclideanSpace ℝ (Fin d))) → Res3 (MpArr MpVals),
      ((mpKit A g fp p maxn ph same nn).localAuto threeD p.maxsep true cats S).results = cats.map (fun c => ((c.1, c.1, c.1), res c.2)) ∧
      ∀ c ∈ cats, MpArrays p ph (fun n => Apart (cats.flatMap Prod.snd) ∧ n.natAbs ≤ maxn ∧
        (n = 0 ∨ p.a = 0 ∧ IsPhase ph (cats.flatMap Prod.snd) (cats.flatMap Prod.snd)))
        (Apart (cats.flatMap Prod.snd) ∧ p.a = 0) (Apart (cats.flatMap Prod.snd) ∧ p.a = 0)
        (cross12Triples c.2 (cats.flatMap Prod.snd)) (res c.2).acc := by
  refine ⟨fun c => (mpKit A g fp p maxn ph same nn).localRes12 ((mpKit A g fp p maxn ph same nn).allSumw cats) c
    (expandPatch threeD p.maxsep c (cats.map Prod.snd)), ?_, fun c hc => ?_⟩
  · have h := localPass_results (K := mpKit A g fp p maxn ph same nn) (S := TriCorr.clear) (res := fun c =>
      (mpKit A g fp p maxn ph same nn).localRes12 ((mpKit A g fp p maxn ph same nn).allSumw cats) c
        (expandPatch threeD p.maxsep c (cats.map Prod.snd))) hid (by simp [TriCorr.clear])
    rw [show (TriCorr.clear : TriCorr (MpArr MpVals)).results = [] from rfl, List.nil_append] at h
    exact h
  have h := mp_res12 (cats2 := cats) (c1 := c) (threeD := threeD) hp (mpArrays_rel (K := mpKit A g fp p maxn ph same nn) rfl ph
    (fun n => Apart (cats.flatMap Prod.snd) ∧ n.natAbs ≤ maxn ∧ (n = 0 ∨ p.a = 0 ∧ IsPhase ph (cats.flatMap Prod.snd) (cats.flatMap Prod.snd)))
    (Apart (cats.flatMap Prod.snd) ∧ p.a = 0) (Apart (cats.flatMap Prod.snd) ∧ p.a = 0)) rfl (hu.near hu c hc) (fun L hL => by
      rw [from12_first_eq]
      exact mp_job12 A g hg fp hf hp hnb maxn ph same nn hsh hL
        (fun _ ⟨ha, h1, h2⟩ => ⟨ha, h1, h2.imp id fun ⟨h, h'⟩ => ⟨h, h'.mono (rows_of hc) fun _ h => h⟩⟩) fun h => h)
    ((mpKit A g fp p maxn ph same nn).allSumw cats)
  rwa [from12_first_eq] at h

/-- **C78, two catalogues, `ordered=True`, partly.** -/
theorem localMp_cross12_partial (hu1 : UnitFar threeD cats1) (hu2 : UnitFar threeD cats2) (S : TriCorr (MpArr MpVals)) :
    Whole (MpArrays p ph (fun n => Apart (cats2.flatMap Prod.snd) ∧ n.natAbs ≤ maxn ∧
        (n = 0 ∨ p.a = 0 ∧ IsPhase ph (cats1.flatMap Prod.snd) (cats2.flatMap Prod.snd)))
      (Apart (cats2.flatMap Prod.snd) ∧ p.a = 0) (Apart (cats2.flatMap Prod.snd) ∧ p.a = 0)
      (cross12Triples (cats1.flatMap Prod.snd) (cats2.flatMap Prod.snd)))
      ((mpKit A g fp p maxn ph same nn).localCross12 threeD p.maxsep true true cats1 cats2 S) :=
  mp_localCross12 hp (mpArrays_rel rfl ph _ _ _) rfl (hu1.near hu2) (fun _ hc _ hL => mp_job12 A g hg fp hf hp hnb maxn ph same nn hsh hL
    (fun _ ⟨ha, h1, h2⟩ => ⟨ha, h1, h2.imp id fun ⟨h, h'⟩ => ⟨h, h'.mono (rows_of hc) fun _ h => h⟩⟩) fun h => h) S

/-- **C78, two catalogues, `ordered=False`, partly.** Missing besides: `meanlogd3` (C57). -/
theorem localMp_cross12_unordered_partial (hu1 : UnitFar threeD cats1) (hu2 : UnitFar threeD cats2) (S : TriCorr (MpArr MpVals)) :
    Whole (MpArrays p ph (fun n => Apart (cats2.flatMap Prod.snd) ∧ n.natAbs ≤ maxn ∧
        (n = 0 ∨ p.a = 0 ∧ IsPhase ph (cats1.flatMap Prod.snd ++ cats2.flatMap Prod.snd) (cats1.flatMap Prod.snd ++ cats2.flatMap Prod.snd)))
      (Apart (cats2.flatMap Prod.snd) ∧ p.a = 0) False
      (mixedTriples (cats1.flatMap Prod.snd) (cats2.flatMap Prod.snd)))
      ((mpKit A g fp p maxn ph same nn).localCross12 threeD p.maxsep true false cats1 cats2 S) := by
  refine mp_localCross12_unordered hp (mpArrays_rel rfl ph _ _ _) rfl (hu1.near hu2) (hu2.near hu1) (hu2.near hu2) (fun c hc L hL => ?_)
    (fun c hc L hL L' hL' => ?_) S
  · have := mp_job12 A g hg fp hf hp hnb maxn ph same nn hsh hL (N := fun n => Apart (cats2.flatMap Prod.snd) ∧ n.natAbs ≤ maxn ∧
        (n = 0 ∨ p.a = 0 ∧ IsPhase ph (cats1.flatMap Prod.snd ++ cats2.flatMap Prod.snd) (cats1.flatMap Prod.snd ++ cats2.flatMap Prod.snd)))
      (m := Apart (cats2.flatMap Prod.snd) ∧ p.a = 0) (c := c.2)
      (fun _ ⟨ha, h1, h2⟩ => ⟨ha, h1, h2.imp id fun ⟨h, h'⟩ => ⟨h, h'.mono
        (fun o ho => List.mem_append.2 (.inl (rows_of hc o ho))) fun o ho => List.mem_append.2 (.inr ho)⟩⟩) fun h => h
    exact { this with meanlogd3 := fun h => h.elim }
  · exact mp_job123_first A g hg fp hf hp hnb maxn ph same nn hsh (fun o ho => List.mem_append.2 (.inl (hL.subset ho)))
      (fun o ho => List.mem_append.2 (.inr (hL'.subset ho)))
      (fun _ ⟨_, h1, h2⟩ => ⟨h1, h2.imp id fun ⟨h, h'⟩ => ⟨h, h'.mono
        (fun o ho => List.mem_append.2 (.inr (rows_of hc o ho))) fun o ho => ho⟩⟩) fun h => h.2

/-- **C78, three catalogues, `ordered=True`, partly.** Rows at the same place do no harm here. -/
theorem localMp_cross_partial (hu1 : UnitFar threeD cats1) (hu2 : UnitFar threeD cats2) (hu3 : UnitFar threeD cats3)
    (S : TriCorr (MpArr MpVals)) :
    Whole (MpArrays p ph (fun n => n.natAbs ≤ maxn ∧
        (n = 0 ∨ p.a = 0 ∧ IsPhase ph (cats1.flatMap Prod.snd) (cats2.flatMap Prod.snd ++ cats3.flatMap Prod.snd)))
      (p.a = 0) (p.a = 0)
      (crossTriples (cats1.flatMap Prod.snd) (cats2.flatMap Prod.snd) (cats3.flatMap Prod.snd)))
      ((mpKit A g fp p maxn ph same nn).localCross threeD p.maxsep true .fixed cats1 cats2 cats3 S) :=
  mp_localCross hp (mpArrays_rel rfl ph _ _ _) rfl (hu1.near hu2) (hu1.near hu3) (fun _ hc _ hL _ hL' =>
    mp_job123 A g hg fp hf hp hnb maxn ph same nn hsh (fun o ho => List.mem_append.2 (.inl (hL.subset ho)))
      (fun o ho => List.mem_append.2 (.inr (hL'.subset ho)))
      (fun _ ⟨h1, h2⟩ => ⟨h1, h2.imp id fun ⟨h, h'⟩ => ⟨h, h'.mono (rows_of hc) fun _ ho => ho⟩⟩) fun h => h) S

/-- **C78, three catalogues, `ordered=1`, partly.** The first corner is from the first catalogue.  Missing besides: `meanlogd3`. -/
theorem localMp_cross_first_partial (hu1 : UnitFar threeD cats1) (hu2 : UnitFar threeD cats2) (hu3 : UnitFar threeD cats3)
    (S : TriCorr (MpArr MpVals)) :
    Whole (MpArrays p ph (fun n => n.natAbs ≤ maxn ∧
        (n = 0 ∨ p.a = 0 ∧ IsPhase ph (cats1.flatMap Prod.snd) (cats2.flatMap Prod.snd ++ cats3.flatMap Prod.snd)))
      (p.a = 0) False
      (crossTriples (cats1.flatMap Prod.snd) (cats2.flatMap Prod.snd) (cats3.flatMap Prod.snd) +
        crossTriples (cats1.flatMap Prod.snd) (cats3.flatMap Prod.snd) (cats2.flatMap Prod.snd)))
      ((mpKit A g fp p maxn ph same nn).localCross threeD p.maxsep true .first cats1 cats2 cats3 S) :=
  mp_localCross1 hp (mpArrays_rel rfl ph _ _ _) rfl (hu1.near hu2) (hu1.near hu3)
    (fun _ hc _ hL _ hL' => mp_job123_first A g hg fp hf hp hnb maxn ph same nn hsh (fun o ho => List.mem_append.2 (.inl (hL.subset ho)))
      (fun o ho => List.mem_append.2 (.inr (hL'.subset ho)))
      (fun _ ⟨h1, h2⟩ => ⟨h1, h2.imp id fun ⟨h, h'⟩ => ⟨h, h'.mono (rows_of hc) fun _ ho => ho⟩⟩) fun h => h) S

/-- **C78, three catalogues, `ordered=False`, partly.** Missing besides: `meanlogd3`. -/
theorem localMp_cross_unordered_partial (hu : UnitFar threeD (cats1 ++ cats2 ++ cats3)) (S : TriCorr (MpArr MpVals)) :
    Whole (MpArrays p ph (fun n => n.natAbs ≤ maxn ∧
        (n = 0 ∨ p.a = 0 ∧ IsPhase ph ((cats1 ++ cats2 ++ cats3).flatMap Prod.snd) ((cats1 ++ cats2 ++ cats3).flatMap Prod.snd)))
      (p.a = 0) False
      (mixed3Triples (cats1.flatMap Prod.snd) (cats2.flatMap Prod.snd) (cats3.flatMap Prod.snd)))
      ((mpKit A g fp p maxn ph same nn).localCross threeD p.maxsep true .any cats1 cats2 cats3 S) :=
  mp_localCross_any hp (mpArrays_rel rfl ph _ _ _) rfl (hu.near hu) (fun _ hc _ hL _ hL' =>
    mp_job123_first A g hg fp hf hp hnb maxn ph same nn hsh (fun o ho => hL ho) (fun o ho => hL' ho)
      (fun _ ⟨h1, h2⟩ => ⟨h1, h2.imp id fun ⟨h, h'⟩ => ⟨h, h'.mono (rows_of hc) fun _ ho => ho⟩⟩) fun h => h) S

end scalar

/-! ### Shears -/

section shear
variable (ha : p.a = 0) {ph} {fac : EuclideanSpace ℝ (Fin d) → EuclideanSpace ℝ (Fin d) → ℂ}
  {sh : Obj (EuclideanSpace ℝ (Fin d)) → ℂ} {wg : Cell (EuclideanSpace ℝ (Fin d)) → ℂ} (hwg : SumsShear sh wg)
include hg hf hp hnb ha hwg

theorem mpG_job12 {m3 : Prop} {c l2 L : List (Obj (EuclideanSpace ℝ (Fin d)))} (hL : L.Sublist l2) (hA : Apart l2)
    (hph : IsProj ph fac c l2) :
    GArrays p ph (natX ph fac sh) (fun n => n.natAbs ≤ maxn) m3 (cross12Triples c L)
      ((mpKitG A g fp p maxn ph same fac wg).cross12 true c L) := by
  have hph' : IsProj ph fac c L := hph.mono (fun _ h => h) fun o ho => hL.subset ho
  obtain ⟨out, e, h1⟩ := multipoleG_cross12_exact_partial hp hnb ha maxn hwg A A g hg fp fp hf hf c L (hA.sub hL) hph'
  refine gArrays_of e ?_ h1
  rw [(multipoleG_counts p maxn ph fac wg .any true (buildField A g fp c).cells (buildField A g fp L).cells []).2.1]
  have h := mp_job12 A g hg fp hf hp hnb maxn ph same false (.inr ha) (N := fun n => n.natAbs ≤ maxn) (m := True) (c := c) hL
    (fun n hn => ⟨hA, hn, .inr ⟨ha, hph.phase⟩⟩) fun _ => ⟨hA, ha⟩
  exact { h with meanlogd3 := fun _ => h.meanlogd3 trivial }

theorem mpG_job123 {c l L L' : List (Obj (EuclideanSpace ℝ (Fin d)))} (hL : ∀ o ∈ L, o ∈ l) (hL' : ∀ o ∈ L', o ∈ l)
    (hph : IsProj ph fac c l) :
    GArrays p ph (natX ph fac sh) (fun n => n.natAbs ≤ maxn) True (crossTriples c L L')
      ((mpKitG A g fp p maxn ph same fac wg).cross .fixed c L L') := by
  have hph' : IsProj ph fac c (L ++ L') := hph.mono (fun _ h => h) fun o ho => (List.mem_append.1 ho).elim (hL o) (hL' o)
  obtain ⟨out, e, h1⟩ := multipoleG_cross123_exact_partial hp hnb ha maxn hwg A A A g hg fp fp fp hf hf hf c L L' hph'
  refine gArrays_of e ?_ h1
  rw [(multipoleG_counts p maxn ph fac wg .fixed true (buildField A g fp c).cells (buildField A g fp L).cells
    (buildField A g fp L').cells).2.2]
  exact mp_job123 A g hg fp hf hp hnb maxn ph same false (.inr ha) hL hL' (fun n hn => ⟨hn, .inr ⟨ha, hph.phase⟩⟩) fun _ => ha

theorem mpG_job123_first {c l L L' : List (Obj (EuclideanSpace ℝ (Fin d)))} (hL : ∀ o ∈ L, o ∈ l) (hL' : ∀ o ∈ L', o ∈ l)
    (hph : IsProj ph fac c l) :
    GArrays p ph (natX ph fac sh) (fun n => n.natAbs ≤ maxn) False (crossTriples c L L' + crossTriples c L' L)
      ((mpKitG A g fp p maxn ph same fac wg).cross .first c L L') := by
  have hph' : IsProj ph fac c (L ++ L') := hph.mono (fun _ h => h) fun o ho => (List.mem_append.1 ho).elim (hL o) (hL' o)
  obtain ⟨out, e, h1⟩ := multipoleG_cross123_first_exact_partial hp hnb ha maxn hwg A A A g hg fp fp fp hf hf hf c L L' hph'
  refine gArrays_of e ?_ h1
  rw [(multipoleG_counts p maxn ph fac wg .first true (buildField A g fp c).cells (buildField A g fp L).cells
    (buildField A g fp L').cells).2.2]
  exact mp_job123_first A g hg fp hf hp hnb maxn ph same false (.inr ha) hL hL' (fun n hn => ⟨hn, .inr ⟨ha, hph.phase⟩⟩) fun _ => ha

/-- **C78, shears, one catalogue, partly.** With `angle_slop = 0`, no two rows at the same place and directions that are defined: `ntri`,
`weight`, `gam0 … gam3` and the sums of the sides are those of the whole catalogue.  Missing as for scalars. -/
theorem localMpG_auto_partial (hu : UnitFar threeD cats) (hA : Apart (cats.flatMap Prod.snd))
    (hph : IsProj ph fac (cats.flatMap Prod.snd) (cats.flatMap Prod.snd)) (S : TriCorr (MpArr GVals)) :
    Whole (GArrays p ph (natX ph fac sh) (fun n => n.natAbs ≤ maxn) True (orderedTriples (cats.flatMap Prod.snd)))
      ((mpKitG A g fp p maxn ph same fac wg).localAuto threeD p.maxsep true cats S) :=
  mp_localAuto hp (gArrays_rel rfl ph _ _ _) rfl (hu.near hu) (fun _ hc _ hL => mpG_job12 A g hg fp hf hp hnb maxn same ha hwg hL hA
    (hph.mono (rows_of hc) fun _ h => h)) S

/-- **C78, shears, two catalogues, `ordered=True`, partly.** -/
theorem localMpG_cross12_partial (hu1 : UnitFar threeD cats1) (hu2 : UnitFar threeD cats2) (hA : Apart (cats2.flatMap Prod.snd))
    (hph : IsProj ph fac (cats1.flatMap Prod.snd) (cats2.flatMap Prod.snd)) (S : TriCorr (MpArr GVals)) :
    Whole (GArrays p ph (natX ph fac sh) (fun n => n.natAbs ≤ maxn) True (cross12Triples (cats1.flatMap Prod.snd) (cats2.flatMap Prod.snd)))
      ((mpKitG A g fp p maxn ph same fac wg).localCross12 threeD p.maxsep true true cats1 cats2 S) :=
  mp_localCross12 hp (gArrays_rel rfl ph _ _ _) rfl (hu1.near hu2) (fun _ hc _ hL => mpG_job12 A g hg fp hf hp hnb maxn same ha hwg hL hA
    (hph.mono (rows_of hc) fun _ h => h)) S

/-- **C78, shears, two catalogues, `ordered=False`, partly.** -/
theorem localMpG_cross12_unordered_partial (hu1 : UnitFar threeD cats1) (hu2 : UnitFar threeD cats2) (hA : Apart (cats2.flatMap Prod.snd))
    (hph : IsProj ph fac (cats1.flatMap Prod.snd ++ cats2.flatMap Prod.snd) (cats1.flatMap Prod.snd ++ cats2.flatMap Prod.snd))
    (S : TriCorr (MpArr GVals)) :
    Whole (GArrays p ph (natX ph fac sh) (fun n => n.natAbs ≤ maxn) False (mixedTriples (cats1.flatMap Prod.snd) (cats2.flatMap Prod.snd)))
      ((mpKitG A g fp p maxn ph same fac wg).localCross12 threeD p.maxsep true false cats1 cats2 S) :=
  mp_localCross12_unordered hp (gArrays_rel rfl ph _ _ _) rfl (hu1.near hu2) (hu2.near hu1) (hu2.near hu2)
    (fun _ hc _ hL => mpG_job12 A g hg fp hf hp hnb maxn same ha hwg hL hA (hph.mono
      (fun o ho => List.mem_append.2 (.inl (rows_of hc o ho))) fun o ho => List.mem_append.2 (.inr ho)))
    (fun _ hc _ hL _ hL' => mpG_job123_first A g hg fp hf hp hnb maxn same ha hwg (fun o ho => List.mem_append.2 (.inl (hL.subset ho)))
      (fun o ho => List.mem_append.2 (.inr (hL'.subset ho)))
      (hph.mono (fun o ho => List.mem_append.2 (.inr (rows_of hc o ho))) fun o ho => ho)) S

/-- **C78, shears, three catalogues, `ordered=True`, partly.** -/
theorem localMpG_cross_partial (hu1 : UnitFar threeD cats1) (hu2 : UnitFar threeD cats2) (hu3 : UnitFar threeD cats3)
    (hph : IsProj ph fac (cats1.flatMap Prod.snd) (cats2.flatMap Prod.snd ++ cats3.flatMap Prod.snd)) (S : TriCorr (MpArr GVals)) :
    Whole (GArrays p ph (natX ph fac sh) (fun n => n.natAbs ≤ maxn) True
      (crossTriples (cats1.flatMap Prod.snd) (cats2.flatMap Prod.snd) (cats3.flatMap Prod.snd)))
      ((mpKitG A g fp p maxn ph same fac wg).localCross threeD p.maxsep true .fixed cats1 cats2 cats3 S) :=
  mp_localCross hp (gArrays_rel rfl ph _ _ _) rfl (hu1.near hu2) (hu1.near hu3) (fun _ hc _ hL _ hL' =>
    mpG_job123 A g hg fp hf hp hnb maxn same ha hwg (fun o ho => List.mem_append.2 (.inl (hL.subset ho)))
      (fun o ho => List.mem_append.2 (.inr (hL'.subset ho))) (hph.mono (rows_of hc) fun _ ho => ho)) S

/-- **C78, shears, three catalogues, `ordered=1`, partly.** -/
theorem localMpG_cross_first_partial (hu1 : UnitFar threeD cats1) (hu2 : UnitFar threeD cats2) (hu3 : UnitFar threeD cats3)
    (hph : IsProj ph fac (cats1.flatMap Prod.snd) (cats2.flatMap Prod.snd ++ cats3.flatMap Prod.snd)) (S : TriCorr (MpArr GVals)) :
    Whole (GArrays p ph (natX ph fac sh) (fun n => n.natAbs ≤ maxn) False
      (crossTriples (cats1.flatMap Prod.snd) (cats2.flatMap Prod.snd) (cats3.flatMap Prod.snd) +
        crossTriples (cats1.flatMap Prod.snd) (cats3.flatMap Prod.snd) (cats2.flatMap Prod.snd)))
      ((mpKitG A g fp p maxn ph same fac wg).localCross threeD p.maxsep true .first cats1 cats2 cats3 S) :=
  mp_localCross1 hp (gArrays_rel rfl ph _ _ _) rfl (hu1.near hu2) (hu1.near hu3) (fun _ hc _ hL _ hL' =>
    mpG_job123_first A g hg fp hf hp hnb maxn same ha hwg (fun o ho => List.mem_append.2 (.inl (hL.subset ho)))
      (fun o ho => List.mem_append.2 (.inr (hL'.subset ho))) (hph.mono (rows_of hc) fun _ ho => ho)) S

/-- **C78, shears, three catalogues, `ordered=False`, partly.** -/
theorem localMpG_cross_unordered_partial (hu : UnitFar threeD (cats1 ++ cats2 ++ cats3))
    (hph : IsProj ph fac ((cats1 ++ cats2 ++ cats3).flatMap Prod.snd) ((cats1 ++ cats2 ++ cats3).flatMap Prod.snd))
    (S : TriCorr (MpArr GVals)) :
    Whole (GArrays p ph (natX ph fac sh) (fun n => n.natAbs ≤ maxn) False
      (mixed3Triples (cats1.flatMap Prod.snd) (cats2.flatMap Prod.snd) (cats3.flatMap Prod.snd)))
      ((mpKitG A g fp p maxn ph same fac wg).localCross threeD p.maxsep true .any cats1 cats2 cats3 S) :=
  mp_localCross_any hp (gArrays_rel rfl ph _ _ _) rfl (hu.near hu) (fun _ hc _ hL _ hL' =>
    mpG_job123_first A g hg fp hf hp hnb maxn same ha hwg (fun o ho => hL ho) (fun o ho => hL' ho)
      (hph.mono (rows_of hc) fun _ ho => ho)) S

end shear
end

/-! ### Concrete cases -/

/-- C78 applied to the rows 0, 2, 6 of a line, the middle one in a patch of its own: as without patches (C57), entry `[1,0]` gets the
triangles seen from 0 (both others ahead) and from 2 (one on either side). -/
example (S : TriCorr (MpArr MpVals)) :
    let a := ((mpKit (sortAlg _ 0) (euclidGeom 2) exFp exMp 2 (flatPhase dist) (fun _ _ => False) true).localAuto false exMp.maxsep true
      [(0, [ob 0 0 0, ob 6 0 2]), (1, [ob 2 0 1])] S).self.acc
    (a 1 0).ntri = 2 ∧ (a 1 0).weight 1 = 0 ∧ (a 1 0).weight (-2) = 2 := by
  have d1 : dist (pt 0 0) (pt 2 0) = 2 := by rw [dist_pt_x]; norm_num
  have d2 : dist (pt 0 0) (pt 6 0) = 6 := by rw [dist_pt_x]; norm_num
  have d3 : dist (pt 2 0) (pt 6 0) = 4 := by rw [dist_pt_x]; norm_num
  have d1' := d1; have d2' := d2; have d3' := d3
  rw [dist_comm] at d1' d2' d3'
  have a2 := exMp_bin0 (d := 2) (by norm_num) le_rfl
  have a4 := exMp_bin1 (d := 4) (by norm_num) (by norm_num)
  have a6 := exMp_bin1 (d := 6) (by norm_num) (by norm_num)
  have n2 := exMp_not a2 (k := 1) (by norm_num)
  have n4 := exMp_not a4 (k := 0) (by norm_num)
  have n6 := exMp_not a6 (k := 0) (by norm_num)
  have ha : Apart [ob 0 0 0, ob 6 0 2, ob 2 0 1] := by
    have e1 : pt 0 0 ≠ pt 2 0 := dist_ne_zero.1 (by rw [d1]; norm_num)
    have e2 : pt 0 0 ≠ pt 6 0 := dist_ne_zero.1 (by rw [d2]; norm_num)
    have e3 : pt 6 0 ≠ pt 2 0 := dist_ne_zero.1 (by rw [d3']; norm_num)
    simp [Apart, e1, e2, e3]
  have hT : (orderedTriples [ob 0 0 0, ob 6 0 2, ob 2 0 1]).filter (InSides exMp 1 0) =
      {(ob 0 0 0, ob 2 0 1, ob 6 0 2), (ob 2 0 1, ob 0 0 0, ob 6 0 2)} := by
    simp [orderedTriples, autoTriples, autoPairs, orders6, Multiset.filter_add, Multiset.filter_cons, Multiset.filter_singleton, InSides, side2, side3, d1, d2,
      d3, d1', d2', d3', a2, a4, a6, n2, n4, n6]
  have f1 : flatPhase dist (pt 0 0) (pt 6 0) = 1 := by rw [flatPhase_x]; norm_num
  have f2 : flatPhase dist (pt 0 0) (pt 2 0) = 1 := by rw [flatPhase_x]; norm_num
  have f3 : flatPhase dist (pt 2 0) (pt 6 0) = 1 := by rw [flatPhase_x]; norm_num
  have f4 : flatPhase dist (pt 2 0) (pt 0 0) = -1 := by rw [flatPhase_x]; norm_num
  have k0 : exMp.hasBin 0 := by norm_num [Params.hasBin, exMp]
  have k1 : exMp.hasBin 1 := by norm_num [Params.hasBin, exMp]
  have h := localMp_auto_partial (sortAlg _ 0) (euclidGeom 2) (euclidGeom_dominates 2) exFp rfl exMp_ok (by norm_num [exMp]) 2
    (flatPhase dist) (fun _ _ => False) true false (.inr rfl) (cats := [(0, [ob 0 0 0, ob 6 0 2]), (1, [ob 2 0 1])])
    (fun h => absurd h (by decide)) S
  have e : ([(0, [ob 0 0 0, ob 6 0 2]), (1, [ob 2 0 1])] : List (ℕ × List (Obj (EuclideanSpace ℝ (Fin 2))))).flatMap Prod.snd =
      [ob 0 0 0, ob 6 0 2, ob 2 0 1] := rfl
  rw [e] at h
  refine ⟨?_, ?_, ?_⟩
  · rw [h.self.ntri 1 0 k1 k0, hT]; simp [brute3N]
  · rw [h.self.weight 1 ⟨ha, by decide, .inr ⟨rfl, flat_isPhase _ _⟩⟩ 1 0 k1 k0, hT]
    simp [phaseW, f1, f2, f3, f4]
  · rw [h.self.weight (-2) ⟨ha, by decide, .inr ⟨rfl, flat_isPhase _ _⟩⟩ 1 0 k1 k0, hT]
    simp [phaseW, f1, f2, f3, f4]
    norm_num

/-- C78 for shears: three catalogues of two rows each in two patches, one of the rows far from everything. -/
example (S : TriCorr (MpArr GVals)) : GArrays exMp (flatPhase dist) (natX (flatPhase dist) (flatFactor .G) fun _ => 1)
    (fun n => n.natAbs ≤ 1) True
    (crossTriples [ob 0 0 0, ob 50 0 1] [ob 2 0 2, ob 0 60 3] [ob 0 4 4, ob 70 0 5])
    ((mpKitG (sortAlg _ 0) (euclidGeom 2) exFp exMp 1 (flatPhase dist) (fun _ _ => False) (flatFactor .G) (simpleSum fun _ => 1)).localCross
      false exMp.maxsep true .fixed [(0, [ob 0 0 0]), (1, [ob 50 0 1])] [(0, [ob 2 0 2]), (1, [ob 0 60 3])]
      [(0, [ob 0 4 4]), (1, [ob 70 0 5])] S).self.acc :=
  (localMpG_cross_partial (sortAlg _ 0) (euclidGeom 2) (euclidGeom_dominates 2) exFp rfl exMp_ok (by norm_num [exMp]) 1
    (fun _ _ => False) false rfl (sumsShear_simple fun _ => 1) (cats1 := [(0, [ob 0 0 0]), (1, [ob 50 0 1])])
    (cats2 := [(0, [ob 2 0 2]), (1, [ob 0 60 3])]) (cats3 := [(0, [ob 0 4 4]), (1, [ob 70 0 5])])
    (fun h => absurd h (by decide)) (fun h => absurd h (by decide)) (fun h => absurd h (by decide)) (flat_isProj _ _) S).self

end
end TreeCorr
