import Verif.Model.LocalMp
import Verif.Proofs.LocalMpRes
import Verif.Proofs.MpTriples

/-! Lemmas for `process` with patches and `LogMultipole` bins. -/

namespace TreeCorr
open Classical
noncomputable section

/-! ### Arrays and sums over triples -/

/-- A relation between arrays and triples that only looks at triples in the bins. -/
structure MpRel {W C P : Type} [AddCommMonoid W] [PseudoMetricSpace P] (K : Kit3 (MpArr W) C) (p : Params)
    (R : MpArr W → Multiset (Obj P × Obj P × Obj P) → Prop) : Prop extends SkipRel K R where
  congr : ∀ {a T T'}, R a T → (∀ k2 k3, T.filter (InSides p k2 k3) = T'.filter (InSides p k2 k3)) → R a T'

theorem MpRel.empty {W C P : Type} [AddCommMonoid W] [PseudoMetricSpace P] {K : Kit3 (MpArr W) C} {p : Params}
    {R : MpArr W → Multiset (Obj P × Obj P × Obj P) → Prop} (hR : MpRel K p R) {T : Multiset (Obj P × Obj P × Obj P)}
    (h : ∀ k2 k3, ∀ q ∈ T, ¬ InSides p k2 k3 q) : R 0 T :=
  hR.congr hR.zero fun k2 k3 => by rw [Multiset.filter_eq_nil.2 (h k2 k3), Multiset.filter_zero]

theorem no_triples {P : Type} [PseudoMetricSpace P] {p : Params} {k2 k3 : ℤ} {T : Multiset (Obj P × Obj P × Obj P)}
    (h : (0 : ℝ) = brute3N (T.filter (InSides p k2 k3))) : T.filter (InSides p k2 k3) = 0 := by
  rwa [brute3N, eq_comm, Nat.cast_eq_zero, Multiset.card_eq_zero] at h

theorem phaseW_add {P : Type} (ph : P → P → ℂ) (n : ℤ) (m m' : Multiset (Obj P × Obj P × Obj P)) :
    phaseW ph n (m + m') = phaseW ph n m + phaseW ph n m' := by simp [phaseW]

theorem phaseZ_add {P : Type} (ph : P → P → ℂ) (n : ℤ) (m m' : Multiset (Obj P × Obj P × Obj P)) :
    phaseZ ph n (m + m') = phaseZ ph n m + phaseZ ph n m' := by simp [phaseZ]

theorem phaseSum_add {P : Type} (ph : P → P → ℂ) (n : ℤ) (F : Obj P × Obj P × Obj P → ℂ) (m m' : Multiset (Obj P × Obj P × Obj P)) :
    phaseSum ph n F (m + m') = phaseSum ph n F m + phaseSum ph n F m' := by simp [phaseSum]

theorem mpArrays_rel {C P : Type} [PseudoMetricSpace P] {K : Kit3 (MpArr MpVals) C} {p : Params} (hz : K.nz = mpNonzero p MpVals.ntri)
    (ph : P → P → ℂ) (N : ℤ → Prop) (m m3 : Prop) : MpRel K p fun a T => MpArrays p ph N m m3 T a where
  zero := by
    constructor <;> intros <;> simp [brute3N, brute3, phaseW, phaseZ] <;> rfl
  add := by
    intro a b T T' ha hb
    constructor
    · intro k2 k3 h2 h3
      rw [Multiset.filter_add, brute3N_add, ← ha.ntri k2 k3 h2 h3, ← hb.ntri k2 k3 h2 h3]; rfl
    · intro n hn k2 k3 h2 h3
      rw [Multiset.filter_add, phaseW_add, ← ha.weight n hn k2 k3 h2 h3, ← hb.weight n hn k2 k3 h2 h3]; rfl
    · intro n hn k2 k3 h2 h3
      rw [Multiset.filter_add, phaseZ_add, ← ha.zeta n hn k2 k3 h2 h3, ← hb.zeta n hn k2 k3 h2 h3]; rfl
    · intro n k2 k3 h2 h3
      rw [Multiset.filter_add, brute3_add, ← ha.meand2 n k2 k3 h2 h3, ← hb.meand2 n k2 k3 h2 h3]; rfl
    · intro n k2 k3 h2 h3
      rw [Multiset.filter_add, brute3_add, ← ha.meanlogd2 n k2 k3 h2 h3, ← hb.meanlogd2 n k2 k3 h2 h3]; rfl
    · intro n k2 k3 h2 h3
      rw [Multiset.filter_add, brute3_add, ← ha.meand3 n k2 k3 h2 h3, ← hb.meand3 n k2 k3 h2 h3]; rfl
    · intro n k2 k3 h2 h3
      rw [Multiset.filter_add, brute3_add, ← ha.meanlogd3 n k2 k3 h2 h3, ← hb.meanlogd3 n k2 k3 h2 h3]; rfl
  skip := by
    intro a T h hn
    rw [hz] at hn
    have h0 : ∀ k2 k3, p.hasBin k2 → p.hasBin k3 → T.filter (InSides p k2 k3) = 0 := fun k2 k3 h2 h3 =>
      no_triples ((by_contra fun hne => hn ⟨k2, k3, h2, h3, fun e => hne e.symm⟩ : 0 = (a k2 k3).ntri).trans (h.ntri k2 k3 h2 h3))
    constructor
    · intro k2 k3 h2 h3; rw [h0 k2 k3 h2 h3]; simp [brute3N]; rfl
    · intro n _ k2 k3 h2 h3; rw [h0 k2 k3 h2 h3]; simp [phaseW]; rfl
    · intro n _ k2 k3 h2 h3; rw [h0 k2 k3 h2 h3]; simp [phaseZ]; rfl
    all_goals intro n k2 k3 h2 h3; rw [h0 k2 k3 h2 h3]; simp [brute3]; rfl
  congr := by
    intro a T T' h e
    constructor
    · intro k2 k3; rw [← e]; exact h.ntri k2 k3
    · intro n hn k2 k3; rw [← e]; exact h.weight n hn k2 k3
    · intro n hn k2 k3; rw [← e]; exact h.zeta n hn k2 k3
    · intro n k2 k3; rw [← e]; exact h.meand2 n k2 k3
    · intro n k2 k3; rw [← e]; exact h.meanlogd2 n k2 k3
    · intro n k2 k3; rw [← e]; exact h.meand3 n k2 k3
    · intro n k2 k3; rw [← e]; exact h.meanlogd3 n k2 k3

theorem gam_zero (μ : Fin 4) (n : ℤ) : (0 : GVals).gam μ n = 0 := by fin_cases μ <;> rfl

theorem gam_add (a b : GVals) (μ : Fin 4) (n : ℤ) : (a + b).gam μ n = a.gam μ n + b.gam μ n := by fin_cases μ <;> rfl

theorem gArrays_rel {C P : Type} [PseudoMetricSpace P] {K : Kit3 (MpArr GVals) C} {p : Params}
    (hz : K.nz = mpNonzero p fun v => v.base.ntri) (ph : P → P → ℂ) (F : Fin 4 → Obj P × Obj P × Obj P → ℂ) (N : ℤ → Prop) (m3 : Prop) :
    MpRel K p fun a T => GArrays p ph F N m3 T a := by
  have hb := mpArrays_rel (K := (⟨mpNonzero p MpVals.ntri, fun _ => 0, fun _ _ _ => 0, fun _ _ _ _ => 0, fun _ _ _ => False, fun _ => 0,
    fun _ _ => False, false⟩ : Kit3 (MpArr MpVals) C)) rfl ph N True m3
  refine { zero := ⟨hb.zero, ?_⟩, add := ?_, skip := ?_, congr := ?_ }
  · intros; simp [phaseSum, gam_zero]
  · intro a b T T' ha hb'
    refine ⟨hb.add ha.base hb'.base, fun n hn k2 k3 h2 h3 μ => ?_⟩
    rw [Multiset.filter_add, phaseSum_add, ← ha.gam n hn k2 k3 h2 h3, ← hb'.gam n hn k2 k3 h2 h3, Pi.add_apply, Pi.add_apply, gam_add]
  · intro a T h hn
    rw [hz] at hn
    have h0 : ∀ k2 k3, p.hasBin k2 → p.hasBin k3 → T.filter (InSides p k2 k3) = 0 := fun k2 k3 h2 h3 =>
      no_triples ((by_contra fun hne => hn ⟨k2, k3, h2, h3, fun e => hne e.symm⟩ : 0 = (a k2 k3).base.ntri).trans (h.base.ntri k2 k3 h2 h3))
    refine ⟨hb.skip h.base fun ⟨k2, k3, h2, h3, h4⟩ => hn ⟨k2, k3, h2, h3, h4⟩, fun n _ k2 k3 h2 h3 μ => ?_⟩
    rw [h0 k2 k3 h2 h3]; simp [phaseSum, gam_zero]
  · intro a T T' h e
    exact ⟨hb.congr h.base e, fun n hn k2 k3 => by rw [← e]; exact h.gam n hn k2 k3⟩

/-- The arrays after a run. -/
theorem mpArrays_of {P : Type} [PseudoMetricSpace P] {p : Params} {ph : P → P → ℂ} {N : ℤ → Prop} {m m3 : Prop}
    {T : Multiset (Obj P × Obj P × Obj P)} {r : Option (List (ℤ × ℤ × MpVals))} {out : List (ℤ × ℤ × MpVals)} (hr : r = some out)
    (h : MpCounts p T out) (hN : ∀ n, N n → MpPhases p ph n T out) (hm : m → MpMeans p T out) (h3 : m3 → MpLog3 p T out) :
    MpArrays p ph N m m3 T (mpRunArr MpVals.add MpVals.zero r) := by
  subst hr
  have e : mpRunArr MpVals.add MpVals.zero (some out) = out.foldl (mpPut (· + ·)) 0 := rfl
  have t : ∀ {V : Type} [AddCommMonoid V] (f : MpVals →+ V) k2 k3,
      f (mpRunArr MpVals.add MpVals.zero (some out) k2 k3) = mpTotal f out k2 k3 := by
    intro V _ f k2 k3
    rw [e, foldl_mpPut]
    simp
  constructor
  · intro k2 k3 b2 b3; rw [← h k2 k3 b2 b3]; exact t ⟨⟨MpVals.ntri, rfl⟩, fun _ _ => rfl⟩ k2 k3
  · intro n hn k2 k3 b2 b3; rw [← (hN n hn k2 k3 b2 b3).1]; exact t ⟨⟨fun v => v.weight n, rfl⟩, fun _ _ => rfl⟩ k2 k3
  · intro n hn k2 k3 b2 b3; rw [← (hN n hn k2 k3 b2 b3).2]; exact t ⟨⟨fun v => v.zeta n, rfl⟩, fun _ _ => rfl⟩ k2 k3
  · intro n k2 k3 b2 b3; rw [← (hm n k2 k3 b2 b3).1]; exact t ⟨⟨MpVals.meand2, rfl⟩, fun _ _ => rfl⟩ k2 k3
  · intro n k2 k3 b2 b3; rw [← (hm n k2 k3 b2 b3).2.1]; exact t ⟨⟨MpVals.meanlogd2, rfl⟩, fun _ _ => rfl⟩ k2 k3
  · intro n k2 k3 b2 b3; rw [← (hm n k2 k3 b2 b3).2.2]; exact t ⟨⟨MpVals.meand3, rfl⟩, fun _ _ => rfl⟩ k2 k3
  · intro n k2 k3 b2 b3; rw [← h3 n k2 k3 b2 b3]; exact t ⟨⟨MpVals.meanlogd3, rfl⟩, fun _ _ => rfl⟩ k2 k3

theorem mpRunArr_base (r : Option (List (ℤ × ℤ × GVals))) :
    (fun k2 k3 => (mpRunArr GVals.add GVals.zero r k2 k3).base) = mpRunArr MpVals.add MpVals.zero (r.map baseOut) := by
  cases r with
  | none => rfl
  | some out =>
    have : ∀ a : MpArr GVals, (fun k2 k3 => (out.foldl (mpPut GVals.add) a k2 k3).base) =
        (baseOut out).foldl (mpPut MpVals.add) fun k2 k3 => (a k2 k3).base := by
      induction out with
      | nil => intro a; rfl
      | cons x t ih =>
        intro a
        refine (ih _).trans ?_
        show (baseOut t).foldl _ _ = (baseOut t).foldl _ _
        congr 1
        funext k2 k3
        unfold mpPut
        by_cases h : k2 = x.1 ∧ k3 = x.2.1
        · simp only [if_pos h, GVals.add]
        · simp only [if_neg h]
    exact this _

theorem gArrays_of {P : Type} [PseudoMetricSpace P] {p : Params} {ph : P → P → ℂ} {F : Fin 4 → Obj P × Obj P × Obj P → ℂ} {N : ℤ → Prop}
    {m3 : Prop} {T : Multiset (Obj P × Obj P × Obj P)} {r : Option (List (ℤ × ℤ × GVals))} {out : List (ℤ × ℤ × GVals)} (hr : r = some out)
    (h : MpArrays p ph N True m3 T (mpRunArr MpVals.add MpVals.zero (r.map baseOut))) (hG : ∀ n, N n → MpGam p ph F n T out) :
    GArrays p ph F N m3 T (mpRunArr GVals.add GVals.zero r) := by
  refine ⟨by rwa [mpRunArr_base], ?_⟩
  subst hr
  have e : mpRunArr GVals.add GVals.zero (some out) = out.foldl (mpPut (· + ·)) 0 := rfl
  have t : ∀ {V : Type} [AddCommMonoid V] (f : GVals →+ V) k2 k3,
      f (mpRunArr GVals.add GVals.zero (some out) k2 k3) = mpTotal f out k2 k3 := by
    intro V _ f k2 k3
    rw [e, foldl_mpPut]
    simp
  intro n hn k2 k3 b2 b3 μ
  rw [← hG n hn k2 k3 b2 b3 μ]
  exact t ⟨⟨fun v => v.gam μ n, gam_zero μ n⟩, fun a b => gam_add a b μ n⟩ k2 k3

/-! ### The triples in the bins -/

theorem inSides_near {P : Type} [PseudoMetricSpace P] {p : Params} (hp : LogParams p) {k2 k3 : ℤ} {q : Obj P × Obj P × Obj P}
    (h : InSides p k2 k3 q) : side2 q < p.maxsep ∧ side3 q < p.maxsep :=
  ⟨logBin_lt_max hp.minsep hp.binsize hp.maxsep h.1, logBin_lt_max hp.minsep hp.binsize hp.maxsep h.2⟩

theorem inSides_sides {P : Type} [PseudoMetricSpace P] {p : Params} (hp : LogParams p) {k2 k3 : ℤ} {q : Obj P × Obj P × Obj P}
    (h : InSides p k2 k3 q) : SidesLe q (2 * p.maxsep) := by
  obtain ⟨h2, h3⟩ := inSides_near hp h
  have p2 := h.1.pos hp.minsep
  have p3 := h.2.pos hp.minsep
  have t1 : side1 q ≤ side3 q + side2 q := by
    have := dist_triangle q.2.1.pos q.1.pos q.2.2.pos
    rwa [dist_comm q.2.1.pos q.1.pos] at this
  exact ⟨by linarith, by linarith, by linarith⟩

theorem DropOf.sublist {α : Type} {far : α → Prop} {l' l : List α} (h : DropOf far l' l) : l'.Sublist l := by
  induction h with
  | nil => exact List.Sublist.slnil
  | keep a _ ih => exact ih.cons_cons a
  | drop a _ _ ih => exact ih.cons a

section
variable {d : ℕ} {W : Type} [AddCommMonoid W] {p : Params}
  {R : MpArr W → Multiset (Obj (EuclideanSpace ℝ (Fin d)) × Obj (EuclideanSpace ℝ (Fin d)) × Obj (EuclideanSpace ℝ (Fin d))) → Prop}
  {K : Kit3 (MpArr W) (List (Obj (EuclideanSpace ℝ (Fin d))))} {threeD : Bool}
  {cats cats1 cats2 cats3 : List (ℕ × List (Obj (EuclideanSpace ℝ (Fin d))))}

/-- The result of a patch: the triples with their first point in it. -/
theorem mp_res12 (hp : LogParams p) (hR : MpRel K p R) (ht : K.triv = trivZero3 p.maxsep) {c1 : ℕ × List (Obj (EuclideanSpace ℝ (Fin d)))}
    (hn : ∀ c2 ∈ cats2, CollapseNear threeD (centerSize c1.2).1 c2.2)
    (hj : ∀ L, L.Sublist (cats2.flatMap Prod.snd) → R (K.cross12 true c1.2 L) (from12 .first c1.2 L)) (w : ℝ) :
    R (K.localRes12 w c1.2 (expandPatch threeD p.maxsep c1.2 (cats2.map Prod.snd))).acc (from12 .first c1.2 (cats2.flatMap Prod.snd)) := by
  have hd := expanded_drop (maxsep := p.maxsep) hn
  obtain ⟨r, e, hbad⟩ := DropOf.from12 (O := .first) (by simp) c1.2 hd
  rw [expandPatch_eq]
  set L := (cats2.map Prod.snd).flatMap (keptRows threeD p.maxsep c1.2) with hL
  have hE : ∀ k2 k3, (from12 .first c1.2 L).filter (InSides p k2 k3) =
      (from12 .first c1.2 (cats2.flatMap Prod.snd)).filter (InSides p k2 k3) := fun k2 k3 =>
    (filter_rest e fun q hq hb => bad_not_in (hbad q hq) (inSides_near hp hb)).symm
  refine hR.congr ?_ hE
  by_cases he : L = []
  · rw [if_pos he, he]
    exact hR.empty fun k2 k3 q hq => by simp [from12, autoPairs] at hq
  · rw [if_neg he]
    simp only [Kit3.localRes12]
    split
    · rename_i h
      rw [ht] at h
      exact hR.empty fun k2 k3 q hq hb => triv_from12 h hq (inSides_sides hp hb)
    · exact hj L hd.sublist

theorem mp_pass12 (hp : LogParams p) (hR : MpRel K p R) (ht : K.triv = trivZero3 p.maxsep)
    (hn : ∀ c1 ∈ cats1, ∀ c2 ∈ cats2, CollapseNear threeD (centerSize c1.2).1 c2.2)
    (hj : ∀ c ∈ cats1, ∀ L, L.Sublist (cats2.flatMap Prod.snd) → R (K.cross12 true c.2 L) (from12 .first c.2 L))
    {S : TriCorr (MpArr W)} {m0 : Multiset (Obj (EuclideanSpace ℝ (Fin d)) × Obj (EuclideanSpace ℝ (Fin d)) × Obj (EuclideanSpace ℝ (Fin d)))}
    (hS : BothInv R S m0) :
    BothInv R (K.localPass12 (fun _ _ _ => True) threeD p.maxsep cats1 cats2 S)
      (m0 + from12 .first (cats1.flatMap Prod.snd) (cats2.flatMap Prod.snd)) := by
  rw [from12_flatMap1]
  exact localPass_rel hR.toSkipRel (m := fun c => from12 .first c (cats2.flatMap Prod.snd))
    (fun c1 h1 => mp_res12 hp hR ht (hn c1 h1) (hj c1 h1) _) hS

theorem mp_res123 (hp : LogParams p) (hR : MpRel K p R) (ht : K.triv = trivZero3 p.maxsep) {O : Ord3} (hO : O ≠ .any)
    {c1 : ℕ × List (Obj (EuclideanSpace ℝ (Fin d)))} (hn2 : ∀ c2 ∈ cats2, CollapseNear threeD (centerSize c1.2).1 c2.2)
    (hn3 : ∀ c3 ∈ cats3, CollapseNear threeD (centerSize c1.2).1 c3.2)
    (hj : ∀ L, L.Sublist (cats2.flatMap Prod.snd) → ∀ L', L'.Sublist (cats3.flatMap Prod.snd) → R (K.cross O c1.2 L L') (from111 O c1.2 L L'))
    (w w' : ℝ) :
    R (K.localRes123 O w w' c1.2 (expandPatch threeD p.maxsep c1.2 (cats2.map Prod.snd))
      (expandPatch threeD p.maxsep c1.2 (cats3.map Prod.snd))).acc (from111 O c1.2 (cats2.flatMap Prod.snd) (cats3.flatMap Prod.snd)) := by
  have hd2 := expanded_drop (maxsep := p.maxsep) hn2
  have hd3 := expanded_drop (maxsep := p.maxsep) hn3
  obtain ⟨r, e, hbad⟩ := DropOf.from111 hO c1.2 hd2 hd3
  rw [expandPatch_eq, expandPatch_eq]
  set L := (cats2.map Prod.snd).flatMap (keptRows threeD p.maxsep c1.2) with hL
  set L' := (cats3.map Prod.snd).flatMap (keptRows threeD p.maxsep c1.2) with hL'
  have hE : ∀ k2 k3, (from111 O c1.2 L L').filter (InSides p k2 k3) =
      (from111 O c1.2 (cats2.flatMap Prod.snd) (cats3.flatMap Prod.snd)).filter (InSides p k2 k3) := fun k2 k3 =>
    (filter_rest e fun q hq hb => bad_not_in (hbad q hq) (inSides_near hp hb)).symm
  refine hR.congr ?_ hE
  by_cases he : L = []
  · rw [if_pos he, he]
    exact hR.empty fun k2 k3 q hq => by simp [from111] at hq
  by_cases he' : L' = []
  · rw [if_pos he', he', if_neg he]
    exact hR.empty fun k2 k3 q hq => by simp [from111] at hq
  rw [if_neg he, if_neg he']
  simp only [Kit3.localRes123]
  split
  · rename_i h
    rw [ht] at h
    exact hR.empty fun k2 k3 q hq hb => triv_from111 h hq (inSides_sides hp hb)
  · exact hj L hd2.sublist L' hd3.sublist

theorem mp_pass123 (hp : LogParams p) (hR : MpRel K p R) (ht : K.triv = trivZero3 p.maxsep) {O : Ord3} (hO : O ≠ .any)
    (hn2 : ∀ c1 ∈ cats1, ∀ c2 ∈ cats2, CollapseNear threeD (centerSize c1.2).1 c2.2)
    (hn3 : ∀ c1 ∈ cats1, ∀ c3 ∈ cats3, CollapseNear threeD (centerSize c1.2).1 c3.2)
    (hj : ∀ c ∈ cats1, ∀ L, L.Sublist (cats2.flatMap Prod.snd) → ∀ L', L'.Sublist (cats3.flatMap Prod.snd) →
      R (K.cross O c.2 L L') (from111 O c.2 L L'))
    {S : TriCorr (MpArr W)} {m0 : Multiset (Obj (EuclideanSpace ℝ (Fin d)) × Obj (EuclideanSpace ℝ (Fin d)) × Obj (EuclideanSpace ℝ (Fin d)))}
    (hS : BothInv R S m0) :
    BothInv R (K.localPass123 (fun _ _ _ => True) threeD p.maxsep O cats1 cats2 cats3 S)
      (m0 + from111 O (cats1.flatMap Prod.snd) (cats2.flatMap Prod.snd) (cats3.flatMap Prod.snd)) := by
  rw [from111_flatMap1]
  exact localPass_rel hR.toSkipRel (m := fun c => from111 O c (cats2.flatMap Prod.snd) (cats3.flatMap Prod.snd))
    (fun c1 h1 => mp_res123 hp hR ht hO (hn2 c1 h1) (hn3 c1 h1) (hj c1 h1) _ _) hS

/-! ### `process` -/

variable (hp : LogParams p) (hR : MpRel K p R) (ht : K.triv = trivZero3 p.maxsep)
include hp hR ht

theorem mp_localAuto (hn : ∀ c1 ∈ cats, ∀ c2 ∈ cats, CollapseNear threeD (centerSize c1.2).1 c2.2)
    (hj : ∀ c ∈ cats, ∀ L, L.Sublist (cats.flatMap Prod.snd) → R (K.cross12 true c.2 L) (cross12Triples c.2 L)) (S : TriCorr (MpArr W)) :
    Whole (fun a => R a (orderedTriples (cats.flatMap Prod.snd))) (K.localAuto threeD p.maxsep true cats S) := by
  have := mp_pass12 hp hR ht hn (fun c hc L hL => by rw [from12_first_eq]; exact hj c hc L hL) (S := TriCorr.clear) (m0 := 0) (.clear hR.toAddRel)
  rw [zero_add, from12_first_eq] at this
  exact (this.whole hR.toAddRel).imp fun _ h => hR.congr h fun k2 k3 => ordered_filter _ _ (InSides.ne1 hp) (InSides.ne2 hp)

theorem mp_localCross12 (hn : ∀ c1 ∈ cats1, ∀ c2 ∈ cats2, CollapseNear threeD (centerSize c1.2).1 c2.2)
    (hj : ∀ c ∈ cats1, ∀ L, L.Sublist (cats2.flatMap Prod.snd) → R (K.cross12 true c.2 L) (cross12Triples c.2 L))
    (S : TriCorr (MpArr W)) :
    Whole (fun a => R a
        (cross12Triples (cats1.flatMap Prod.snd) (cats2.flatMap Prod.snd)))
      (K.localCross12 threeD p.maxsep true true cats1 cats2 S) := by
  have := mp_pass12 hp hR ht hn (fun c hc L hL => by rw [from12_first_eq]; exact hj c hc L hL) (S := TriCorr.clear) (m0 := 0) (.clear hR.toAddRel)
  rw [zero_add, from12_first_eq] at this
  exact this.whole hR.toAddRel

theorem mp_localCross12_unordered (hn : ∀ c1 ∈ cats1, ∀ c2 ∈ cats2, CollapseNear threeD (centerSize c1.2).1 c2.2)
    (hn1 : ∀ c1 ∈ cats2, ∀ c2 ∈ cats1, CollapseNear threeD (centerSize c1.2).1 c2.2)
    (hn2 : ∀ c1 ∈ cats2, ∀ c2 ∈ cats2, CollapseNear threeD (centerSize c1.2).1 c2.2)
    (hj : ∀ c ∈ cats1, ∀ L, L.Sublist (cats2.flatMap Prod.snd) → R (K.cross12 true c.2 L) (cross12Triples c.2 L))
    (hj2 : ∀ c ∈ cats2, ∀ L, L.Sublist (cats1.flatMap Prod.snd) → ∀ L', L'.Sublist (cats2.flatMap Prod.snd) →
      R (K.cross .first c.2 L L') (crossTriples c.2 L L' + crossTriples c.2 L' L))
    (S : TriCorr (MpArr W)) :
    Whole (fun a => R a
        (mixedTriples (cats1.flatMap Prod.snd) (cats2.flatMap Prod.snd)))
      (K.localCross12 threeD p.maxsep true false cats1 cats2 S) := by
  have h1 := mp_pass12 hp hR ht hn (fun c hc L hL => by rw [from12_first_eq]; exact hj c hc L hL) (S := TriCorr.clear) (m0 := 0) (.clear hR.toAddRel)
  have h2 := mp_pass123 hp hR ht (O := .first) (by simp) hn1 hn2
    (fun c hc L hL L' hL' => by rw [from111_first_eq]; exact hj2 c hc L hL L' hL') h1
  rw [zero_add, from12_first_eq, from111_first_eq, add_comm] at h2
  exact (h2.whole hR.toAddRel).imp fun _ h => hR.congr h fun k2 k3 => mixed_filter _ _ _ (InSides.ne1 hp) (InSides.ne2 hp)

theorem mp_localCross (hn2 : ∀ c1 ∈ cats1, ∀ c2 ∈ cats2, CollapseNear threeD (centerSize c1.2).1 c2.2)
    (hn3 : ∀ c1 ∈ cats1, ∀ c3 ∈ cats3, CollapseNear threeD (centerSize c1.2).1 c3.2)
    (hj : ∀ c ∈ cats1, ∀ L, L.Sublist (cats2.flatMap Prod.snd) → ∀ L', L'.Sublist (cats3.flatMap Prod.snd) →
      R (K.cross .fixed c.2 L L') (crossTriples c.2 L L'))
    (S : TriCorr (MpArr W)) :
    Whole (fun a => R a
        (crossTriples (cats1.flatMap Prod.snd) (cats2.flatMap Prod.snd) (cats3.flatMap Prod.snd)))
      (K.localCross threeD p.maxsep true .fixed cats1 cats2 cats3 S) := by
  have := mp_pass123 hp hR ht (O := .fixed) (by simp) hn2 hn3
    (fun c hc L hL L' hL' => by rw [← crossTriples_eq]; exact hj c hc L hL L' hL') (S := TriCorr.clear) (m0 := 0) (.clear hR.toAddRel)
  rw [zero_add, ← crossTriples_eq] at this
  exact this.whole hR.toAddRel

theorem mp_localCross_first (hn2 : ∀ c1 ∈ cats1, ∀ c2 ∈ cats2, CollapseNear threeD (centerSize c1.2).1 c2.2)
    (hn3 : ∀ c1 ∈ cats1, ∀ c3 ∈ cats3, CollapseNear threeD (centerSize c1.2).1 c3.2)
    (hj : ∀ c ∈ cats1, ∀ L, L.Sublist (cats2.flatMap Prod.snd) → ∀ L', L'.Sublist (cats3.flatMap Prod.snd) →
      R (K.cross .first c.2 L L') (crossTriples c.2 L L' + crossTriples c.2 L' L))
    {S : TriCorr (MpArr W)} {m0} (hS : BothInv R S m0) :
    BothInv R (K.localPass123 (fun _ _ _ => True) threeD p.maxsep .first cats1 cats2 cats3 S)
      (m0 + (crossTriples (cats1.flatMap Prod.snd) (cats2.flatMap Prod.snd) (cats3.flatMap Prod.snd) +
        crossTriples (cats1.flatMap Prod.snd) (cats3.flatMap Prod.snd) (cats2.flatMap Prod.snd))) := by
  have := mp_pass123 hp hR ht (O := .first) (by simp) hn2 hn3
    (fun c hc L hL L' hL' => by rw [from111_first_eq]; exact hj c hc L hL L' hL') hS
  rwa [from111_first_eq] at this

theorem mp_localCross1 (hn2 : ∀ c1 ∈ cats1, ∀ c2 ∈ cats2, CollapseNear threeD (centerSize c1.2).1 c2.2)
    (hn3 : ∀ c1 ∈ cats1, ∀ c3 ∈ cats3, CollapseNear threeD (centerSize c1.2).1 c3.2)
    (hj : ∀ c ∈ cats1, ∀ L, L.Sublist (cats2.flatMap Prod.snd) → ∀ L', L'.Sublist (cats3.flatMap Prod.snd) →
      R (K.cross .first c.2 L L') (crossTriples c.2 L L' + crossTriples c.2 L' L))
    (S : TriCorr (MpArr W)) :
    Whole (fun a => R a
        (crossTriples (cats1.flatMap Prod.snd) (cats2.flatMap Prod.snd) (cats3.flatMap Prod.snd) +
          crossTriples (cats1.flatMap Prod.snd) (cats3.flatMap Prod.snd) (cats2.flatMap Prod.snd)))
      (K.localCross threeD p.maxsep true .first cats1 cats2 cats3 S) := by
  have := mp_localCross_first hp hR ht hn2 hn3 hj (S := TriCorr.clear) (m0 := 0) (.clear hR.toAddRel)
  rw [zero_add] at this
  exact this.whole hR.toAddRel

theorem mp_localCross_any (hn : ∀ c1 ∈ cats1 ++ cats2 ++ cats3, ∀ c2 ∈ cats1 ++ cats2 ++ cats3, CollapseNear threeD (centerSize c1.2).1 c2.2)
    (hj : ∀ c ∈ cats1 ++ cats2 ++ cats3, ∀ L, L.Subset ((cats1 ++ cats2 ++ cats3).flatMap Prod.snd) →
      ∀ L', L'.Subset ((cats1 ++ cats2 ++ cats3).flatMap Prod.snd) →
      R (K.cross .first c.2 L L') (crossTriples c.2 L L' + crossTriples c.2 L' L))
    (S : TriCorr (MpArr W)) :
    Whole (fun a => R a
        (mixed3Triples (cats1.flatMap Prod.snd) (cats2.flatMap Prod.snd) (cats3.flatMap Prod.snd)))
      (K.localCross threeD p.maxsep true .any cats1 cats2 cats3 S) := by
  have m1 : ∀ {c}, c ∈ cats1 → c ∈ cats1 ++ cats2 ++ cats3 := fun h => by simp [h]
  have m2 : ∀ {c}, c ∈ cats2 → c ∈ cats1 ++ cats2 ++ cats3 := fun h => by simp [h]
  have m3 : ∀ {c}, c ∈ cats3 → c ∈ cats1 ++ cats2 ++ cats3 := fun h => by simp [h]
  have s1 : ∀ {L : List (Obj (EuclideanSpace ℝ (Fin d)))}, L.Sublist (cats1.flatMap Prod.snd) → L.Subset ((cats1 ++ cats2 ++ cats3).flatMap Prod.snd) := fun h o ho => by
    obtain ⟨c, hc, ho⟩ := List.mem_flatMap.1 (h.subset ho)
    exact List.mem_flatMap.2 ⟨c, m1 hc, ho⟩
  have s2 : ∀ {L : List (Obj (EuclideanSpace ℝ (Fin d)))}, L.Sublist (cats2.flatMap Prod.snd) → L.Subset ((cats1 ++ cats2 ++ cats3).flatMap Prod.snd) := fun h o ho => by
    obtain ⟨c, hc, ho⟩ := List.mem_flatMap.1 (h.subset ho)
    exact List.mem_flatMap.2 ⟨c, m2 hc, ho⟩
  have s3 : ∀ {L : List (Obj (EuclideanSpace ℝ (Fin d)))}, L.Sublist (cats3.flatMap Prod.snd) → L.Subset ((cats1 ++ cats2 ++ cats3).flatMap Prod.snd) := fun h o ho => by
    obtain ⟨c, hc, ho⟩ := List.mem_flatMap.1 (h.subset ho)
    exact List.mem_flatMap.2 ⟨c, m3 hc, ho⟩
  have h1 := mp_localCross_first hp hR ht (cats1 := cats1) (cats2 := cats2) (cats3 := cats3)
    (fun c hc c' hc' => hn c (m1 hc) c' (m2 hc')) (fun c hc c' hc' => hn c (m1 hc) c' (m3 hc'))
    (fun c hc L hL L' hL' => hj c (m1 hc) L (s2 hL) L' (s3 hL')) (S := TriCorr.clear) (m0 := 0) (.clear hR.toAddRel)
  have h2 := mp_localCross_first hp hR ht (cats1 := cats2) (cats2 := cats1) (cats3 := cats3)
    (fun c hc c' hc' => hn c (m2 hc) c' (m1 hc')) (fun c hc c' hc' => hn c (m2 hc) c' (m3 hc'))
    (fun c hc L hL L' hL' => hj c (m2 hc) L (s1 hL) L' (s3 hL')) h1
  have h3 := mp_localCross_first hp hR ht (cats1 := cats3) (cats2 := cats1) (cats3 := cats2)
    (fun c hc c' hc' => hn c (m3 hc) c' (m1 hc')) (fun c hc c' hc' => hn c (m3 hc) c' (m2 hc'))
    (fun c hc L hL L' hL' => hj c (m3 hc) L (s1 hL) L' (s2 hL')) h2
  rw [zero_add] at h3
  rw [← from111_mixed, from111_first_eq, from111_first_eq, from111_first_eq]
  exact h3.whole hR.toAddRel

end
end
end TreeCorr
