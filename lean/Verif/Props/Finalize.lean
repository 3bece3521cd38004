import Verif.Proofs.Finalize
import Verif.Proofs.AtMostOnce
import Verif.Proofs.Cov
import Verif.Props.LinearCounts
import Verif.Props.Patch

/-!
C34: adding and summing result objects.  C35: what `finalize` makes of the accumulated sums.  C47: the mean
separation of a bin lies in the bin.
-/

namespace TreeCorr
open Classical
variable {P : Type}

/-! ### C34 -/

/-- The (not yet finalized) objects a user can obtain: cleared, counted, or the sum of two such. -/
inductive Built {C : Type} (K : Kit C) : Res → Prop
  | clear : Built K Res.zero
  | auto (c : C) : Built K (K.autoRes c)
  | cross (c1 c2 : C) : Built K (K.crossRes c1 c2)
  | iadd {r s : Res} : Built K r → Built K s → Built K (r.iadd s)

theorem Built.good {C : Type} {K : Kit C} (hK : K.Good) {r : Res} (h : Built K r) : r.acc.Good := by
  induction h with
  | clear => exact Acc.Good.zero
  | auto c => exact hK.1 c
  | cross c1 c2 => exact hK.2 c1 c2
  | iadd _ _ h1 h2 =>
    rw [Res.iadd_eq _ h2]
    exact h1.add h2

section
variable {C : Type} {K : Kit C} (hK : K.Good)
include hK

/-- **C34.** `+=` is associative … -/
theorem iadd_assoc {r s t : Res} (hs : Built K s) (ht : Built K t) :
    (r.iadd s).iadd t = r.iadd (s.iadd t) := by
  rw [Res.iadd_eq _ (Built.good hK (.iadd hs ht)), Res.iadd_eq _ (ht.good hK), Res.iadd_eq _ (ht.good hK),
    Res.iadd_eq _ (hs.good hK), add_assoc]

/-- … and commutative, … -/
theorem iadd_comm {r s : Res} (hr : Built K r) (hs : Built K s) : r.iadd s = s.iadd r := by
  rw [Res.iadd_eq _ (hs.good hK), Res.iadd_eq _ (hr.good hK), add_comm]

/-- … the cleared object is neutral on both sides, … -/
theorem iadd_clear {r : Res} (hr : Built K r) : r.iadd Res.zero = r ∧ Res.zero.iadd r = r := by
  rw [Res.iadd_eq _ (Acc.Good.zero), Res.iadd_eq _ (hr.good hK)]
  exact ⟨add_zero r, zero_add r⟩

theorem foldl_iadd {rs : List Res} (h : ∀ r ∈ rs, Built K r) (a : Res) :
    rs.foldl Res.iadd a = a + rs.sum := by
  induction rs generalizing a with
  | nil => simp
  | cons r t ih =>
    rw [List.foldl_cons, ih (fun r hr => h r (by simp [hr])), Res.iadd_eq _ ((h r (by simp)).good hK),
      List.sum_cons, add_assoc]

/-- … so adding a list of objects in any order gives the same. -/
theorem iadd_order {rs ss : List Res} (h : ∀ r ∈ rs, Built K r) (hp : rs.Perm ss) (a : Res) :
    rs.foldl Res.iadd a = ss.foldl Res.iadd a := by
  rw [foldl_iadd hK h, foldl_iadd hK (fun r hr => h r (hp.mem_iff.2 hr)), hp.sum_eq]

omit hK in
theorem list_sum_acc (rs : List Res) (k : ℤ) :
    rs.sum.acc.npairs k = (rs.map (fun c => c.acc.npairs k)).sum ∧
    rs.sum.acc.weight k = (rs.map (fun c => c.acc.weight k)).sum ∧
    rs.sum.acc.meanr k = (rs.map (fun c => c.acc.meanr k)).sum ∧
    rs.sum.acc.meanlogr k = (rs.map (fun c => c.acc.meanlogr k)).sum ∧
    rs.sum.acc.nk k = (rs.map (fun c => c.acc.nk k)).sum ∧
    rs.sum.acc.kk k = (rs.map (fun c => c.acc.kk k)).sum := by
  induction rs with
  | nil => exact ⟨rfl, rfl, rfl, rfl, rfl, rfl⟩
  | cons r t ih =>
    obtain ⟨i1, i2, i3, i4, i5, i6⟩ := ih
    simp only [List.sum_cons, List.map_cons, Res.add_acc, Acc.add_def, Acc.add, i1, i2, i3, i4, i5, i6, and_self]

/-- `_sum` of a class without `tot` (`KKCorrelation` and the others) equals clearing and adding in turn. -/
theorem sumKK_eq (hnn : K.nn = false) {rs : List Res} (h : ∀ r ∈ rs, Built K r) :
    sumKK rs = rs.foldl Res.iadd Res.zero := by
  have htot : ∀ r, Built K r → r.tot = 0 := by
    intro r hr
    induction hr with
    | clear => rfl
    | auto c => simp [Kit.autoRes, hnn]
    | cross c1 c2 => simp [Kit.crossRes, hnn]
    | iadd _ _ h1 h2 => simp [Res.iadd, h1, h2]
  rw [foldl_iadd hK h]
  have z : Res.zero + rs.sum = rs.sum := zero_add _
  rw [z]
  apply Res.ext
  · have := list_sum_acc rs
    ext k
    · exact (this k).1.symm
    · exact (this k).2.1.symm
    · exact (this k).2.2.1.symm
    · exact (this k).2.2.2.1.symm
    · exact (this k).2.2.2.2.1.symm
    · exact (this k).2.2.2.2.2.symm
  · rw [Res.sum_tot]
    symm
    apply List.sum_eq_zero
    intro x hx
    obtain ⟨r, hr, rfl⟩ := List.mem_map.1 hx
    exact htot r (h r hr)

end

/-- The flag `_nonzero` is absent or right. -/
def CRes.Fresh (c : CRes) : Prop := ∀ b, c.flag = some b → (b = true ↔ c.res.nonzero)

theorem sum_filter_zero {α : Type} (l : List α) (p : α → Bool) (f : α → ℝ) (h : ∀ a ∈ l, p a = false → f a = 0) :
    ((l.filter p).map f).sum = (l.map f).sum := by
  induction l with
  | nil => rfl
  | cons a t ih =>
    have := ih (fun a ha => h a (by simp [ha]))
    cases hp : p a with
    | true => simp [hp, this]
    | false => simp [hp, this, h a (by simp) hp]

/-- `NNCorrelation._sum` equals clearing and adding in turn, also when some items are the minimal copies that are flagged
zero and only carry `tot`.  The arrays `nk`, `kk` do not exist in this class (`hno`). -/
theorem sumNN_eq_partial {C : Type} {K : Kit C} (hK : K.Good) {cs : List CRes} (h : ∀ c ∈ cs, Built K c.res)
    (hfresh : ∀ c ∈ cs, c.Fresh) (hno : ∀ c ∈ cs, c.res.acc.nk = 0 ∧ c.res.acc.kk = 0) :
    sumNN cs = (cs.map CRes.res).foldl Res.iadd Res.zero := by
  rw [foldl_iadd hK (by simpa using h)]
  have z : Res.zero + (cs.map CRes.res).sum = (cs.map CRes.res).sum := zero_add _
  rw [z]
  have hlazy : ∀ c ∈ cs, c.lazyNonzero = false → c.res.acc = 0 := by
    intro c hc hl
    apply ((h c hc).good hK).eq_zero
    unfold CRes.lazyNonzero at hl
    cases hf : c.flag with
    | none =>
      rw [hf, Option.getD_none] at hl
      exact of_decide_eq_false hl
    | some b =>
      rw [hf] at hl
      simp only [Option.getD_some] at hl
      intro hn
      have := (hfresh c hc b hf).2 hn
      rw [hl] at this
      cases this
  have hsum := list_sum_acc (cs.map CRes.res)
  simp only [List.map_map, Function.comp_def] at hsum
  have e : ∀ f : Acc → ℝ, f 0 = 0 →
      ((cs.filter (fun c => c.lazyNonzero)).map (fun c => f c.res.acc)).sum
        = (cs.map (fun c => f c.res.acc)).sum := by
    intro f hf
    apply sum_filter_zero
    intro c hc hl
    rw [hlazy c hc hl, hf]
  have hnk : ∀ k, (cs.map (fun c => c.res.acc.nk k)).sum = 0 := by
    intro k
    apply List.sum_eq_zero
    intro x hx
    obtain ⟨c, hc, rfl⟩ := List.mem_map.1 hx
    rw [(hno c hc).1]; rfl
  have hkk : ∀ k, (cs.map (fun c => c.res.acc.kk k)).sum = 0 := by
    intro k
    apply List.sum_eq_zero
    intro x hx
    obtain ⟨c, hc, rfl⟩ := List.mem_map.1 hx
    rw [(hno c hc).2]; rfl
  unfold sumNN
  simp only
  split
  · rename_i hlen
    have hnil : cs.filter (fun c => c.lazyNonzero) = [] := List.length_eq_zero_iff.1 hlen
    rw [hnil] at e
    simp only [List.map_nil, List.sum_nil] at e
    apply Res.ext
    · ext k
      · rw [(hsum k).1, ← e (fun a => a.npairs k) rfl]; rfl
      · rw [(hsum k).2.1, ← e (fun a => a.weight k) rfl]; rfl
      · rw [(hsum k).2.2.1, ← e (fun a => a.meanr k) rfl]; rfl
      · rw [(hsum k).2.2.2.1, ← e (fun a => a.meanlogr k) rfl]; rfl
      · rw [(hsum k).2.2.2.2.1, hnk k]; rfl
      · rw [(hsum k).2.2.2.2.2, hkk k]; rfl
    · rw [Res.sum_tot, List.map_map]; rfl
  · apply Res.ext
    · ext k
      · rw [(hsum k).1, ← e (fun a => a.npairs k) rfl]
      · rw [(hsum k).2.1, ← e (fun a => a.weight k) rfl]
      · rw [(hsum k).2.2.1, ← e (fun a => a.meanr k) rfl]
      · rw [(hsum k).2.2.2.1, ← e (fun a => a.meanlogr k) rfl]
      · rw [(hsum k).2.2.2.2.1, hnk k]
      · rw [(hsum k).2.2.2.2.2, hkk k]
    · rw [Res.sum_tot, List.map_map]; rfl

/-- **C34, negation.** `_nonzero` is cached at first use and `+=` does not forget it: an object that had no pairs when
a covariance was computed keeps counting as empty after pairs were added to it, and `_sum` leaves them out. -/
theorem sumNN_stale_wrong : ∃ c d : CRes, c.flag = none ∧ d.flag = none ∧ c.res.acc.Good ∧ d.res.acc.Good ∧
    (sumNN [c.touch.iadd d]).acc.npairs 0 = 0 ∧
    ([c.touch.iadd d].map CRes.res).foldl Res.iadd Res.zero = ⟨d.res.acc, 0⟩ ∧ d.res.acc.npairs 0 = 1 := by
  let one : Acc := { Acc.zero with npairs := fun _ => 1 }
  have hg : one.Good := by intro k; simp [one, Acc.zero]
  refine ⟨⟨Res.zero, none⟩, ⟨⟨one, 0⟩, none⟩, rfl, rfl, Acc.Good.zero, hg, ?_, ?_, rfl⟩
  · have hz : ¬ Res.zero.nonzero := by simp [Res.nonzero, Res.zero, Acc.zero]
    simp [sumNN, CRes.touch, CRes.iadd, CRes.lazyNonzero, hz, Acc.zero]
  · have e1 : (Res.zero.iadd ⟨one, 0⟩ : Res) = ⟨one, 0⟩ := by
      rw [Res.iadd_eq _ hg]; exact zero_add _
    simp only [List.map_cons, List.map_nil, List.foldl_cons, List.foldl_nil, CRes.touch, CRes.iadd]
    rw [e1, e1]

/-! ### C35 -/

/-- **C35, separations.** For non-negative weights: in a bin with weight, `finalize` reports the weighted mean of the
recorded separations, in the user's units, which lies between any lower and upper bound of them; `meanlogr` is
the weighted mean of the recorded logarithms. -/
theorem finalize_mean {F : FinParams} (hu : 0 < F.units) (es : List (Emit P)) (k : ℤ)
    (hw : ∀ e ∈ hits es k, 0 ≤ e.c1.w * e.c2.w) (hne : (accumulate Acc.zero es).weight k ≠ 0) :
    let W := ((hits es k).map (fun e => e.c1.w * e.c2.w)).sum
    let out := finalize F (accumulate Acc.zero es)
    out.weight k = W ∧ 0 < W ∧
    out.meanr k = F.unitR (((hits es k).map (fun e => e.c1.w * e.c2.w * e.r)).sum / W) ∧
    out.meanlogr k = F.unitLogr (((hits es k).map (fun e => e.c1.w * e.c2.w * e.logr)).sum / W) ∧
    (∀ lo hi, (∀ e ∈ hits es k, lo ≤ e.r ∧ e.r ≤ hi) → F.unitR lo ≤ out.meanr k ∧ out.meanr k ≤ F.unitR hi) ∧
    (∀ lo hi, (∀ e ∈ hits es k, lo ≤ e.logr ∧ e.logr ≤ hi) →
      F.unitLogr lo ≤ out.meanlogr k ∧ out.meanlogr k ≤ F.unitLogr hi) := by
  intro W out
  obtain ⟨a1, a2, a3, _⟩ := accumulate_hits_zero es k
  have hWne : W ≠ 0 := by rw [a1] at hne; exact hne
  have hW : 0 < W := lt_of_le_of_ne (sum_w_nonneg _ _ hw) (Ne.symm hWne)
  have o1 : out.meanr k = F.unitR (((hits es k).map (fun e => e.c1.w * e.c2.w * e.r)).sum / W) := by
    simp only [out, finalize]
    rw [if_pos hne]
    rw [a1, a2]
  have o2 : out.meanlogr k = F.unitLogr (((hits es k).map (fun e => e.c1.w * e.c2.w * e.logr)).sum / W) := by
    simp only [out, finalize]
    rw [if_pos hne]
    rw [a1, a3]
  refine ⟨a1, hW, o1, o2, ?_, ?_⟩
  · intro lo hi hb
    rw [o1]
    refine ⟨FinParams.unitR_mono hu ?_, FinParams.unitR_mono hu ?_⟩
    · rw [le_div_iff₀ hW]
      exact le_wmean _ (fun e : Emit P => e.c1.w * e.c2.w) (fun e => e.r) lo hw (fun e he => (hb e he).1)
    · rw [div_le_iff₀ hW]
      exact wmean_le _ (fun e : Emit P => e.c1.w * e.c2.w) (fun e => e.r) hi hw (fun e he => (hb e he).2)
  · intro lo hi hb
    rw [o2]
    refine ⟨FinParams.unitLogr_mono ?_, FinParams.unitLogr_mono ?_⟩
    · rw [le_div_iff₀ hW]
      exact le_wmean _ (fun e : Emit P => e.c1.w * e.c2.w) (fun e => e.logr) lo hw (fun e he => (hb e he).1)
    · rw [div_le_iff₀ hW]
      exact wmean_le _ (fun e : Emit P => e.c1.w * e.c2.w) (fun e => e.logr) hi hw (fun e he => (hb e he).2)

/-- **C35, units.** A chord `x` of the unit sphere is reported as the angle it subtends, between 0 and a half turn, in the user's units;
other separations are only divided by the unit. -/
theorem unitR_angle {F : FinParams} (hu : 0 < F.units) {x : ℝ} (hx : 0 ≤ x) :
    (F.chord = true → x ≤ 2 → 2 * Real.sin (F.unitR x * F.units / 2) = x ∧
      0 ≤ F.unitR x * F.units ∧ F.unitR x * F.units ≤ Real.pi) ∧
    (F.chord = false → F.unitR x * F.units = x) := by
  constructor
  · intro hc h2
    have e : F.unitR x * F.units = 2 * Real.arcsin (x / 2) := by
      simp only [FinParams.unitR, hc, if_true]
      field_simp
    rw [e]
    refine ⟨?_, ?_, ?_⟩
    · rw [show 2 * Real.arcsin (x / 2) / 2 = Real.arcsin (x / 2) by ring,
        Real.sin_arcsin (by linarith) (by linarith)]
      ring
    · have := Real.arcsin_nonneg.2 (show 0 ≤ x / 2 by linarith)
      linarith
    · have := Real.arcsin_le_pi_div_two (x / 2)
      linarith
  · intro hc
    simp only [FinParams.unitR, hc, Bool.false_eq_true, if_false]
    field_simp

/-- **C35, units.** The logarithm is converted like the separation itself. -/
theorem unitLogr_log {F : FinParams} (hu : 0 < F.units) {x : ℝ} (hx : 0 < x) :
    F.unitLogr (Real.log x) = Real.log (F.unitR x) := by
  cases hc : F.chord
  · simp only [FinParams.unitR, FinParams.unitLogr, hc, Bool.false_eq_true, if_false]
    rw [Real.log_div hx.ne' hu.ne']
  · have : 0 < Real.arcsin (x / 2) := Real.arcsin_pos.2 (by linarith)
    simp only [FinParams.unitR, FinParams.unitLogr, hc, if_true]
    rw [Real.exp_log hx, Real.log_div (by positivity) hu.ne']

/-- The diameter of the sphere is 180 degrees. -/
example : (FinParams.mk (fun _ => 1) (fun _ => 0) (Real.pi / 180) true).unitR 2 = 180 := by
  have := Real.pi_pos
  simp only [FinParams.unitR, if_true]
  rw [show (2 : ℝ) / 2 = 1 by norm_num, Real.arcsin_one]
  field_simp

/-- **C35.** `meanlogr ≤ log(meanr)` for the unconverted distances in units of 1. -/
theorem finalize_meanlogr_le {F : FinParams} (hu : F.units = 1) (hc : F.chord = false) (es : List (Emit P)) (k : ℤ)
    (hw : ∀ e ∈ hits es k, 0 ≤ e.c1.w * e.c2.w) (hr : ∀ e ∈ hits es k, 0 < e.r ∧ e.logr = Real.log e.r)
    (hne : (accumulate Acc.zero es).weight k ≠ 0) :
    (finalize F (accumulate Acc.zero es)).meanlogr k
      ≤ Real.log ((finalize F (accumulate Acc.zero es)).meanr k) := by
  obtain ⟨_, h2, h3, h4, _⟩ := finalize_mean (F := F) (by rw [hu]; norm_num) es k hw hne
  rw [h3, h4]
  simp only [FinParams.unitR, FinParams.unitLogr, hu, hc]
  have e : (hits es k).map (fun e => e.c1.w * e.c2.w * e.logr)
      = (hits es k).map (fun e => e.c1.w * e.c2.w * Real.log e.r) :=
    List.map_congr_left fun e he => by rw [(hr e he).2]
  rw [e]
  simpa using wmean_log (hits es k) (fun e : Emit P => e.c1.w * e.c2.w) (fun e => e.r) hw
    (fun e he => (hr e he).1) h2.ne'

/-- **C35.** A bin without weight gets the nominal separations, and its counts are not touched. -/
theorem finalize_empty (F : FinParams) (A : Acc) (k : ℤ) (h : A.weight k = 0) :
    (finalize F A).meanr k = F.rnom k ∧ (finalize F A).meanlogr k = F.logr k ∧
    (finalize F A).weight k = 0 ∧ (finalize F A).npairs k = A.npairs k ∧ (finalize F A).kk k = A.kk k := by
  simp [finalize, h]

/-- **C35, scalar-scalar.** With `bin_slop = 0` and logarithmic bins the reported `xi` of a bin is the weighted mean of the
products `k1*k2` over exactly the pairs of rows whose separation is in the bin, and 0 in a bin whose pairs
have no weight. -/
theorem kk_xi_exact [PseudoMetricSpace P] (A1 A2 : StdAlg P) (g : Geom P) (hg : g.Dominates)
    (fp1 fp2 : FieldParams) (hf1 : fp1.minsize = 0) (hf2 : fp2.minsize = 0)
    {p : Params} (hp : LogParams p) (hb : p.b = 0) (F : FinParams) (l1 l2 : List (Obj P))
    (hw1 : ∀ o ∈ l1, o.Valid) (hw2 : ∀ o ∈ l2, o.Valid) :
    ∃ es, processCross (logBin P) (plainMetric P) p (buildField A1 g fp1 l1) (buildField A2 g fp2 l2)
        = some es ∧
      ∀ k, let prs := pairsIn (crossPairs l1 l2) (InLogBin p.minsep p.binsize p.nbins k)
        let out := finalize F (accumulate Acc.zero es)
        out.weight k = bruteW prs ∧
        (bruteW prs ≠ 0 → out.kk k = bruteKK prs / bruteW prs ∧ out.nk k = bruteNK prs / bruteW prs) ∧
        (bruteW prs = 0 → out.kk k = 0 ∧ out.nk k = 0) := by
  obtain ⟨es, h, hk⟩ := cross_log_exact A1 A2 g hg fp1 fp2 hf1 hf2 hp hb l1 l2 hw1 hw2
  refine ⟨es, h, ?_⟩
  intro k
  obtain ⟨k1, k2, k3, _⟩ := hk k
  simp only [finalize]
  rw [k1, k2, k3]
  refine ⟨rfl, fun hne => ?_, fun h0 => ?_⟩
  · simp [hne]
  · -- all the pairs have weight zero, hence zero products
    have hz : ∀ q ∈ pairsIn (crossPairs l1 l2) (InLogBin p.minsep p.binsize p.nbins k),
        q.1.w * q.2.w = 0 := by
      have hnn : ∀ q ∈ pairsIn (crossPairs l1 l2) (InLogBin p.minsep p.binsize p.nbins k),
          0 ≤ q.1.w * q.2.w := by
        intro q hq
        rw [pairsIn, Multiset.mem_filter, mem_crossPairs] at hq
        exact mul_nonneg (hw1 _ hq.1.1).1 (hw2 _ hq.1.2).1
      intro q hq
      obtain ⟨t, ht⟩ := Multiset.exists_cons_of_mem hq
      rw [bruteW, ht, Multiset.map_cons, Multiset.sum_cons] at h0
      have h3 : 0 ≤ (t.map (fun q : Obj P × Obj P => q.1.w * q.2.w)).sum := by
        apply Multiset.sum_nonneg
        intro x hx
        obtain ⟨q', hq', rfl⟩ := Multiset.mem_map.1 hx
        exact hnn q' (by rw [ht]; exact Multiset.mem_cons_of_mem hq')
      have := hnn q hq
      linarith
    have hzero : ∀ q ∈ pairsIn (crossPairs l1 l2) (InLogBin p.minsep p.binsize p.nbins k), ZeroPair q := by
      intro q hq
      have h1 := hz q hq
      rw [pairsIn, Multiset.mem_filter, mem_crossPairs] at hq
      rcases mul_eq_zero.1 h1 with h | h
      · exact Or.inl ⟨h, (hw1 _ hq.1.1).2 h⟩
      · exact Or.inr ⟨h, (hw2 _ hq.1.2).2 h⟩
    have e1 : bruteKK (pairsIn (crossPairs l1 l2) (InLogBin p.minsep p.binsize p.nbins k)) = 0 := by
      apply Multiset.sum_eq_zero
      intro x hx
      obtain ⟨q, hq, rfl⟩ := Multiset.mem_map.1 hx
      exact (hzero q hq).kk
    have e2 : bruteNK (pairsIn (crossPairs l1 l2) (InLogBin p.minsep p.binsize p.nbins k)) = 0 := by
      apply Multiset.sum_eq_zero
      intro x hx
      obtain ⟨q, hq, rfl⟩ := Multiset.mem_map.1 hx
      exact (hzero q hq).nk
    rw [h0, e1, e2]
    simp

/-! ### C47 -/

/-- Non-negative weights of the rows give non-negative weights of the calls. -/
theorem emit_w_nonneg {e : Emit P} (h1 : e.c1.SumsOK) (h2 : e.c2.SumsOK) (w1 : ∀ o ∈ e.c1.objs, 0 ≤ o.w)
    (w2 : ∀ o ∈ e.c2.objs, 0 ≤ o.w) : 0 ≤ e.c1.w * e.c2.w := by
  rw [h1.w_eq, h2.w_eq]
  exact mul_nonneg (sum_w_nonneg _ _ w1) (sum_w_nonneg _ _ w2)

/-- A cell of known sums over rows with non-negative weights. -/
def NonnegCell (c : Cell P) : Prop := c.SumsOK ∧ ∀ o ∈ c.objs, 0 ≤ o.w

theorem hered_nonneg : Hered (NonnegCell (P := P)) := by
  intro d s l r h
  have := hered_sumsOK d s l r h.1
  exact ⟨⟨this.1, fun o ho => h.2 o (by simp [Cell.objs, ho])⟩, ⟨this.2, fun o ho => h.2 o (by simp [Cell.objs, ho])⟩⟩

theorem buildField_nonneg (A : StdAlg P) (g : Geom P) (fp : FieldParams) (l : List (Obj P))
    (hw : ∀ o ∈ l, 0 ≤ o.w) : ∀ c ∈ (buildField A g fp l).cells, NonnegCell c := by
  intro c hc
  refine ⟨(buildField_holds A g fp l).sums c hc, ?_⟩
  intro o ho
  apply hw
  rw [← (buildField_objs A g fp l).mem_iff]
  exact List.mem_flatMap.2 ⟨c, hc, ho⟩

theorem nominal_free {es : List (Emit P)} {k : ℤ} (hne : (accumulate Acc.zero es).weight k ≠ 0)
    (hk2 : ∀ e ∈ es, e.k2 = none) : ∃ e ∈ es, e.k = k := by
  obtain ⟨a1, _⟩ := accumulate_hits_zero es k
  have : hits es k ≠ [] := by
    intro h0
    rw [h0] at a1
    exact hne a1
  obtain ⟨e, he⟩ := List.exists_mem_of_ne_nil _ this
  obtain ⟨h1, h2⟩ := mem_hits he
  rcases h2 with h2 | h2
  · exact ⟨e, h1, h2⟩
  · rw [hk2 e h1] at h2; cases h2

/-- If every call records a separation inside its own bin, so is the mean. -/
theorem mean_in_bin {es : List (Emit P)} (nbins : ℤ) (edge : ℤ → ℝ)
    (hes : ∀ e ∈ es, e.k2 = none ∧ 0 ≤ e.c1.w * e.c2.w ∧
      (0 ≤ e.k ∧ e.k < nbins ∧ edge e.k ≤ e.r ∧ e.r < edge (e.k + 1))) {F : FinParams}
    (hu : 0 < F.units) (hc : F.chord = false) (k : ℤ) (hne : (accumulate Acc.zero es).weight k ≠ 0) :
    0 ≤ k ∧ k < nbins ∧ edge k ≤ F.units * (finalize F (accumulate Acc.zero es)).meanr k ∧
      F.units * (finalize F (accumulate Acc.zero es)).meanr k < edge (k + 1) := by
  obtain ⟨e1, e2, _⟩ := accumulate_hits_zero es k
  have hh : ∀ e ∈ hits es k, 0 ≤ e.c1.w * e.c2.w ∧ edge k ≤ e.r ∧ e.r < edge (k + 1) := by
    intro e he
    obtain ⟨h1, h2⟩ := mem_hits he
    obtain ⟨g1, g2, _, _, g3, g4⟩ := hes e h1
    rcases h2 with h2 | h2
    · rw [h2] at g3 g4; exact ⟨g2, g3, g4⟩
    · rw [g1] at h2; cases h2
  have hW : 0 < ((hits es k).map (fun e => e.c1.w * e.c2.w)).sum :=
    lt_of_le_of_ne (sum_w_nonneg _ _ fun e he => (hh e he).1) (by rw [e1] at hne; exact Ne.symm hne)
  obtain ⟨e, he, hek⟩ := nominal_free hne (fun e he => (hes e he).1)
  have hk := (hes e he).2.2
  rw [hek] at hk
  refine ⟨hk.1, hk.2.1, ?_⟩
  have hval : F.units * (finalize F (accumulate Acc.zero es)).meanr k
      = ((hits es k).map (fun e => e.c1.w * e.c2.w * e.r)).sum
        / ((hits es k).map (fun e => e.c1.w * e.c2.w)).sum := by
    simp only [finalize]
    rw [if_pos hne, e1, e2]
    simp only [FinParams.unitR, hc, Bool.false_eq_true, if_false]
    exact mul_div_cancel₀ _ hu.ne'
  rw [hval, le_div_iff₀ hW, div_lt_iff₀ hW]
  exact ⟨le_wmean _ (fun e : Emit P => e.c1.w * e.c2.w) (fun e => e.r) _ (fun e he => (hh e he).1)
      (fun e he => (hh e he).2.1),
    wmean_lt _ (fun e : Emit P => e.c1.w * e.c2.w) (fun e => e.r) _ (fun e he => (hh e he).1)
      (fun e he => (hh e he).2.2) hW.ne'⟩

theorem cross_emits {B : BinHelper P} {M : MetricHelper P} {p : Params} {inBin : ℤ → ℝ → Prop}
    (hin : ∀ a b e, decide11 B M p false a b = .direct e → inBin e.k e.r)
    (A1 A2 : StdAlg P) (g : Geom P) (fp1 fp2 : FieldParams)
    (l1 l2 : List (Obj P)) (hw1 : ∀ o ∈ l1, 0 ≤ o.w) (hw2 : ∀ o ∈ l2, 0 ≤ o.w) {es : List (Emit P)}
    (h : processCross B M p (buildField A1 g fp1 l1) (buildField A2 g fp2 l2) = some es) :
    ∀ e ∈ es, e.k2 = none ∧ 0 ≤ e.c1.w * e.c2.w ∧ inBin e.k e.r := by
  rw [processCross] at h
  split at h
  · injection h with h; subst h; simp
  obtain ⟨D, _, hd, _⟩ := crossLoop_covers _ (decide11_honest _ _ _ _) NonnegCell NonnegCell hered_nonneg
    hered_nonneg _ _ (buildField_nonneg A1 g fp1 l1 hw1) (buildField_nonneg A2 g fp2 l2 hw2) _ h
  intro e he
  obtain ⟨a, b, ha, hb, hact⟩ := hd e he
  obtain ⟨c1, c2⟩ := decide11_honest _ _ _ _ _ _ _ hact
  refine ⟨decide11_k2_none _ _ _ hact, ?_, hin a b e hact⟩
  rw [c1, c2, ha.1.w_eq, hb.1.w_eq]
  exact mul_nonneg (sum_w_nonneg _ _ ha.2) (sum_w_nonneg _ _ hb.2)

theorem auto_emits {B : BinHelper P} {M : MetricHelper P} {p : Params} {inBin : ℤ → ℝ → Prop}
    (hin : ∀ a b e, decide11 B M p false a b = .direct e → inBin e.k e.r)
    (A : StdAlg P) (g : Geom P) (fp : FieldParams) (l : List (Obj P)) (hw : ∀ o ∈ l, 0 ≤ o.w)
    {es : List (Emit P)} (h : processAuto (decide11 B M p false) p (buildField A g fp l).cells = some es) :
    ∀ e ∈ es, e.k2 = none ∧ 0 ≤ e.c1.w * e.c2.w ∧ inBin e.k e.r := by
  obtain ⟨D, D2, _, hd, _⟩ := processAuto_covers _ (decide11_honest _ _ _ _) p NonnegCell hered_nonneg _
    (buildField_nonneg A g fp l hw) _ h
  intro e he
  obtain ⟨a, b, ha, hb, hact⟩ := hd e he
  obtain ⟨c1, c2⟩ := decide11_honest _ _ _ _ _ _ _ hact
  refine ⟨decide11_k2_none _ _ _ hact, ?_, hin a b e hact⟩
  rw [c1, c2, ha.1.w_eq, hb.1.w_eq]
  exact mul_nonneg (sum_w_nonneg _ _ ha.2) (sum_w_nonneg _ _ hb.2)

/-- **C47, logarithmic bins, cross.** For any metric, any `bin_slop` and any trees, with non-negative weights: the mean
separation reported for a bin with weight (converted back from the user's units) lies in that bin.  The chord
distances of spherical coordinates are excluded: there the report is converted to an angle and the bins are not,
as the documentation says. -/
theorem meanr_in_log_bin_cross (A1 A2 : StdAlg P) (g : Geom P) (fp1 fp2 : FieldParams) {p : Params}
    (hm : 0 < p.minsep) (hbs : 0 < p.binsize) (hmax : p.maxsep = p.minsep * Real.exp (p.nbins * p.binsize))
    (M : MetricHelper P) (l1 l2 : List (Obj P)) (hw1 : ∀ o ∈ l1, 0 ≤ o.w) (hw2 : ∀ o ∈ l2, 0 ≤ o.w)
    {es : List (Emit P)}
    (h : processCross (logBin P) M p (buildField A1 g fp1 l1) (buildField A2 g fp2 l2) = some es) {F : FinParams}
    (hu : 0 < F.units) (hc : F.chord = false) (k : ℤ) (hne : (accumulate Acc.zero es).weight k ≠ 0) :
    InLogBin p.minsep p.binsize p.nbins k (F.units * (finalize F (accumulate Acc.zero es)).meanr k) :=
  mean_in_bin p.nbins (logEdge p.minsep p.binsize)
    (cross_emits (fun _ _ _ ha => (log_emit hm hbs hmax ha).2.2.2) A1 A2 g fp1 fp2 l1 l2 hw1 hw2 h) hu hc k hne

/-- **C47, logarithmic bins, auto.** -/
theorem meanr_in_log_bin_auto (A : StdAlg P) (g : Geom P) (fp : FieldParams) {p : Params}
    (hm : 0 < p.minsep) (hbs : 0 < p.binsize) (hmax : p.maxsep = p.minsep * Real.exp (p.nbins * p.binsize))
    (M : MetricHelper P) (l : List (Obj P)) (hw : ∀ o ∈ l, 0 ≤ o.w) {es : List (Emit P)}
    (h : processAuto (decide11 (logBin P) M p false) p (buildField A g fp l).cells = some es) {F : FinParams}
    (hu : 0 < F.units) (hc : F.chord = false) (k : ℤ) (hne : (accumulate Acc.zero es).weight k ≠ 0) :
    InLogBin p.minsep p.binsize p.nbins k (F.units * (finalize F (accumulate Acc.zero es)).meanr k) :=
  mean_in_bin p.nbins (logEdge p.minsep p.binsize)
    (auto_emits (fun _ _ _ ha => (log_emit hm hbs hmax ha).2.2.2) A g fp l hw h) hu hc k hne

/-- **C47, linear bins, cross.** -/
theorem meanr_in_linear_bin_cross (A1 A2 : StdAlg P) (g : Geom P) (fp1 fp2 : FieldParams) {p : Params}
    (hm : 0 ≤ p.minsep) (hbs : 0 < p.binsize) (hmax : p.maxsep = p.minsep + p.nbins * p.binsize)
    (hn : 0 ≤ p.nbins) (M : MetricHelper P) (l1 l2 : List (Obj P)) (hw1 : ∀ o ∈ l1, 0 ≤ o.w)
    (hw2 : ∀ o ∈ l2, 0 ≤ o.w) {es : List (Emit P)}
    (h : processCross (linearBin P) M p (buildField A1 g fp1 l1) (buildField A2 g fp2 l2) = some es) {F : FinParams}
    (hu : 0 < F.units) (hc : F.chord = false) (k : ℤ) (hne : (accumulate Acc.zero es).weight k ≠ 0) :
    InLinBin p.minsep p.binsize p.nbins k (F.units * (finalize F (accumulate Acc.zero es)).meanr k) :=
  mean_in_bin p.nbins (linEdge p.minsep p.binsize)
    (cross_emits (fun _ _ _ ha => (linear_emit hm hbs hmax hn ha).2.2.2) A1 A2 g fp1 fp2 l1 l2 hw1 hw2 h) hu hc k hne

/-- **C47, linear bins, auto.** -/
theorem meanr_in_linear_bin_auto (A : StdAlg P) (g : Geom P) (fp : FieldParams) {p : Params}
    (hm : 0 ≤ p.minsep) (hbs : 0 < p.binsize) (hmax : p.maxsep = p.minsep + p.nbins * p.binsize)
    (hn : 0 ≤ p.nbins) (M : MetricHelper P) (l : List (Obj P)) (hw : ∀ o ∈ l, 0 ≤ o.w) {es : List (Emit P)}
    (h : processAuto (decide11 (linearBin P) M p false) p (buildField A g fp l).cells = some es) {F : FinParams}
    (hu : 0 < F.units) (hc : F.chord = false) (k : ℤ) (hne : (accumulate Acc.zero es).weight k ≠ 0) :
    InLinBin p.minsep p.binsize p.nbins k (F.units * (finalize F (accumulate Acc.zero es)).meanr k) :=
  mean_in_bin p.nbins (linEdge p.minsep p.binsize)
    (auto_emits (fun _ _ _ ha => (linear_emit hm hbs hmax hn ha).2.2.2) A g fp l hw h) hu hc k hne

/-! ### The hypotheses can be met -/

noncomputable section

/-- Nominal values for three bins, degrees. -/
def exFin : FinParams := { rnom := fun k => k, logr := fun k => k, units := 2, chord := false }

/-- The rows (0,0) against (2,0) and (5,0): bin 0 holds one pair, `finalize` puts its separation in the bin and gives
`xi` as the mean of one product. -/
example : ∃ es, processCross (logBin _) (plainMetric _) exLog
    (buildField (sortAlg _ 0) (euclidGeom 2) exFp [ob 0 0 0])
    (buildField (sortAlg _ 0) (euclidGeom 2) exFp [ob 2 0 0, ob 5 0 1]) = some es ∧
    (finalize exFin (accumulate Acc.zero es)).weight 0 = 1 ∧
    InLogBin 1 1 3 0 (2 * (finalize exFin (accumulate Acc.zero es)).meanr 0) := by
  obtain ⟨es, h, hk⟩ := kk_xi_exact (sortAlg _ 0) (sortAlg _ 0) (euclidGeom 2)
    (euclidGeom_dominates 2) exFp exFp rfl rfl exLog_ok rfl exFin [ob 0 0 0] [ob 2 0 0, ob 5 0 1]
    (by simp [ob_valid]) (by simp [ob_valid])
  have e : crossPairs [ob 0 0 0] [ob 2 0 0, ob 5 0 1] = {(ob 0 0 0, ob 2 0 0), (ob 0 0 0, ob 5 0 1)} := by
    rw [crossPairs_singleton]; rfl
  have d1 : dist (pt 0 0) (pt 2 0) = 2 := by rw [dist_pt_x]; norm_num
  have d2 : dist (pt 0 0) (pt 5 0) = 5 := by rw [dist_pt_x]; norm_num
  have h1 : InLogBin 1 1 3 0 2 := inLog0 _ (by norm_num) (by norm_num)
  have h2 : ¬ InLogBin 1 1 3 0 5 := not_inLog0 _ (by norm_num)
  have hw : (finalize exFin (accumulate Acc.zero es)).weight 0 = 1 := by
    rw [(hk 0).1, e]
    simp [pairsIn, Multiset.insert_eq_cons, Multiset.filter_singleton, exLog, d1, d2, h1, h2, bruteW, ob]
  refine ⟨es, h, hw, ?_⟩
  have hw' : (accumulate Acc.zero es).weight 0 = 1 := hw
  exact meanr_in_log_bin_cross (sortAlg _ 0) (sortAlg _ 0) (euclidGeom 2) exFp exFp (p := exLog)
    (by norm_num [exLog]) (by norm_num [exLog]) (by norm_num [exLog]) _ _ _ (by simp [ob]) (by simp [ob]) h
    (F := exFin) (by norm_num [exFin]) rfl 0 (by rw [hw']; norm_num)

/-- C34: three objects of the tree code, one of them a flagged minimal copy. -/
example (c : List (Obj (EuclideanSpace ℝ (Fin 2)))) :
    ((exKit true).autoRes c).iadd Res.zero = (exKit true).autoRes c :=
  (iadd_clear (treeKit_good _ _ _ _ _ _) (Built.auto c)).1

end
end TreeCorr
