import Verif.Spec.CorrEq
import Verif.Proofs.Adding
import Verif.Props.Adding

/-!
# C95: equal two-point objects can stand for each other
-/

namespace TreeCorr
namespace Adding

theorem equal_total {a b : EObj} (h : equal a b) : total a.toObj = total b.toObj := by
  obtain ⟨-, h1, -, -, -, -, -, h2, -⟩ := h
  simp only [total, h1, h2]

/-- **C95**: `==` is reflexive, symmetric and transitive. -/
theorem equal_equivalence : Equivalence equal := by
  refine ⟨fun a => ?_, fun {a b} h => ?_, fun {a b c} h h' => ?_⟩
  · simp [equal, sameArray]
  · have ht := equal_total h
    obtain ⟨a1, a2, a3, a4, a5, a6, a7, a8, a9, a10, a11, a12, a13, a14, a15, a16, a17, a18, a19⟩ := h
    rw [ht] at a16 a17 a18 a19
    exact ⟨a1.symm, a2.symm, a3.symm, a4.symm, a5.symm, a6.symm, a7.symm, a8.symm, a9.symm, a10.symm, a11.symm, a12.symm,
      a13.symm, a14.symm, a15.symm, fun k hk => (a16 k hk).symm, fun k hk => (a17 k hk).symm, fun k hk => (a18 k hk).symm,
      fun k hk => (a19 k hk).symm⟩
  · have ht := equal_total h
    obtain ⟨a1, a2, a3, a4, a5, a6, a7, a8, a9, a10, a11, a12, a13, a14, a15, a16, a17, a18, a19⟩ := h
    obtain ⟨b1, b2, b3, b4, b5, b6, b7, b8, b9, b10, b11, b12, b13, b14, b15, b16, b17, b18, b19⟩ := h'
    rw [← ht] at b16 b17 b18 b19
    exact ⟨b1.trans a1, a2.trans b2, a3.trans b3, a4.trans b4, a5.trans b5, a6.trans b6, a7.trans b7, a8.trans b8, a9.trans b9,
      a10.trans b10, a11.trans b11, a12.trans b12, a13.trans b13, a14.trans b14, a15.trans b15,
      fun k hk => (a16 k hk).trans (b16 k hk), fun k hk => (a17 k hk).trans (b17 k hk), fun k hk => (a18 k hk).trans (b18 k hk),
      fun k hk => (a19 k hk).trans (b19 k hk)⟩

/-- **C95**: equal objects have the same bins, with the same numbers in them. -/
theorem equal_same {unit : String → ℝ} {a b : EObj} (ha : Proper unit a) (hb : Proper unit b) (h : equal a b) :
    SameBins a.toObj b.toObj ∧ ∀ k : ℕ, (k : ℤ) < total a.toObj →
      a.npairs k = b.npairs k ∧ a.weight k = b.weight k ∧ a.meanr k = b.meanr k ∧ a.xi k = b.xi k := by
  obtain ⟨-, a2, a3, a4, a5, a6, -, a8, -, -, -, -, -, -, -, a16, a17, a18, a19⟩ := h
  have e : a.bins = b.bins := by
    cases hA : a.bins; cases hB : b.bins
    simp only [hA, hB] at a2 a3 a4 a5
    rw [a2, a3, a4, a5]
  have u : a.units = b.units := by rw [ha.1, hb.1, a6]
  exact ⟨⟨a8, a2, fun k _ => by simp only [left, right, a8, e, u, and_self]⟩,
    fun k hk => ⟨a18 k hk, a17 k hk, a16 k hk, a19 k hk⟩⟩

/-- The settings of equal objects are the same. -/
theorem equal_set {unit : String → ℝ} {a b : EObj} (ha : Proper unit a) (hb : Proper unit b) (h : equal a b) : a.set = b.set := by
  obtain ⟨-, -, -, -, -, a6, -, a8, -, -, a11, a12, a13, a14, a15, -⟩ := h
  obtain ⟨-, p1, p2, p3, p4, p5, p6⟩ := ha
  obtain ⟨-, q1, q2, q3, q4, q5, q6⟩ := hb
  rw [a8] at p1
  rw [a6] at p2
  rw [a11, a12] at p3
  rw [a13] at p4
  rw [a14] at p5
  rw [a15] at p6
  cases hA : a.set; cases hB : b.set
  simp only [hA, hB] at p1 p2 p3 p4 p5 p6 q1 q2 q3 q4 q5 q6
  congr 1
  · exact Bool.eq_iff_iff.2 (p1.trans q1.symm)
  · exact Bool.eq_iff_iff.2 (p2.trans q2.symm)
  · exact Bool.eq_iff_iff.2 (p3.trans q3.symm)
  · exact Bool.eq_iff_iff.2 (p4.trans q4.symm)
  · exact Bool.eq_iff_iff.2 (p5.trans q5.symm)
  · exact Bool.eq_iff_iff.2 (p6.trans q6.symm)

theorem iadd_cls {a b c : Obj} (h : iadd a b = .ok c) : c.cls = a.cls := by
  unfold iadd at h
  split at h
  · cases h
  split at h
  · cases h
  split at h
  · cases h
  simp only at h
  split at h
  · cases h; rfl
  · split at h
    · cases h
    · cases h; rfl

theorem iadd_empty {a b c : Obj} (hz : ¬ nonzero b) (h : iadd a b = .ok c) : c.npairs = a.npairs ∧ c.weight = a.weight := by
  unfold iadd at h
  split at h
  · cases h
  split at h
  · cases h
  split at h
  · cases h
  simp only [if_pos hz] at h
  cases h
  exact ⟨rfl, rfl⟩

/-- **C95**: adding the same object to equal objects gives equal objects, or fails for both in the same way. -/
theorem equal_add {unit : String → ℝ} {a b c : EObj} (ha : Proper unit a) (hb : Proper unit b) (h : equal a b) :
    (∀ e, addTo a c = .error e ↔ addTo b c = .error e) ∧
    ∀ a' b', addTo a c = .ok a' → addTo b c = .ok b' → equal a' b' := by
  have hs := equal_set ha hb h
  have ht := equal_total h
  have hm : takeMetric a.toObj c.toObj = takeMetric b.toObj c.toObj := by simp only [takeMetric, hs]
  have h' := h
  obtain ⟨a1, a2, a3, a4, a5, a6, a7, a8, a9, a10, a11, a12, a13, a14, a15, a16, a17, a18, a19⟩ := h'
  have hf : fits a.toObj c.toObj ↔ fits b.toObj c.toObj := by simp only [fits, a8, a2]
  constructor
  · intro e
    simp only [addTo, iadd, a1, ht, a4, a5, hm, hf]
    by_cases h1 : c.cls = a.cls
    · by_cases h2 : total b.toObj = total c.toObj ∧ b.bins.minsep = c.bins.minsep ∧ b.bins.maxsep = c.bins.maxsep
      · rw [if_neg (not_not.2 h1), if_neg (not_not.2 h1), if_neg (not_not.2 h2), if_neg (not_not.2 h2)]
        cases takeMetric b.toObj c.toObj with
        | error e' => simp
        | ok u =>
          by_cases h3 : nonzero c.toObj
          · by_cases h4 : fits b.toObj c.toObj
            · simp [h3, h4, hf.2 h4]
            · simp [h3, h4, mt hf.1 h4]
          · simp [h3]
      · rw [if_neg (not_not.2 h1), if_neg (not_not.2 h1), if_pos h2, if_pos h2]
    · rw [if_pos h1, if_pos h1]
  · intro a' b' e1 e2
    unfold addTo at e1 e2
    cases hA : iadd a.toObj c.toObj with
    | error e => simp only [hA] at e1; cases e1
    | ok o =>
      cases hB : iadd b.toObj c.toObj with
      | error e => simp only [hB] at e2; cases e2
      | ok o' =>
        simp only [hA] at e1
        simp only [hB] at e2
        cases e1
        cases e2
        have kA : o.cls = a.cls := iadd_cls hA
        have kB : o'.cls = b.cls := iadd_cls hB
        obtain ⟨-, -, -, -, u, m1, u1, b1, t1, -, -, d1⟩ := iadd_ok hA
        obtain ⟨-, -, -, -, v, m2, u2, b2, t2, -, -, d2⟩ := iadd_ok hB
        rw [hm, m2] at m1
        cases m1
        have hT : total o = total a.toObj := by simp only [total, t1, b1]
        have key : sameArray (total a.toObj) o.weight o'.weight ∧ sameArray (total a.toObj) o.npairs o'.npairs := by
          by_cases hz : nonzero c.toObj
          · rcases d1 with ⟨x, -⟩ | ⟨x1, x2⟩
            · exact absurd hz x
            · rcases d2 with ⟨y, -⟩ | ⟨y1, y2⟩
              · exact absurd hz y
              · exact ⟨fun k hk => by rw [x2, y2, a17 k hk], fun k hk => by rw [x1, y1, a18 k hk]⟩
          · have z1 : o.npairs = a.npairs ∧ o.weight = a.weight := iadd_empty hz hA
            have z2 : o'.npairs = b.npairs ∧ o'.weight = b.weight := iadd_empty hz hB
            exact ⟨fun k hk => by rw [z1.2, z2.2, a17 k hk], fun k hk => by rw [z1.1, z2.1, a18 k hk]⟩
        refine ⟨?_, ?_, ?_, ?_, ?_, a6, ?_, ?_, a9, a10, a11, a12, a13, a14, a15, ?_, ?_, ?_, ?_⟩
        · show o'.cls = o.cls
          rw [kA, kB, a1]
        · show o.bins.nbins = o'.bins.nbins
          rw [b1, b2, a2]
        · show o.bins.binsize = o'.bins.binsize
          rw [b1, b2, a3]
        · show o.bins.minsep = o'.bins.minsep
          rw [b1, b2, a4]
        · show o.bins.maxsep = o'.bins.maxsep
          rw [b1, b2, a5]
        · show o.used.map Prod.fst = o'.used.map Prod.fst
          rw [u1, u2]
        · show o.bt = o'.bt
          rw [t1, t2, a8]
        · show sameArray (total o) _ _
          rw [hT]
          intro k hk
          by_cases hz : nonzero c.toObj
          · simp only [if_pos hz, a16 k hk]
          · simp only [if_neg hz, a16 k hk]
        · show sameArray (total o) o.weight o'.weight
          rw [hT]; exact key.1
        · show sameArray (total o) o.npairs o'.npairs
          rw [hT]; exact key.2
        · show sameArray (total o) _ _
          rw [hT]
          intro k hk
          by_cases hz : nonzero c.toObj
          · simp only [if_pos hz, a19 k hk]
          · simp only [if_neg hz, a19 k hk]

noncomputable section

/-- Two linear bins from 1 to 4 with 5 pairs in each, the number of all pairs and the metric being as given. -/
def exE (tot : ℝ) (metric : String) : EObj :=
  { ex .linear (3 / 2) 1 with
    tot := tot, used := some ("spherical", metric)
    sepUnits := "", binSlop := 1, angleSlop := 1, minRpar := none, maxRpar := none
    xperiod := 0, yperiod := 0, zperiod := 0, meanr := fun _ => 2, xi := fun _ => 0 }

theorem exE_proper (t : ℝ) (m : String) : Proper (fun _ => 1) (exE t m) := by
  simp [Proper, exE, ex]

theorem exE_equal (t t' : ℝ) (m m' : String) : equal (exE t m) (exE t' m') := by
  simp [equal, exE, ex, sameArray]

/-- Objects that differ in one bin are not equal: the hypothesis of the theorems is not empty of content. -/
example : equal (exE 20 "Arc") (exE 20 "Arc") ∧ ¬ equal (exE 20 "Arc") { exE 20 "Arc" with weight := fun k => if k = 1 then 6 else 5 } := by
  refine ⟨exE_equal _ _ _ _, fun h => ?_⟩
  have := h.2.2.2.2.2.2.2.2.2.2.2.2.2.2.2.2.1 1 (by simp [total, exE, ex])
  norm_num [exE, ex] at this

/-- `tot` is not compared: two NN objects are equal, but with the same randoms one has `xi = 1` and the other `xi = 0`. -/
theorem tot_wrong : ∃ a b r : EObj, Proper (fun _ => 1) a ∧ Proper (fun _ => 1) b ∧ equal a b ∧
    simpleXi a r 0 = some 1 ∧ simpleXi b r 0 = some 0 := by
  refine ⟨exE 20 "Arc", exE 40 "Arc", exE 40 "Arc", exE_proper _ _, exE_proper _ _, exE_equal _ _ _ _, ?_, ?_⟩
  · norm_num [simpleXi, npDiv, exE, ex]
  · norm_num [simpleXi, npDiv, exE, ex]

/-- The metric is not compared: pairs counted with chords and pairs counted with angles are equal. -/
theorem metric_wrong : ∃ a b : EObj, Proper (fun _ => 1) a ∧ Proper (fun _ => 1) b ∧ equal a b ∧
    a.used = some ("spherical", "Euclidean") ∧ b.used = some ("spherical", "Arc") :=
  ⟨exE 20 "Euclidean", exE 20 "Arc", exE_proper _ _, exE_proper _ _, exE_equal _ _ _ _, rfl, rfl⟩

end
end Adding
end TreeCorr
