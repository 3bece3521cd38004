import Verif.Model.BruteMode
import Verif.Proofs.LinearExact
import Verif.Proofs.TwoD

/-! The traversal of trees whose inner cells have infinite size. -/

namespace TreeCorr
open Classical
variable {P : Type}

open Dbl

/-- What is used of a binning: with finite sizes it is the one of the model with real sizes, and a pair of cells of infinite total size is
neither thrown away nor put into a bin. -/
structure BinHelperD.Sound (B : BinHelperD P) : Prop where
  fin_small : ∀ rsq s p, B.tooSmall rsq (fin s) p ↔ B.base.tooSmall rsq s p
  fin_large : ∀ rsq s p, B.tooLarge rsq (fin s) p ↔ B.base.tooLarge rsq s p
  fin_single : ∀ rsq s p1 p2 p, B.singleBin rsq (fin s) p1 p2 p = B.base.singleBin rsq s p1 p2 p
  inf_small : ∀ rsq p, ¬ B.tooSmall rsq inf p
  inf_large : ∀ rsq p, ¬ B.tooLarge rsq inf p
  inf_single : ∀ rsq p1 p2 p, B.singleBin rsq inf p1 p2 p = none

theorem tooSmallD_fin (rsq s : ℝ) (p : Params) :
    tooSmallD rsq (fin s) p ↔ rsq < p.minsep ^ 2 ∧ s < p.minsep ∧ rsq < (p.minsep - s) ^ 2 := by
  simp only [tooSmallD, Dbl.sq, sub, neg, add, mul, Dbl.lt, ← sub_eq_add_neg, ← pow_two]

theorem tooLargeD_fin (rsq s : ℝ) (p : Params) :
    tooLargeD rsq (fin s) p ↔ rsq ≥ p.maxsep ^ 2 ∧ rsq ≥ (p.maxsep + s) ^ 2 := by
  simp only [tooLargeD, Dbl.sq, add, mul, Dbl.le, ← pow_two, ge_iff_le]

theorem tooSmallD_inf (rsq : ℝ) (p : Params) : ¬ tooSmallD rsq inf p := by
  rintro ⟨_, h, _⟩
  exact h

theorem tooLargeD_inf (rsq : ℝ) (p : Params) : ¬ tooLargeD rsq inf p := by
  rintro ⟨_, h⟩
  exact h

theorem logBinD_sound : (logBinD P).Sound where
  fin_small := tooSmallD_fin
  fin_large := tooLargeD_fin
  fin_single := by
    intro rsq s _ _ p
    simp only [logBinD, logBin, logSingleBinD, logSingleBin, mul, Dbl.sq, sub, neg, add, Dbl.div, Dbl.lt, Dbl.le, fin.injEq,
      gt_iff_lt, ← sub_eq_add_neg, ← div_eq_mul_inv, ← pow_two]
  inf_small := tooSmallD_inf
  inf_large := tooLargeD_inf
  inf_single := by
    intro rsq _ _ p
    simp [logBinD, logSingleBinD, mul, Dbl.lt]

theorem linearBinD_sound : (linearBinD P).Sound where
  fin_small := tooSmallD_fin
  fin_large := tooLargeD_fin
  fin_single := by
    intro rsq s _ _ p
    simp only [linearBinD, linearBin, linearSingleBinD, linearSingleBin, mul, Dbl.sq, Dbl.lt, Dbl.le,
      gt_iff_lt, ← pow_two]
    congr!
  inf_small := tooSmallD_inf
  inf_large := tooLargeD_inf
  inf_single := by
    intro rsq _ _ p
    simp [linearBinD, linearSingleBinD, Dbl.sq, mul, Dbl.lt]

theorem twoDBinD_sound : twoDBinD.Sound where
  fin_small := tooSmallD_fin
  fin_large := by
    intro rsq s p
    simp only [twoDBinD, twoDBin, Dbl.sq, add, mul, Dbl.le, ← pow_two, ge_iff_le]
  fin_single := by
    intro rsq s _ _ p
    simp only [twoDBinD, twoDBin, twoDSingleBinD, twoDSingleBin, mul, Dbl.sq, sub, neg, add, Dbl.div, Dbl.lt, Dbl.le,
      gt_iff_lt, ge_iff_le, ← sub_eq_add_neg, ← div_eq_mul_inv, ← pow_two]
  inf_small := tooSmallD_inf
  inf_large := by
    rintro rsq p ⟨_, h⟩
    exact h
  inf_single := by
    intro rsq _ _ p
    simp [twoDBinD, twoDSingleBinD, Dbl.sq, mul, Dbl.lt]

theorem calcSplitSqD_fin (s1 s2 bsq : ℝ) : calcSplitSqD (fin s1) (fin s2) bsq = calcSplitSq s1 s2 bsq := by
  simp only [calcSplitSqD, calcSplitSq, mul, Dbl.lt, gt_iff_lt]
  congr!

theorem calcSplitSqD_inf_inf (bsq : ℝ) : calcSplitSqD inf inf bsq = (true, true) := by
  simp [calcSplitSqD, mul, Dbl.lt, scale]
  exact @decide_eq_true _ (_) trivial

theorem calcSplitSqD_inf_fin (s bsq : ℝ) : calcSplitSqD inf (fin s) bsq = (true, false) := by
  simp [calcSplitSqD, mul, Dbl.lt]

theorem calcSplitSqD_fin_inf (s bsq : ℝ) : calcSplitSqD (fin s) inf bsq = (false, true) := by
  simp [calcSplitSqD, mul, Dbl.lt]

/-- With sizes that are numbers the decision is the one of the model with real sizes. -/
theorem decide11D_fin [PseudoMetricSpace P] {B : BinHelperD P} (hB : B.Sound) (p : Params) (R : Bool) {b1 b2 : Bool}
    {c1 c2 : Cell P} (h1 : c1.sizeD b1 = fin c1.size) (h2 : c2.sizeD b2 = fin c2.size) :
    decide11D B p R b1 b2 c1 c2 = decide11 B.base (plainMetric P) p R c1 c2 := by
  rw [decide11_plain]
  simp only [decide11D, h1, h2, add, hB.fin_small, hB.fin_large, hB.fin_single, calcSplitSqD_fin]
  congr!

/-- An infinite total size: the pair is split. -/
theorem decide11D_inf [PseudoMetricSpace P] {B : BinHelperD P} (hB : B.Sound) (p : Params) (R : Bool) {b1 b2 : Bool}
    {c1 c2 : Cell P} (hw1 : c1.w ≠ 0) (hw2 : c2.w ≠ 0) (h : add (c1.sizeD b1) (c2.sizeD b2) = inf) :
    decide11D B p R b1 b2 c1 c2 =
      .split (calcSplitSqD (c1.sizeD b1) (c2.sizeD b2) (B.base.effBSq (dist c1.pos c2.pos ^ 2) p)).1
        (calcSplitSqD (c1.sizeD b1) (c2.sizeD b2) (B.base.effBSq (dist c1.pos c2.pos ^ 2) p)).2 := by
  simp only [decide11D, h, hB.inf_single, hB.inf_small, hB.inf_large, hw1, hw2, or_self, if_false]

theorem sizeD_leaf (b : Bool) (d : CellData P) (os : List (Obj P)) :
    (Cell.leaf d os).sizeD b = fin (Cell.leaf d os).size := rfl

theorem sizeD_false (c : Cell P) : c.sizeD false = fin c.size := by
  cases c <;> rfl

/-- A cell with no children. -/
def Cell.IsLeaf : Cell P → Prop
  | .leaf _ _ => True
  | .node _ _ _ _ => False

theorem Cell.IsLeaf.size {c : Cell P} (h : c.IsLeaf) : c.size = 0 := by
  cases c with
  | leaf => rfl
  | node => exact h.elim

theorem Cell.IsLeaf.sizeD {c : Cell P} (h : c.IsLeaf) (b : Bool) : c.sizeD b = fin c.size := by
  cases c with
  | leaf => rfl
  | node => exact h.elim

theorem Cell.sizeD_node {c : Cell P} (h : ¬ c.IsLeaf) : c.sizeD true = inf := by
  cases c with
  | leaf => exact (h trivial).elim
  | node => rfl

theorem Cell.children_node {c : Cell P} (h : ¬ c.IsLeaf) : c.children.isSome := by
  cases c with
  | leaf => exact (h trivial).elim
  | node => rfl

/-- A pair of cells goes into a bin only when the cells of the fields with `brute` are leaves. -/
theorem decide11D_direct [PseudoMetricSpace P] {B : BinHelperD P} (hB : B.Sound) {p : Params} {R : Bool} {b1 b2 : Bool}
    {c1 c2 : Cell P} {e : Emit P} (h : decide11D B p R b1 b2 c1 c2 = .direct e) :
    (b1 = true → c1.IsLeaf) ∧ (b2 = true → c2.IsLeaf) ∧ decide11 B.base (plainMetric P) p R c1 c2 = .direct e := by
  by_cases hw : c1.w = 0 ∨ c2.w = 0
  · rw [decide11D, if_pos hw] at h
    cases h
  rw [not_or] at hw
  have fin2 : ∀ (b : Bool) (c : Cell P), c.sizeD b = inf ∨ c.sizeD b = fin c.size := by
    intro b c
    cases c with
    | leaf => exact Or.inr rfl
    | node d s l r => cases b <;> simp [Cell.sizeD, Cell.size]
  have ne1 : c1.sizeD b1 = fin c1.size := by
    rcases fin2 b1 c1 with h1 | h1
    · rcases fin2 b2 c2 with h2 | h2 <;> rw [decide11D_inf hB p R hw.1 hw.2 (by rw [h1, h2]; rfl)] at h <;> cases h
    · exact h1
  have ne2 : c2.sizeD b2 = fin c2.size := by
    rcases fin2 b2 c2 with h2 | h2
    · rw [decide11D_inf hB p R hw.1 hw.2 (by rw [ne1, h2]; rfl)] at h
      cases h
    · exact h2
  refine ⟨?_, ?_, by rw [← decide11D_fin hB p R ne1 ne2]; exact h⟩
  · rintro rfl
    by_contra hn
    rw [Cell.sizeD_node hn] at ne1
    cases ne1
  · rintro rfl
    by_contra hn
    rw [Cell.sizeD_node hn] at ne2
    cases ne2

/-- `brute` for both fields: the decision for cells that are not both leaves. -/
theorem decide11D_node [PseudoMetricSpace P] {B : BinHelperD P} (hB : B.Sound) (p : Params) (R : Bool)
    {c1 c2 : Cell P} (hw1 : c1.w ≠ 0) (hw2 : c2.w ≠ 0) (h : ¬ (c1.IsLeaf ∧ c2.IsLeaf)) :
    decide11D B p R true true c1 c2 = .split (decide ¬ c1.IsLeaf) (decide ¬ c2.IsLeaf) := by
  by_cases l1 : c1.IsLeaf
  · have l2 : ¬ c2.IsLeaf := fun l2 => h ⟨l1, l2⟩
    rw [decide11D_inf hB p R hw1 hw2 (by rw [l1.sizeD, Cell.sizeD_node l2]; rfl), l1.sizeD, Cell.sizeD_node l2,
      calcSplitSqD_fin_inf]
    simp [l1, l2]
  · by_cases l2 : c2.IsLeaf
    · rw [decide11D_inf hB p R hw1 hw2 (by rw [l2.sizeD, Cell.sizeD_node l1]; rfl), l2.sizeD, Cell.sizeD_node l1,
        calcSplitSqD_inf_fin]
      simp [l1, l2]
    · rw [decide11D_inf hB p R hw1 hw2 (by rw [Cell.sizeD_node l1, Cell.sizeD_node l2]; rfl), Cell.sizeD_node l1,
        Cell.sizeD_node l2, calcSplitSqD_inf_inf]
      simp [l1, l2]

/-- A binning is exact on leaves: the pair of rows is in the bin into which the pair of leaves is put. -/
structure LeafExact [PseudoMetricSpace P] (B : BinHelperD P) (p : Params) (R : Bool)
    (inBin : ℤ → Obj P × Obj P → Prop) : Prop where
  sound : B.Sound
  dir : ∀ a b e, a.IsLeaf → b.IsLeaf → a.Bounded 0 → b.Bounded 0 →
    decide11 B.base (plainMetric P) p R a b = .direct e →
    ∀ q : Obj P × Obj P, q.1 ∈ a.objs → q.2 ∈ b.objs → ∀ k, (inBin k q ↔ e.k = k)
  drop : ∀ a b, a.IsLeaf → b.IsLeaf → a.Bounded 0 → b.Bounded 0 → a.w ≠ 0 → b.w ≠ 0 →
    decide11 B.base (plainMetric P) p R a b = .drop →
    ∀ q : Obj P × Obj P, q.1 ∈ a.objs → q.2 ∈ b.objs → ∀ k, ¬ inBin k q
  stop : ∀ a b, a.IsLeaf → b.IsLeaf → ∀ s1 s2, decide11 B.base (plainMetric P) p R a b ≠ .split s1 s2

theorem decide11D_honest [PseudoMetricSpace P] {B : BinHelperD P} (hB : B.Sound) (p : Params) (R b1 b2 : Bool) :
    Honest (decide11D B p R b1 b2) := by
  intro a b e h
  exact decide11_honest _ _ _ _ a b e (decide11D_direct hB h).2.2

theorem brute_exactDecide [PseudoMetricSpace P] {B : BinHelperD P} {p : Params} {R : Bool}
    {inBin : ℤ → Obj P × Obj P → Prop} (h : LeafExact B p R inBin) (l1 l2 : List (Obj P)) :
    ExactDecide (decide11D B p R true true) (CellOf l1) (CellOf l2) inBin ZeroPair where
  honest := decide11D_honest h.sound p R true true
  safe := by
    intro a b s1 s2 _ _ hs
    by_cases hw : a.w = 0 ∨ b.w = 0
    · rw [decide11D, if_pos hw] at hs
      cases hs
    rw [not_or] at hw
    by_cases hl : a.IsLeaf ∧ b.IsLeaf
    · rw [decide11D_fin h.sound p R (hl.1.sizeD _) (hl.2.sizeD _)] at hs
      exact (h.stop a b hl.1 hl.2 s1 s2 hs).elim
    · rw [decide11D_node h.sound p R hw.1 hw.2 hl] at hs
      injection hs with e1 e2
      refine ⟨?_, ?_, ?_⟩
      · rintro rfl
        exact Cell.children_node (of_decide_eq_true e1)
      · rintro rfl
        exact Cell.children_node (of_decide_eq_true e2)
      · rw [← e1, ← e2]
        simp only [decide_eq_true_eq]
        tauto
  dir := by
    intro a b e ha hb he q h1 h2 k
    obtain ⟨l1, l2, he⟩ := decide11D_direct h.sound he
    exact h.dir a b e (l1 rfl) (l2 rfl) ha.1.1.1 hb.1.1.1 he q h1 h2 k
  drop := by
    intro a b ha hb hd q h1 h2 k hin
    by_cases hwa : a.w = 0
    · exact Or.inl (ha.1.zero hwa h1)
    by_cases hwb : b.w = 0
    · exact Or.inr (hb.1.zero hwb h2)
    exfalso
    by_cases hl : a.IsLeaf ∧ b.IsLeaf
    · rw [decide11D_fin h.sound p R (hl.1.sizeD _) (hl.2.sizeD _)] at hd
      exact h.drop a b hl.1 hl.2 ha.1.1.1 hb.1.1.1 hwa hwb hd q h1 h2 k hin
    · rw [decide11D_node h.sound p R hwa hwb hl] at hd
      cases hd

/-! ### The whole run -/

theorem decide11D_k2_none [PseudoMetricSpace P] {B : BinHelperD P} (hB : B.Sound) {p : Params} {b1 b2 : Bool}
    {c1 c2 : Cell P} {e : Emit P} (h : decide11D B p false b1 b2 c1 c2 = .direct e) : e.k2 = none :=
  decide11_k2_none _ _ _ (decide11D_direct hB h).2.2

theorem crossD_exact_dec [PseudoMetricSpace P] (A1 A2 : StdAlg P) (g : Geom P) (hg : g.Dominates)
    (fp1 fp2 : FieldParams) {B : BinHelperD P} {p : Params} {inBin : ℤ → Obj P × Obj P → Prop} (l1 l2 : List (Obj P))
    (hB : B.Sound) {b1 b2 : Bool} (hf1 : b1 = true ∨ fp1.minsize = 0) (hf2 : b2 = true ∨ fp2.minsize = 0)
    (hx : ExactDecide (decide11D B p false b1 b2) (CellOf l1) (CellOf l2) inBin ZeroPair)
    (far : ∀ f1 f2 : Field P, fieldsTooFar B.base (plainMetric P) p f1 f2 → ∀ q : Obj P × Obj P,
      dist q.1.pos f1.center ≤ f1.size → dist q.2.pos f2.center ≤ f2.size → ∀ k, ¬ inBin k q)
    (hw1 : ∀ o ∈ l1, o.Valid) (hw2 : ∀ o ∈ l2, o.Valid) :
    ∃ es, processCrossD B p b1 b2 (buildFieldD A1 g fp1 b1 l1) (buildFieldD A2 g fp2 b2 l2) = some es ∧
      ∀ k, let prs := (crossPairs l1 l2).filter (inBin k)
        (accumulate Acc.zero es).weight k = bruteW prs ∧
        (accumulate Acc.zero es).nk k = bruteNK prs ∧
        (accumulate Acc.zero es).kk k = bruteKK prs ∧
        ((∀ o ∈ l1, 0 < o.w) → (∀ o ∈ l2, 0 < o.w) →
          (accumulate Acc.zero es).npairs k = bruteN prs) := by
  simp only [buildFieldD]
  have m1 : (if b1 = true then (0 : ℝ) else fp1.minsize) = 0 := by rcases hf1 with h | h <;> simp [h]
  have m2 : (if b2 = true then (0 : ℝ) else fp2.minsize) = 0 := by rcases hf2 with h | h <;> simp [h]
  rw [m1, m2]
  set f1 : FieldParams := { fp1 with minsize := 0 }
  set f2 : FieldParams := { fp2 with minsize := 0 }
  have g1 := buildField_cellOf A1 g hg f1 rfl l1 hw1
  have g2 := buildField_cellOf A2 g hg f2 rfl l2 hw2
  by_cases hfar : fieldsTooFar B.base (plainMetric P) p (buildField A1 g f1 l1) (buildField A2 g f2 l2)
  · refine ⟨[], by rw [processCrossD, if_pos hfar], ?_⟩
    intro k
    have : (crossPairs l1 l2).filter (inBin k) = 0 := by
      rw [Multiset.filter_eq_nil]
      intro q hq
      rw [mem_crossPairs] at hq
      exact far _ _ hfar _ (buildField_center A1 g hg f1 l1 _ hq.1) (buildField_center A2 g hg f2 l2 _ hq.2) k
    rw [this]
    simp [accumulate, Acc.zero, bruteN, bruteW, bruteNK, bruteKK]
  · obtain ⟨es, hes, hc, hk⟩ := crossLoop_exact hx (hered_cellOf l1) (hered_cellOf l2) g1 g2
    refine ⟨es, by rw [processCrossD, if_neg hfar]; exact hes, ?_⟩
    intro k
    obtain ⟨D, hD, hz⟩ := hk k
    have hk2 : ∀ e ∈ es, e.k2 = none := by
      obtain ⟨_, _, he, _⟩ := hc
      intro e hmem
      obtain ⟨a, b, _, _, hab⟩ := he e hmem
      exact decide11D_k2_none hB hab
    obtain ⟨s1, s2, s3, s4⟩ := sums_of_exact hk2
      (hc.sumsOK (decide11D_honest hB _ _ _ _) (fun _ h => h.1.1.2) (fun _ h => h.1.1.2)) hD hz
    rw [crossPairs_perm (buildField_objs A1 g f1 l1) (buildField_objs A2 g f2 l2)] at s1 s2 s3 s4
    refine ⟨s1, s2, s3, fun p1 p2 => s4 ?_⟩
    intro q hq
    rw [Multiset.mem_filter, mem_crossPairs] at hq
    exact not_zeroPair (p1 _ hq.1.1) (p2 _ hq.1.2)

theorem crossD_exact_of [PseudoMetricSpace P] (A1 A2 : StdAlg P) (g : Geom P) (hg : g.Dominates)
    (fp1 fp2 : FieldParams) {B : BinHelperD P} {p : Params} {inBin : ℤ → Obj P × Obj P → Prop} (l1 l2 : List (Obj P))
    (hx : LeafExact B p false inBin)
    (far : ∀ f1 f2 : Field P, fieldsTooFar B.base (plainMetric P) p f1 f2 → ∀ q : Obj P × Obj P,
      dist q.1.pos f1.center ≤ f1.size → dist q.2.pos f2.center ≤ f2.size → ∀ k, ¬ inBin k q)
    (hw1 : ∀ o ∈ l1, o.Valid) (hw2 : ∀ o ∈ l2, o.Valid) :
    ∃ es, processCrossD B p true true (buildFieldD A1 g fp1 true l1) (buildFieldD A2 g fp2 true l2) = some es ∧
      ∀ k, let prs := (crossPairs l1 l2).filter (inBin k)
        (accumulate Acc.zero es).weight k = bruteW prs ∧
        (accumulate Acc.zero es).nk k = bruteNK prs ∧
        (accumulate Acc.zero es).kk k = bruteKK prs ∧
        ((∀ o ∈ l1, 0 < o.w) → (∀ o ∈ l2, 0 < o.w) →
          (accumulate Acc.zero es).npairs k = bruteN prs) :=
  crossD_exact_dec A1 A2 g hg fp1 fp2 l1 l2 hx.sound (Or.inl rfl) (Or.inl rfl) (brute_exactDecide hx l1 l2) far hw1 hw2

/-- Whatever the flags, the extra splits keep a decision exact that is exact without `brute`. -/
theorem mixed_exactDecide [PseudoMetricSpace P] {B : BinHelperD P} (hB : B.Sound) {p : Params} {R : Bool}
    {inBin : ℤ → Obj P × Obj P → Prop} {Q1 Q2 : Cell P → Prop} {Z : Obj P × Obj P → Prop}
    (h : ExactDecide (decide11 B.base (plainMetric P) p R) Q1 Q2 inBin Z) (b1 b2 : Bool) :
    ExactDecide (decide11D B p R b1 b2) Q1 Q2 inBin Z := by
  have fin2 : ∀ (b : Bool) (c : Cell P), (c.sizeD b = inf ∧ ¬ c.IsLeaf) ∨ c.sizeD b = fin c.size := by
    intro b c
    cases c with
    | leaf => exact Or.inr rfl
    | node d s l r => cases b <;> simp [Cell.sizeD, Cell.size, Cell.IsLeaf]
  have drop0 : ∀ a b, decide11D B p R b1 b2 a b = .drop → decide11 B.base (plainMetric P) p R a b = .drop := by
    intro a b hd
    by_cases hw : a.w = 0 ∨ b.w = 0
    · rw [decide11_plain, if_pos hw]
    rw [not_or] at hw
    rcases fin2 b1 a with ⟨h1, _⟩ | h1
    · rcases fin2 b2 b with ⟨h2, _⟩ | h2 <;> rw [decide11D_inf hB p R hw.1 hw.2 (by rw [h1, h2]; rfl)] at hd <;> cases hd
    · rcases fin2 b2 b with ⟨h2, _⟩ | h2
      · rw [decide11D_inf hB p R hw.1 hw.2 (by rw [h1, h2]; rfl)] at hd
        cases hd
      · rwa [decide11D_fin hB p R h1 h2] at hd
  exact {
    honest := decide11D_honest hB p R b1 b2
    safe := by
      intro a b s1 s2 qa qb hs
      by_cases hw : a.w = 0 ∨ b.w = 0
      · rw [decide11D, if_pos hw] at hs
        cases hs
      rw [not_or] at hw
      rcases fin2 b1 a with ⟨h1, n1⟩ | h1
      · rcases fin2 b2 b with ⟨h2, n2⟩ | h2
        · rw [decide11D_inf hB p R hw.1 hw.2 (by rw [h1, h2]; rfl), h1, h2, calcSplitSqD_inf_inf] at hs
          injection hs with e1 e2
          exact ⟨fun _ => Cell.children_node n1, fun _ => Cell.children_node n2, Or.inl e1.symm⟩
        · rw [decide11D_inf hB p R hw.1 hw.2 (by rw [h1, h2]; rfl), h1, h2, calcSplitSqD_inf_fin] at hs
          injection hs with e1 e2
          exact ⟨fun _ => Cell.children_node n1, fun h => absurd (e2.trans h) Bool.false_ne_true, Or.inl e1.symm⟩
      · rcases fin2 b2 b with ⟨h2, n2⟩ | h2
        · rw [decide11D_inf hB p R hw.1 hw.2 (by rw [h1, h2]; rfl), h1, h2, calcSplitSqD_fin_inf] at hs
          injection hs with e1 e2
          exact ⟨fun h => absurd (e1.trans h) Bool.false_ne_true, fun _ => Cell.children_node n2, Or.inr e2.symm⟩
        · rw [decide11D_fin hB p R h1 h2] at hs
          exact h.safe a b s1 s2 qa qb hs
    dir := fun a b e qa qb hd => h.dir a b e qa qb (decide11D_direct hB hd).2.2
    drop := fun a b qa qb hd => h.drop a b qa qb (drop0 a b hd) }

/-- In a tree with infinite sizes `process2` never stops above a leaf: as with `min_sep = 0` and the true sizes. -/
theorem process2D_eq [PseudoMetricSpace P] (act : Cell P → Cell P → Action P) {p : Params} (hm : 0 ≤ p.minsep)
    (c : Cell P) (hc : c.Bounded 0) : process2D act p true c = process2 act { p with minsep := 0 } c := by
  induction c with
  | leaf d os =>
    have h : (0:ℝ) ≤ 0.5 * p.minsep := mul_nonneg (by norm_num) hm
    simp [process2D, process2, Cell.sizeD, Dbl.le, h]
  | node d s l r ihl ihr =>
    have hs : ¬ s ≤ 0 := not_le.2 hc.1
    simp only [process2D, process2, Cell.sizeD, if_true, Dbl.le, if_false, mul_zero, hs, ihl hc.2.2.1, ihr hc.2.2.2]

theorem processAutoD_eq [PseudoMetricSpace P] (act : Cell P → Cell P → Action P) {p : Params} (hm : 0 ≤ p.minsep)
    (cs : List (Cell P)) (hc : ∀ c ∈ cs, c.Bounded 0) :
    processAutoD act p true cs = processAuto act { p with minsep := 0 } cs := by
  induction cs with
  | nil => rfl
  | cons c cs ih =>
    rw [processAutoD, processAuto, ih (fun c' h => hc c' (List.mem_cons_of_mem _ h)),
      process2D_eq act hm c (hc c (List.mem_cons_self ..))]
    simp only [processAutoRow]
    cases process2 act { p with minsep := 0 } c <;> simp
    cases cs.mapM (fun c2 => process11 act c c2) <;> simp

theorem autoD_covers [PseudoMetricSpace P] (A : StdAlg P) (g : Geom P) (hg : g.Dominates)
    (fp : FieldParams) {B : BinHelperD P} {p : Params} {R : Bool} {inBin : ℤ → Obj P × Obj P → Prop} (hm : 0 ≤ p.minsep)
    (l : List (Obj P)) (hx : LeafExact B p R inBin) (hw : ∀ o ∈ l, o.Valid) :
    ∃ es, processAutoD (decide11D B p R true true) p true (buildFieldD A g fp true l).cells = some es ∧
      CoversAuto (decide11D B p R true true) { p with minsep := 0 } (CellOf l)
        (autoPairs (objsOf (buildFieldD A g fp true l).cells)) es := by
  simp only [buildFieldD, if_true]
  have g1 := buildField_cellOf A g hg { fp with minsize := 0 } rfl l hw
  rw [processAutoD_eq _ hm _ (fun c h => (g1 c h).1.1.1)]
  have hd := brute_exactDecide hx l l
  obtain ⟨es, hes⟩ := processAuto_total (decide11D B p R true true) { p with minsep := 0 } le_rfl (CellOf l) (hered_cellOf l)
    hd.safe _ g1
  exact ⟨es, hes, processAuto_covers _ hd.honest _ _ (hered_cellOf l) _ g1 es hes⟩

theorem autoPairs_symm_of {α : Type} {a b : List α} (h : a.Perm b) {S : α × α → Prop} (hS : ∀ x y, S (x, y) ↔ S (y, x))
    (hb : ∀ q ∈ autoPairs b, S q) : ∀ q ∈ autoPairs a, S q := by
  intro q hq
  by_contra hn
  have h1 := autoPairs_perm_sum h (fun q => if S q then (0 : ℝ) else 1) (fun x y => by simp only [hS x y])
  have h2 : ((autoPairs b).map (fun q => if S q then (0 : ℝ) else 1)).sum = 0 := by
    apply Multiset.sum_eq_zero
    intro x hx
    obtain ⟨q', hq', rfl⟩ := Multiset.mem_map.1 hx
    simp [hb q' hq']
  rw [h2] at h1
  obtain ⟨t, ht⟩ := Multiset.exists_cons_of_mem hq
  rw [ht, Multiset.map_cons, Multiset.sum_cons, if_neg hn] at h1
  have h3 : 0 ≤ (t.map (fun q => if S q then (0 : ℝ) else 1)).sum := by
    apply Multiset.sum_nonneg
    intro x hx
    obtain ⟨q', hq', rfl⟩ := Multiset.mem_map.1 hx
    split <;> norm_num
  linarith

theorem autoD_exact_of [PseudoMetricSpace P] (A : StdAlg P) (g : Geom P) (hg : g.Dominates)
    (fp : FieldParams) {B : BinHelperD P} {p : Params} {inBin : ℤ → ℝ → Prop} (hm : 0 ≤ p.minsep)
    (l : List (Obj P)) (hx : LeafExact B p false (fun k q => inBin k (dist q.1.pos q.2.pos)))
    (hzero : ∀ q ∈ autoPairs l, dist q.1.pos q.2.pos = 0 → ∀ k, ¬ inBin k 0) (hw : ∀ o ∈ l, o.Valid) :
    ∃ es, processAutoD (decide11D B p false true true) p true (buildFieldD A g fp true l).cells = some es ∧
      ∀ k, let prs := pairsIn (autoPairs l) (inBin k)
        (accumulate Acc.zero es).weight k = bruteW prs ∧
        (accumulate Acc.zero es).kk k = bruteKK prs ∧
        ((∀ o ∈ l, 0 < o.w) → (accumulate Acc.zero es).npairs k = bruteN prs) := by
  obtain ⟨es, hes, hc⟩ := autoD_covers A g hg fp hm l hx hw
  refine ⟨es, hes, ?_⟩
  have hperm : (objsOf (buildFieldD A g fp true l).cells).Perm l := buildField_objs A g _ l
  have hzero' := autoPairs_symm_of hperm (S := fun q => dist q.1.pos q.2.pos = 0 → ∀ k, ¬ inBin k 0)
    (fun x y => by rw [dist_comm]) hzero
  intro k
  obtain ⟨D, hD, hz⟩ := hc.exact (brute_exactDecide hx l l) (by
    intro c hc hcase q hq h1 h2 k hin
    rcases hcase with h | h
    · exact Or.inl (hc.1.zero h h1)
    · exfalso
      have hs : c.size ≤ 0 := by simpa using h
      have d1 := hc.1.1.1.dist_le le_rfl h1
      have d2 := hc.1.1.1.dist_le le_rfl h2
      have d3 := dist_triangle_right q.1.pos q.2.pos c.pos
      have d0 : dist q.1.pos q.2.pos = 0 := le_antisymm (by linarith) dist_nonneg
      exact hzero' q hq d0 k (by rw [← d0]; exact hin)) k
  have hk2 : ∀ e ∈ es, e.k2 = none := by
    obtain ⟨_, _, _, he, _⟩ := hc
    intro e hmem
    obtain ⟨a, b, _, _, hab⟩ := he e hmem
    exact decide11D_k2_none hx.sound hab
  obtain ⟨s1, s2, s3, s4⟩ := sums_of_exact hk2
      (hc.sumsOK (decide11D_honest hx.sound _ _ _ _) (fun _ h => h.1.1.2)) hD hz
  have sym : ∀ x y : Obj P, inBin k (dist x.pos y.pos) ↔ inBin k (dist y.pos x.pos) := by
    intro x y; rw [dist_comm]
  refine ⟨?_, ?_, ?_⟩
  · rw [s1]
    exact autoPairs_filter_perm_sum hperm _ sym _ (fun _ _ => mul_comm _ _)
  · rw [s3]
    exact autoPairs_filter_perm_sum hperm _ sym _ (fun _ _ => mul_comm _ _)
  · intro hpos
    rw [s4]
    · simp only [bruteN, pairsIn, card_eq_sum_one]
      exact autoPairs_filter_perm_sum hperm _ sym _ (fun _ _ => rfl)
    · intro q hq
      rw [Multiset.mem_filter] at hq
      have := mem_autoPairs _ _ hq.1
      exact not_zeroPair (hpos _ (hperm.mem_iff.1 this.1)) (hpos _ (hperm.mem_iff.1 this.2))

/-! ### Leaves -/

/-- The slop parameters do not matter for two leaves. -/
theorem decide11_leaf [PseudoMetricSpace P] (B : BinHelper P) {p p' : Params} (R : Bool) {a b : Cell P}
    (ha : a.IsLeaf) (hb : b.IsLeaf)
    (h1 : B.singleBin (dist a.pos b.pos ^ 2) 0 a.pos b.pos p = some {})
    (h2 : B.singleBin (dist a.pos b.pos ^ 2) 0 a.pos b.pos p' = some {})
    (e1 : B.tooSmall (dist a.pos b.pos ^ 2) 0 p = B.tooSmall (dist a.pos b.pos ^ 2) 0 p')
    (e2 : B.tooLarge (dist a.pos b.pos ^ 2) 0 p = B.tooLarge (dist a.pos b.pos ^ 2) 0 p')
    (e3 : B.inRange (dist a.pos b.pos ^ 2) a.pos b.pos p = B.inRange (dist a.pos b.pos ^ 2) a.pos b.pos p')
    (e4 : directProcess11 B p R a b (dist a.pos b.pos ^ 2) {} = directProcess11 B p' R a b (dist a.pos b.pos ^ 2) {}) :
    decide11 B (plainMetric P) p R a b = decide11 B (plainMetric P) p' R a b := by
  rw [decide11_plain, decide11_plain, ha.size, hb.size, add_zero, h1, h2]
  simp only [e1, e2, e3, e4]

end TreeCorr
