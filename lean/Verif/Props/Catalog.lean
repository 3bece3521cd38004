import Mathlib.Tactic.NormNum
import Mathlib.Algebra.BigOperators.Group.List.Lemmas
import Verif.Proofs.Catalog

/-!
C32: bad rows are removed and nothing else.
-/

namespace TreeCorr
namespace Catalog

open Classical

variable {R : Type} [Field R] [DecidableEq R] {n : ℕ}

theorem int_ne_zero_iff (a : ℤ) : a ≠ 0 ↔ ∃ k, Int.testBit a k = true := by
  constructor
  · intro h
    cases a with
    | ofNat m =>
      have hm : m ≠ 0 := by rintro rfl; exact h rfl
      obtain ⟨k, hk⟩ := Nat.exists_testBit_of_ne_zero hm
      exact ⟨k, hk⟩
    | negSucc m => exact ⟨m, by simp [Int.testBit, Nat.testBit_lt_two_pow Nat.lt_two_pow_self]⟩
  · rintro ⟨k, hk⟩ rfl
    simp [Int.testBit] at hk

/-- C32: with `ignore_flag`, a row is flagged if its flag has a bit in common with it. -/
theorem flagged_ignore (s : Settings R) (m : ℤ) (h : s.ignoreFlag = some m) (f : ℤ) :
    s.flagged f = true ↔ ∃ k, Int.testBit f k = true ∧ Int.testBit m k = true := by
  unfold Settings.flagged
  rw [h]
  simp only [ne_eq, decide_eq_true_eq]
  rw [← ne_eq, int_ne_zero_iff]
  simp [Int.testBit_land]

/-- C32: without `ignore_flag`, a row is flagged if its flag has a bit not in `ok_flag`. -/
theorem flagged_ok (s : Settings R) (h : s.ignoreFlag = none) (f : ℤ) :
    s.flagged f = true ↔ ∃ k, Int.testBit f k = true ∧ Int.testBit s.okFlag k = false := by
  unfold Settings.flagged
  rw [h]
  simp only [ne_eq, decide_eq_true_eq]
  rw [← ne_eq, int_ne_zero_iff]
  simp [Int.testBit_land, Int.testBit_lnot]

theorem npSum_some (l : List ℕ) (W : ℕ → Option R) (h : ∀ i ∈ l, W i ≠ none) :
    npSum (l.map W) = some (l.map fun i => (W i).getD 0).sum := by
  induction l with
  | nil => rfl
  | cons a l ih =>
    have ih := ih fun i hi => h i (by simp [hi])
    obtain ⟨v, hv⟩ := Option.ne_none_iff_exists'.1 (h a (by simp))
    unfold npSum at ih ⊢
    rw [List.map_cons, List.foldr_cons, ih, hv]
    simp [hv]

theorem sum_filter_zero (l : List ℕ) (p : ℕ → Prop) [DecidablePred p] (F G : ℕ → R) (h1 : ∀ i, p i → F i = G i) (h0 : ∀ i, ¬ p i → F i = 0) :
    (l.map F).sum = ((l.filter p).map G).sum := by
  induction l with
  | nil => rfl
  | cons a l ih =>
    by_cases h : p a
    · simp [List.filter_cons, h, h1 a h, ih]
    · simp [List.filter_cons, h, h0 a h, ih]

theorem W_of_no_wpos (s : Settings R) (S : Src R) (hp : S.wpos = none) (i : ℕ) :
    S.W s i = if S.Good s i then S.weight i else some 0 := by
  unfold Src.W Src.Good Src.P
  rw [hp]
  simp only [Option.map_none, reduceCtorEq, false_and, exists_false, or_false]
  by_cases h1 : S.NaN i
  · simp [h1]
  by_cases h2 : S.Flagged s i
  · simp [h2]
  by_cases h3 : S.weight i = some 0
  · simp [h1, h2, h3]
  · simp [h1, h2, h3]

theorem weight_ne_none {S : Src R} {i : ℕ} (h : ¬ S.NaN i) : S.weight i ≠ none := by
  unfold Src.weight
  cases hw : S.w with
  | none => simp
  | some f => exact fun h' => h (Or.inr (Or.inl ⟨f, hw, h'⟩))

theorem sum_good (s : Settings R) (S : Src R) (hp : S.wpos = none) :
    npSum (arr n (S.W s)) = some (((List.range n).filter fun i => S.Good s i).map fun i => (S.weight i).getD 0).sum := by
  unfold arr
  rw [npSum_some]
  · congr 1
    apply sum_filter_zero
    · intro i hi
      rw [W_of_no_wpos s S hp, if_pos hi]
    · intro i hi
      rw [W_of_no_wpos s S hp, if_neg hi]
      rfl
  · intro i _
    rw [W_of_no_wpos s S hp]
    split_ifs with h
    · exact weight_ne_none h.1
    · simp

/-- C32, without `wpos`: the catalogue holds exactly the good rows (no NaN, not flagged, weight not zero), in order, with all
columns as given; if the weights of these rows sum to zero it is a ValueError.  Missing: `wpos`, see `nan_rows_with_wpos_wrong`;
one patch selected from arrays with flags, see `single_patch_flag_wrong`; flips of missing columns, see `flip_missing_wrong`. -/
theorem bad_rows_removed_partial [CharZero R] (s : Settings R) (S : Src R) (h : S.Ok s) (hn : 0 < n) (hp : S.wpos = none)
    (hk : s.keepZero = false) :
    let good := (List.range n).filter fun i => S.Good s i
    let total := (good.map fun i => (S.weight i).getD 0).sum
    (total = 0 → finishInput s (S.tab n) = .error .valueError) ∧
    (total ≠ 0 → ∃ C, finishInput s (S.tab n) = .ok C ∧
      (∀ c, C.tab.col c = (S.out s c).map fun f => good.map f) ∧
      C.tab.w = some (good.map S.weight) ∧ C.tab.wpos = none ∧
      C.tab.patch = (S.patch.map fun f => good.map f) ∧ C.sumw = some total) := by
  intro good total
  rw [finish_tab s S h hn, sum_good s S hp]
  constructor
  · intro h0
    rw [if_pos]
    exact congrArg some h0
  · intro h0
    rw [if_neg fun h => h0 (Option.some.inj h)]
    have hP : S.P s = none := by unfold Src.P; rw [hp]; rfl
    have hgood : S.keptRows s n = good := by
      unfold Src.keptRows
      rw [if_neg (by simp [hk])]
      apply List.filter_congr
      intro i _
      rw [hP]
      simp only [Option.elim]
      rw [W_of_no_wpos s S hp]
      by_cases hg : S.Good s i
      · rw [if_pos hg]
        simp [hg, hg.2.2]
      · rw [if_neg hg]
        simp [hg]
    have hmem : ∀ i ∈ good, i < n ∧ S.Good s i := by
      intro i hi
      have := List.mem_filter.1 hi
      exact ⟨List.mem_range.1 this.1, by simpa using this.2⟩
    refine ⟨_, rfl, ?_, ?_, ?_, ?_, rfl⟩
    · intro c
      simp only [Src.pick, hgood]
      obtain ⟨h1, h2⟩ := fin_col (n := n) s S c
      cases hf : (S.fin s n).col c with
      | none =>
        rw [hf] at h1
        cases hg : S.out s c with
        | none => rfl
        | some g => rw [hg] at h1; simp at h1
      | some f =>
        rw [hf] at h1
        cases hg : S.out s c with
        | none => rw [hg] at h1; simp at h1
        | some g =>
          simp only [Option.map_some, Option.some.injEq]
          exact List.map_congr_left fun i hi => h2 f g hf hg i (hmem i hi).2.1
    · simp only [Src.pick, hgood, Option.some.injEq]
      apply List.map_congr_left
      intro i hi
      rw [fin_weight s S (hmem i hi).1, W_of_no_wpos s S hp, if_pos (hmem i hi).2]
    · simp only [Src.pick]
      rw [(fin_rest s S).1, hP]
      rfl
    · simp only [Src.pick, hgood]
      rw [(fin_rest s S).2.1]

/-- C32 with `keep_zero_weight`, without `wpos`: all rows are kept in order; bad rows have weight zero; good rows have their weight;
rows without NaN have all columns as given. -/
theorem keep_zero_weight_rows [CharZero R] (s : Settings R) (S : Src R) (h : S.Ok s) (hn : 0 < n) (hp : S.wpos = none)
    (hk : s.keepZero = true)
    (h0 : (((List.range n).filter fun i => S.Good s i).map fun i => (S.weight i).getD 0).sum ≠ 0) :
    ∃ C, finishInput s (S.tab n) = .ok C ∧
      C.tab.w = some ((List.range n).map fun i => if S.Good s i then S.weight i else some 0) ∧
      (∀ c, (C.tab.col c).isSome = (S.out s c).isSome) ∧
      (∀ c f g, C.tab.col c = some f → S.out s c = some g → f.length = n ∧ ∀ i < n, ¬ S.NaN i → f[i]? = some (g i)) ∧
      C.tab.patch = S.patch.map fun f => (List.range n).map f := by
  rw [finish_tab s S h hn, sum_good s S hp, if_neg fun h => h0 (Option.some.inj h)]
  have hall : S.keptRows s n = List.range n := by
    unfold Src.keptRows
    rw [if_pos hk]
  refine ⟨_, rfl, ?_, ?_, ?_, ?_⟩
  · simp only [Src.pick, hall, Option.some.injEq]
    apply List.map_congr_left
    intro i hi
    rw [fin_weight s S (List.mem_range.1 hi), W_of_no_wpos s S hp]
  · intro c
    simp only [Src.pick]
    rw [← (fin_col (n := n) s S c).1]
    cases (S.fin s n).col c <;> rfl
  · intro c f g hf hg
    simp only [Src.pick, hall] at hf
    obtain ⟨f0, hf0, rfl⟩ := Option.map_eq_some_iff.1 hf
    refine ⟨by simp, ?_⟩
    intro i hi hN
    have := arr_get (n := n) f0 i
    rw [if_pos hi] at this
    rw [← (fin_col (n := n) s S c).2 f0 g hf0 hg i hN]
    exact this
  · simp only [Src.pick, hall]
    rw [(fin_rest s S).2.1]

/-- Every table whose arrays have one length is one of the tables above. -/
theorem tab_of_lengths (t : Tab R) (hcol : ∀ c l, t.col c = some l → l.length = n) (hw : ∀ l, t.w = some l → l.length = n)
    (hwp : ∀ l, t.wpos = some l → l.length = n) (hf : ∀ l, t.flag = some l → l.length = n)
    (hp : ∀ l, t.patch = some l → l.length = n) : ∃ S : Src R, t = S.tab n := by
  have key : ∀ {α : Type} [Inhabited α] (o : Option (List α)), (∀ l, o = some l → l.length = n) →
      (o.map fun l i => (l[i]?).getD default).map (arr n) = o := by
    intro α _ o ho
    cases o with
    | none => rfl
    | some l =>
      simp only [Option.map_some, Option.some.injEq]
      have := ho l rfl
      apply List.ext_getElem?
      intro i
      rw [arr_get]
      split_ifs with hi
      · rw [List.getElem?_eq_getElem (by omega)]
        rfl
      · rw [List.getElem?_eq_none (by omega)]
  refine ⟨⟨fun c => (t.col c).map fun l i => (l[i]?).getD default, t.w.map fun l i => (l[i]?).getD default,
    t.wpos.map fun l i => (l[i]?).getD default, t.flag.map fun l i => (l[i]?).getD default,
    t.patch.map fun l i => (l[i]?).getD default⟩, ?_⟩
  unfold Src.tab
  rw [key t.w hw, key t.wpos hwp, key t.flag hf, key t.patch hp]
  have : (fun c => ((t.col c).map fun l i => (l[i]?).getD default).map (arr n)) = t.col := by
    funext c
    exact key (t.col c) (hcol c)
  simp only [this]

/-- C32 with `wpos`: a row is kept if it is not flagged and its `wpos` is neither NaN nor zero.  Its weight is the given one unless
the row has NaN somewhere, when it is zero; rows without NaN have all columns as given. -/
theorem rows_with_wpos [CharZero R] (s : Settings R) (S : Src R) (h : S.Ok s) (hn : 0 < n) (p : ℕ → Option R)
    (hp : S.wpos = some p) (hk : s.keepZero = false) (C : Cat R) (hC : finishInput s (S.tab n) = .ok C) :
    let kept := (List.range n).filter fun i => ¬ S.Flagged s i ∧ p i ≠ none ∧ p i ≠ some 0
    C.tab.wpos = some (kept.map p) ∧
    C.tab.w = some (kept.map fun i => if S.NaN i then some 0 else S.weight i) ∧
    (∀ c, (C.tab.col c).isSome = (S.out s c).isSome) ∧
    (∀ c f g, C.tab.col c = some f → S.out s c = some g →
      f.length = kept.length ∧ ∀ j (hj : j < kept.length), ¬ S.NaN kept[j] → f[j]? = some (g kept[j])) := by
  intro kept
  rw [finish_tab s S h hn] at hC
  split_ifs at hC with h0
  have hC := Except.ok.inj hC
  subst hC
  have hP : S.P s = some fun i => if S.Flagged s i then some 0 else nz (p i) := by unfold Src.P; rw [hp]; rfl
  have hPi : ∀ i, (if S.Flagged s i then some 0 else nz (p i)) ≠ some 0 ↔ ¬ S.Flagged s i ∧ p i ≠ none ∧ p i ≠ some 0 := by
    intro i
    by_cases hf : S.Flagged s i
    · simp [hf]
    · cases hpi : p i <;> simp [hf, nz]
  have hkept : S.keptRows s n = kept := by
    unfold Src.keptRows
    rw [if_neg (by simp [hk])]
    apply List.filter_congr
    intro i _
    rw [decide_eq_decide, hP]
    exact hPi i
  have hmem : ∀ i ∈ kept, i < n ∧ ¬ S.Flagged s i ∧ p i ≠ none ∧ p i ≠ some 0 := by
    intro i hi
    have := List.mem_filter.1 hi
    exact ⟨List.mem_range.1 this.1, by simpa using this.2⟩
  refine ⟨?_, ?_, ?_, ?_⟩
  · simp only [Src.pick, hkept]
    rw [(fin_rest s S).1, hP]
    simp only [Option.map_some, Option.some.injEq]
    apply List.map_congr_left
    intro i hi
    obtain ⟨-, h1, h2, -⟩ := hmem i hi
    obtain ⟨v, hv⟩ := Option.ne_none_iff_exists'.1 h2
    simp [h1, hv, nz]
  · simp only [Src.pick, hkept, Option.some.injEq]
    apply List.map_congr_left
    intro i hi
    obtain ⟨h1, h2⟩ := hmem i hi
    rw [fin_weight s S h1]
    unfold Src.W
    have : ¬ ∃ q, S.P s = some q ∧ q i = some 0 := by
      rintro ⟨q, hq, hq0⟩
      rw [hP] at hq
      have := Option.some.inj hq
      subst this
      exact (hPi i).2 h2 hq0
    simp [h2.1, this]
  · intro c
    simp only [Src.pick]
    rw [← (fin_col (n := n) s S c).1]
    cases (S.fin s n).col c <;> rfl
  · intro c f g hf hg
    simp only [Src.pick, hkept] at hf
    obtain ⟨f0, hf0, rfl⟩ := Option.map_eq_some_iff.1 hf
    refine ⟨by simp, ?_⟩
    intro j hj hN
    rw [← (fin_col (n := n) s S c).2 f0 g hf0 hg _ hN, List.getElem?_map, List.getElem?_eq_getElem hj]
    rfl

end Catalog
end TreeCorr
