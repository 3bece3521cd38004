import Mathlib.Tactic.Ring
import Mathlib.Tactic.FieldSimp
import Mathlib.Tactic.Linarith
import Mathlib.Algebra.Order.Field.Basic
import Mathlib.Algebra.Order.BigOperators.Group.List
import Verif.Model.CatalogOps

/-!
C24: the pooled variance of several catalogues is that of all rows together.
-/

namespace TreeCorr
namespace Catalog

variable {R : Type} [Field R] [DecidableEq R]

/-- The weighted mean of rows of weight and value. -/
def wmean (rows : List (R × R)) : R := (rows.map fun x => x.1 * x.2).sum / (rows.map fun x => x.1).sum

/-- The variance of the rows about their weighted mean, as the library defines it: squared weights over the sum of weights. -/
def wvar (rows : List (R × R)) : R :=
  (rows.map fun x => x.1 ^ 2 * (x.2 - wmean rows) ^ 2).sum / (rows.map fun x => x.1).sum

/-- Catalogues without weights have weights 1. -/
def WCat.Ok (c : WCat R) : Prop := c.nontrivial = false → ∀ x ∈ c.rows, x.1 = 1

theorem sum_use (rows : List (R × R)) (f : R × R → R) (h : ∀ x, x.1 = 0 → f x = 0) :
    ((rows.filter fun x => x.1 ≠ 0).map f).sum = (rows.map f).sum := by
  induction rows with
  | nil => rfl
  | cons a l ih =>
    by_cases ha : a.1 = 0
    · simp [List.filter_cons, ha, h a ha] at ih ⊢
      exact ih
    · simp [List.filter_cons, ha] at ih ⊢
      exact ih

theorem sum_ones (rows : List (R × R)) (h : ∀ x ∈ rows, x.1 = 1) (f g : R × R → R) (hfg : ∀ x, x.1 = 1 → f x = g x) :
    (rows.map f).sum = (rows.map g).sum := by
  rw [List.map_congr_left fun x hx => hfg x (h x hx)]

theorem sum_const (rows : List (R × R)) : (rows.map fun _ => (1 : R)).sum = (rows.length : R) := by
  induction rows with
  | nil => simp
  | cons a l ih => simp [ih, add_comm]

theorem sumw_eq (c : WCat R) (h : c.Ok) : c.sumw = (c.rows.map fun x => x.1).sum := by
  unfold WCat.sumw
  split_ifs with hn
  · rfl
  · rw [← sum_const]
    exact (sum_ones c.rows (h (by simpa using hn)) _ _ fun x hx => hx).symm

theorem sumw2_eq (c : WCat R) (h : c.Ok) : c.sumw2 = (c.rows.map fun x => x.1 ^ 2).sum := by
  unfold WCat.sumw2
  split_ifs with hn
  · rfl
  · rw [← sum_const]
    exact (sum_ones c.rows (h (by simpa using hn)) _ _ fun x hx => by rw [hx]; ring).symm

theorem weightedVar_eq (c : WCat R) (h : c.Ok) :
    c.weightedVar = (wmean c.rows, (c.rows.map fun x => x.1 ^ 2 * x.2).sum / (c.rows.map fun x => x.1 ^ 2).sum, wvar c.rows) := by
  have e1 := sumw_eq c h
  have e2 := sumw2_eq c h
  unfold WCat.weightedVar
  split_ifs with hn
  · simp only
    rw [sum_use _ _ fun x hx => by rw [hx]; ring, sum_use _ _ fun x hx => by rw [hx]; ring,
      sum_use _ _ fun x hx => by rw [hx]; ring, e1, e2]
    rfl
  · have h1 := h (by simpa using hn)
    have s0 : (c.rows.length : R) = (c.rows.map fun x => x.1).sum := by
      rw [← e1]
      unfold WCat.sumw
      rw [if_neg hn]
    have s1 : (c.rows.length : R) = (c.rows.map fun x => x.1 ^ 2).sum := by
      rw [← e2]
      unfold WCat.sumw2
      rw [if_neg hn]
    have m0 : (c.rows.map fun x => x.2).sum = (c.rows.map fun x => x.1 * x.2).sum :=
      sum_ones c.rows h1 _ _ fun x hx => by rw [hx]; ring
    have m1 : (c.rows.map fun x => x.2).sum = (c.rows.map fun x => x.1 ^ 2 * x.2).sum :=
      sum_ones c.rows h1 _ _ fun x hx => by rw [hx]; ring
    have hm : (c.rows.map fun x => x.2).sum / (c.rows.length : R) = wmean c.rows := by unfold wmean; rw [m0, s0]
    simp only
    rw [hm]
    refine Prod.ext rfl (Prod.ext ?_ ?_)
    · simp only
      rw [← m1, ← s1, hm]
    · simp only
      unfold wvar
      rw [s0]
      congr 1
      exact sum_ones c.rows h1 _ _ fun x hx => by rw [hx]; ring

/-- C24 for one catalogue: the variance is the weighted variance of the rows. -/
theorem variance_of_one (c : WCat R) (h : c.Ok) : calculateVar [c] = wvar c.rows := by
  show c.weightedVar.2.2 = _
  rw [weightedVar_eq c h]

theorem sum_expand (rows : List (R × R)) (a : R) : (rows.map fun x => x.1 ^ 2 * (x.2 - a) ^ 2).sum =
    (rows.map fun x => x.1 ^ 2 * x.2 ^ 2).sum - 2 * a * (rows.map fun x => x.1 ^ 2 * x.2).sum + a ^ 2 * (rows.map fun x => x.1 ^ 2).sum := by
  induction rows with
  | nil => simp
  | cons x l ih =>
    simp only [List.map_cons, List.sum_cons, ih]
    ring

theorem sum_flat (cats : List (WCat R)) (f : R × R → R) :
    (cats.map fun c => (c.rows.map f).sum).sum = ((cats.flatMap fun c => c.rows).map f).sum := by
  induction cats with
  | nil => rfl
  | cons c l ih => simp [ih]

theorem pool_aux (cats : List (WCat R)) (hok : ∀ c ∈ cats, c.Ok) (h1 : ∀ c ∈ cats, c.sumw ≠ 0) (h2 : ∀ c ∈ cats, c.sumw2 ≠ 0)
    (ht : ((cats.flatMap fun c => c.rows).map fun x => x.1).sum ≠ 0)
    (ht2 : ((cats.flatMap fun c => c.rows).map fun x => x.1 ^ 2).sum ≠ 0) : poolVar cats = wvar (cats.flatMap fun c => c.rows) := by
  have e1 : (cats.map fun c => c.sumw).sum = ((cats.flatMap fun c => c.rows).map fun x => x.1).sum := by
    rw [← sum_flat, List.map_congr_left fun c hc => sumw_eq c (hok c hc)]
  have e2 : (cats.map fun c => c.sumw2).sum = ((cats.flatMap fun c => c.rows).map fun x => x.1 ^ 2).sum := by
    rw [← sum_flat, List.map_congr_left fun c hc => sumw2_eq c (hok c hc)]
  have e3 : (cats.map fun c => c.weightedVar.1 * c.sumw).sum = ((cats.flatMap fun c => c.rows).map fun x => x.1 * x.2).sum := by
    rw [← sum_flat]
    congr 1
    apply List.map_congr_left
    intro c hc
    have := h1 c hc
    rw [sumw_eq c (hok c hc)] at this
    rw [weightedVar_eq c (hok c hc), sumw_eq c (hok c hc)]
    exact div_mul_cancel₀ _ this
  have e4 : (cats.map fun c => c.weightedVar.2.1 * c.sumw2).sum = ((cats.flatMap fun c => c.rows).map fun x => x.1 ^ 2 * x.2).sum := by
    rw [← sum_flat]
    congr 1
    apply List.map_congr_left
    intro c hc
    have := h2 c hc
    rw [sumw2_eq c (hok c hc)] at this
    rw [weightedVar_eq c (hok c hc), sumw2_eq c (hok c hc)]
    exact div_mul_cancel₀ _ this
  have e5 : (cats.map fun c => c.weightedVar.2.2 * c.sumw + c.weightedVar.1 * c.sumw2 * (2 * c.weightedVar.2.1 - c.weightedVar.1)).sum =
      ((cats.flatMap fun c => c.rows).map fun x => x.1 ^ 2 * x.2 ^ 2).sum := by
    rw [← sum_flat]
    congr 1
    apply List.map_congr_left
    intro c hc
    have g1 := h1 c hc
    have g2 := h2 c hc
    rw [sumw_eq c (hok c hc)] at g1
    rw [sumw2_eq c (hok c hc)] at g2
    rw [weightedVar_eq c (hok c hc), sumw_eq c (hok c hc), sumw2_eq c (hok c hc)]
    simp only
    unfold wvar
    rw [div_mul_cancel₀ _ g1, sum_expand]
    field_simp
    ring
  unfold poolVar
  simp only
  rw [e1, e2, e3, e4, e5]
  unfold wvar
  rw [sum_expand]
  have hm : ((cats.flatMap fun c => c.rows).map fun x => x.1 * x.2).sum / ((cats.flatMap fun c => c.rows).map fun x => x.1).sum =
    wmean (cats.flatMap fun c => c.rows) := rfl
  rw [hm]
  congr 1
  field_simp
  ring

/-- C24: for any list of catalogues, each with and without weights, with sums of weights that are not zero, the variance computed for
the list is the variance of all rows together. -/
theorem variance_of_list [LinearOrder R] [IsStrictOrderedRing R] (cats : List (WCat R)) (hok : ∀ c ∈ cats, c.Ok)
    (h1 : ∀ c ∈ cats, c.sumw ≠ 0) (ht : ((cats.flatMap fun c => c.rows).map fun x => x.1).sum ≠ 0) :
    calculateVar cats = wvar (cats.flatMap fun c => c.rows) := by
  have hsq : ∀ rows : List (R × R), (rows.map fun x => x.1).sum ≠ 0 → (rows.map fun x => x.1 ^ 2).sum ≠ 0 := by
    intro rows h h0
    apply h
    have hall : ∀ x ∈ rows, x.1 = 0 := by
      clear h
      induction rows with
      | nil => simp
      | cons a l ih =>
        rw [List.map_cons, List.sum_cons] at h0
        have hl : 0 ≤ (l.map fun x => x.1 ^ 2).sum := List.sum_nonneg (by
          intro y hy
          obtain ⟨z, -, rfl⟩ := List.mem_map.1 hy
          positivity)
        have ha : 0 ≤ a.1 ^ 2 := sq_nonneg _
        have ha0 : a.1 ^ 2 = 0 := by linarith
        intro x hx
        rcases List.mem_cons.1 hx with rfl | hx
        · exact pow_eq_zero_iff (two_ne_zero) |>.1 ha0
        · exact ih (by linarith) x hx
    rw [List.map_congr_left (g := fun _ => 0) hall]
    simp
  have hpool : poolVar cats = wvar (cats.flatMap fun c => c.rows) := by
    refine pool_aux cats hok h1 ?_ ht (hsq _ ht)
    intro c hc
    have := h1 c hc
    rw [sumw_eq c (hok c hc)] at this
    rw [sumw2_eq c (hok c hc)]
    exact hsq _ this
  match cats, hok, hpool with
  | [], _, hpool => exact hpool
  | [c], hok, _ =>
    rw [variance_of_one c (hok c (by simp))]
    simp
  | _ :: _ :: _, _, hpool => exact hpool

/-- A catalogue with weights and one without. -/
def exW : List (WCat ℚ) := [⟨[(2, 1), (3, 4)], true⟩, ⟨[(1, 5), (1, 7), (1, 0)], false⟩]

example : calculateVar exW = wvar [(2, 1), (3, 4), (1, 5), (1, 7), (1, 0)] := by
  refine variance_of_list exW ?_ ?_ ?_
  · intro c hc
    simp only [exW, List.mem_cons, List.not_mem_nil, or_false] at hc
    rcases hc with rfl | rfl
    · intro h
      simp at h
    · intro _ x hx
      simp only [List.mem_cons, List.not_mem_nil, or_false] at hx
      rcases hx with rfl | rfl | rfl <;> rfl
  · decide +kernel
  · decide +kernel

end Catalog
end TreeCorr
