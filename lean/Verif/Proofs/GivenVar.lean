import Mathlib.Data.List.Perm.Basic
import Mathlib.Algebra.BigOperators.Group.List.Basic
import Verif.Model.GivenVar
import Verif.Props.CatalogVar

namespace TreeCorr
namespace Catalog

variable {R : Type} [Field R] [DecidableEq R]

/-- Catalogues without weights have weights 1. -/
def VCat.Ok (c : VCat R) : Prop := c.nontrivial = false → ∀ r ∈ c.rows, r.w = 1

theorem insert_flat {α : Type} (r : α) (p : ℕ) (g : ℕ → List α) : ∀ ids : List ℕ, ids.Nodup → p ∈ ids →
    (ids.flatMap fun i => if p = i then r :: g i else g i).Perm (r :: ids.flatMap g)
  | [], _, h => absurd h (by simp)
  | i :: ids, hn, h => by
    have hn' := List.nodup_cons.1 hn
    rw [List.flatMap_cons, List.flatMap_cons]
    by_cases hp : p = i
    · rw [if_pos hp, List.cons_append]
      have : (ids.flatMap fun i => if p = i then r :: g i else g i) = ids.flatMap g := by
        apply List.flatMap_congr
        intro j hj
        rw [if_neg]
        rintro rfl
        exact hn'.1 (hp ▸ hj)
      rw [this]
    · rw [if_neg hp]
      have h' : p ∈ ids := (List.mem_cons.1 h).resolve_left hp
      exact ((insert_flat r p g ids hn'.2 h').append_left (g i)).trans List.perm_middle

theorem group_perm {α : Type} (q : α → ℕ) (ids : List ℕ) (hn : ids.Nodup) (l : List α) (h : ∀ r ∈ l, q r ∈ ids) :
    (ids.flatMap fun i => l.filter fun r => q r = i).Perm l := by
  induction l with
  | nil => simp
  | cons r l ih =>
    have hi := ih fun x hx => h x (by simp [hx])
    have he : (ids.flatMap fun i => (r :: l).filter fun x => q x = i) =
        ids.flatMap fun i => if q r = i then r :: (l.filter fun x => q x = i) else l.filter fun x => q x = i := by
      apply List.flatMap_congr
      intro i _
      by_cases hq : q r = i <;> simp [List.filter_cons, hq]
    rw [he]
    exact (insert_flat r (q r) _ ids hn (h r (by simp))).trans (hi.cons r)

theorem numbers_nodup (c : VCat R) : c.numbers.Nodup :=
  (List.perm_insertionSort _ _).nodup_iff.2 (List.nodup_dedup _)

theorem mem_numbers (c : VCat R) (i : ℕ) : i ∈ c.numbers ↔ ∃ r ∈ c.rows, r.patch = i := by
  unfold VCat.numbers
  rw [(List.perm_insertionSort _ _).mem_iff, List.mem_dedup, List.mem_map]

theorem wvar_perm {a b : List (R × R)} (h : a.Perm b) : wvar a = wvar b := by
  have hs : ∀ f : R × R → R, (a.map f).sum = (b.map f).sum := fun f => (h.map f).sum_eq
  have hm : wmean a = wmean b := by unfold wmean; rw [hs, hs]
  unfold wvar
  rw [hm, hs, hs]

theorem patches_flat (c : VCat R) (lowFile : Bool) (f : VRow R → R) :
    ((c.patches lowFile).flatMap fun d => (d.comp f).rows).Perm (c.comp f).rows := by
  unfold VCat.patches
  by_cases hp : c.patched = true
  · rw [if_pos hp, List.flatMap_map]
    have := (group_perm VRow.patch c.numbers (numbers_nodup c) c.rows fun r hr => (mem_numbers c _).2 ⟨r, hr, rfl⟩).map fun r => (r.w, f r)
    rw [List.map_flatMap] at this
    exact this
  · rw [if_neg hp, List.flatMap_cons, List.flatMap_nil, List.append_nil]

theorem poolGiven_none (cats : List (VCat R)) (f : VRow R → R) (h : ∀ c ∈ cats, c.given = none) :
    poolGiven cats f = poolVar (cats.map fun c => c.comp f) := by
  have hs : ∀ c ∈ cats, c.stats f = (c.comp f).weightedVar := by
    intro c hc
    unfold VCat.stats
    rw [h c hc]
  unfold poolGiven poolVar
  simp only [List.map_map, Function.comp_def]
  have e1 : (cats.map fun c => (c.stats f).2.2 * (c.comp f).sumw + (c.stats f).1 * (c.comp f).sumw2 * (2 * (c.stats f).2.1 - (c.stats f).1)) =
      cats.map fun c => (c.comp f).weightedVar.2.2 * (c.comp f).sumw +
        (c.comp f).weightedVar.1 * (c.comp f).sumw2 * (2 * (c.comp f).weightedVar.2.1 - (c.comp f).weightedVar.1) :=
    List.map_congr_left fun c hc => by rw [hs c hc]
  have e2 : (cats.map fun c => (c.stats f).1 * (c.comp f).sumw) = cats.map fun c => (c.comp f).weightedVar.1 * (c.comp f).sumw :=
    List.map_congr_left fun c hc => by rw [hs c hc]
  have e3 : (cats.map fun c => (c.stats f).2.1 * (c.comp f).sumw2) = cats.map fun c => (c.comp f).weightedVar.2.1 * (c.comp f).sumw2 :=
    List.map_congr_left fun c hc => by rw [hs c hc]
  rw [e1, e2, e3]

/-- Given variances are averaged, weighted by the sums of weights. -/
theorem poolGiven_given (cats : List (VCat R)) (f : VRow R → R) (v : VCat R → R) (h : ∀ c ∈ cats, c.given = some (v c)) :
    poolGiven cats f = (cats.map fun c => v c * (c.comp f).sumw).sum / (cats.map fun c => (c.comp f).sumw).sum := by
  have hs : ∀ c ∈ cats, c.stats f = (0, 0, v c) := by
    intro c hc
    unfold VCat.stats
    rw [h c hc]
  unfold poolGiven
  simp only
  have e1 : (cats.map fun c => (c.stats f).2.2 * (c.comp f).sumw + (c.stats f).1 * (c.comp f).sumw2 * (2 * (c.stats f).2.1 - (c.stats f).1)) =
      cats.map fun c => v c * (c.comp f).sumw :=
    List.map_congr_left fun c hc => by rw [hs c hc]; ring
  have e2 : (cats.map fun c => (c.stats f).1 * (c.comp f).sumw) = cats.map fun _ => (0 : R) :=
    List.map_congr_left fun c hc => by rw [hs c hc]; ring
  have e3 : (cats.map fun c => (c.stats f).2.1 * (c.comp f).sumw2) = cats.map fun _ => (0 : R) :=
    List.map_congr_left fun c hc => by rw [hs c hc]; ring
  rw [e1, e2, e3]
  simp

theorem poolGiven_same (cats : List (VCat R)) (f : VRow R → R) (v : R) (h : ∀ c ∈ cats, c.given = some v)
    (hw : (cats.map fun c => (c.comp f).sumw).sum ≠ 0) : poolGiven cats f = v := by
  rw [poolGiven_given cats f (fun _ => v) h, List.sum_map_mul_left, mul_div_assoc, div_self hw, mul_one]

theorem sumw_comp (c : VCat R) (f g : VRow R → R) : (c.comp f).sumw = (c.comp g).sumw := by
  unfold WCat.sumw VCat.comp
  simp [Function.comp_def]

end Catalog
end TreeCorr
