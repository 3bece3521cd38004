import Mathlib.Data.List.Basic
import Verif.Spec.FileType

namespace TreeCorr
namespace FileType

theorem takeDrop_sep {P : Char → Bool} {a b : List Char} {c : Char} (ha : ∀ x ∈ a, P x = true) (hc : P c = false) :
    (a ++ c :: b).takeWhile P = a ∧ (a ++ c :: b).dropWhile P = c :: b := by
  induction a with
  | nil => simp [hc]
  | cons x a ih =>
    have hx := ha x (by simp)
    have := ih fun y hy => ha y (by simp [hy])
    simp [hx, this.1, this.2]

theorem takeWhile_all {P : Char → Bool} {a : List Char} (ha : ∀ x ∈ a, P x = true) : a.takeWhile P = a := by
  induction a with
  | nil => rfl
  | cons x a ih =>
    have hx := ha x (by simp)
    have := ih fun y hy => ha y (by simp [hy])
    simp only [List.takeWhile_cons, hx, if_true, this]

theorem takeWhile_mem {P : Char → Bool} {a : List Char} {c : Char} (h : c ∈ a.takeWhile P) : P c = true := by
  induction a with
  | nil => simp at h
  | cons x a ih =>
    rw [List.takeWhile_cons] at h
    split_ifs at h with hx
    · rcases List.mem_cons.1 h with rfl | h
      · exact hx
      · exact ih h
    · simp at h

theorem dropWhile_head {P : Char → Bool} {a l : List Char} {c : Char} (h : a.dropWhile P = c :: l) : P c = false := by
  induction a with
  | nil => simp at h
  | cons x a ih =>
    rw [List.dropWhile_cons] at h
    split_ifs at h with hx
    · exact ih h
    · rw [← (List.cons.inj h).1]
      simpa using hx

theorem ext_of {name e : List Char} (h : HasExt name e) : ext name = '.' :: e := by
  obtain ⟨dir, stem, rfl, hdir, hs, ⟨c, hc, hcd⟩, he, he'⟩ := h
  have hb : (dir ++ stem ++ '.' :: e).reverse.takeWhile (fun x => decide (x ≠ '/')) = e.reverse ++ '.' :: stem.reverse := by
    have hall : ∀ x ∈ e.reverse ++ '.' :: stem.reverse, decide (x ≠ '/') = true := by
      intro x hx
      apply decide_eq_true
      rintro rfl
      simp only [List.mem_append, List.mem_reverse, List.mem_cons] at hx
      rcases hx with hx | hx | hx
      · exact he' hx
      · exact absurd hx (by decide)
      · exact hs hx
    rcases hdir with rfl | ⟨d, rfl⟩
    · have : ([] ++ stem ++ '.' :: e).reverse = e.reverse ++ '.' :: stem.reverse := by simp
      rw [this]
      exact takeWhile_all hall
    · have : (d ++ ['/'] ++ stem ++ '.' :: e).reverse = (e.reverse ++ '.' :: stem.reverse) ++ '/' :: d.reverse := by simp
      rw [this]
      exact (takeDrop_sep hall (by decide)).1
  have hdot : ∀ x ∈ e.reverse, decide (x ≠ '.') = true := by
    intro x hx
    apply decide_eq_true
    rintro rfl
    exact he (List.mem_reverse.1 hx)
  have h2 := takeDrop_sep (P := fun x => decide (x ≠ '.')) (b := stem.reverse) hdot (c := '.') (by decide)
  unfold ext
  dsimp only
  rw [hb, h2.1, h2.2]
  dsimp only
  rw [if_pos, List.reverse_reverse]
  rw [List.any_eq_true]
  exact ⟨c, List.mem_reverse.2 hc, decide_eq_true hcd⟩

theorem of_ext {name x : List Char} (h : ext name = x) (hx : x ≠ []) : ∃ e, x = '.' :: e ∧ HasExt name e := by
  unfold ext at h
  dsimp only at h
  split at h
  · exact absurd h.symm hx
  · rename_i c stem hd
    split_ifs at h with ha
    · refine ⟨_, h.symm, ?_⟩
      have hc : c = '.' := by
        have := dropWhile_head hd
        simpa using this
      subst hc
      obtain ⟨b, hb⟩ : ∃ b, b = name.reverse.takeWhile (fun y => decide (y ≠ '/')) := ⟨_, rfl⟩
      rw [← hb] at hd ⊢
      have hsplit : b = b.takeWhile (fun y => decide (y ≠ '.')) ++ '.' :: stem := by
        rw [← hd, List.takeWhile_append_dropWhile]
      have hns : ∀ y ∈ b, y ≠ '/' := by
        intro y hy
        rw [hb] at hy
        exact of_decide_eq_true (takeWhile_mem hy)
      have hname : name = (name.reverse.dropWhile (fun y => decide (y ≠ '/'))).reverse ++ b.reverse := by
        rw [← List.reverse_append, hb, List.takeWhile_append_dropWhile, List.reverse_reverse]
      refine ⟨(name.reverse.dropWhile (fun y => decide (y ≠ '/'))).reverse, stem.reverse, ?_, ?_, ?_, ?_, ?_, ?_⟩
      · conv_lhs => rw [hname, hsplit]
        simp
      · cases hdw : name.reverse.dropWhile (fun y => decide (y ≠ '/')) with
        | nil => exact Or.inl rfl
        | cons c l =>
          have := dropWhile_head hdw
          have hc : c = '/' := by simpa using this
          exact Or.inr ⟨l.reverse, by rw [hc, List.reverse_cons]⟩
      · intro hm
        exact hns '/' (by rw [hsplit]; simp [List.mem_reverse.1 hm]) rfl
      · obtain ⟨y, hy, hy'⟩ := List.any_eq_true.1 ha
        exact ⟨y, List.mem_reverse.2 hy, of_decide_eq_true hy'⟩
      · intro hm
        exact of_decide_eq_true (takeWhile_mem (List.mem_reverse.1 hm)) rfl
      · intro hm
        refine hns '/' ?_ rfl
        rw [hsplit]
        exact List.mem_append_left _ (List.mem_reverse.1 hm)
    · exact absurd h.symm hx

theorem ext_iff {name e : List Char} : ext name = '.' :: e ↔ HasExt name e := by
  refine ⟨fun h => ?_, ext_of⟩
  obtain ⟨e', he, h'⟩ := of_ext h (by simp)
  rwa [(List.cons.inj he).2]

theorem begins_iff {name : List Char} {s : String} {t : List Char} (ht : t = '.' :: s.toList) :
    t.isPrefixOf ((ext name).map Char.toLower) = true ↔ ExtBegins name s := by
  subst ht
  rw [List.isPrefixOf_iff_prefix]
  constructor
  · intro h
    have hne : ext name ≠ [] := by
      intro h0
      rw [h0] at h
      simp at h
    obtain ⟨e, he, hx⟩ := of_ext rfl hne
    refine ⟨e, hx, ?_⟩
    rw [he, List.map_cons, List.cons_prefix_cons] at h
    exact h.2
  · rintro ⟨e, hx, hp⟩
    rw [ext_of hx, List.map_cons, List.cons_prefix_cons]
    exact ⟨by decide, hp⟩

end FileType
end TreeCorr
