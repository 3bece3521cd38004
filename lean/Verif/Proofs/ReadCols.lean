import Verif.Spec.ReadCols

/-! Lemmas about the reading of columns. -/

namespace TreeCorr
namespace ReadCols
variable {D : Type} {c : Conf D} {f : File D}

theorem inner_fold (e : String) (l : List String) (d : String → Option D) (m : String) :
    l.foldl (fun d n => fun m => if m = n then f e n else d m) d m = if m ∈ l then f e m else d m := by
  induction l generalizing d with
  | nil => simp
  | cons n l ih =>
    rw [List.foldl_cons, ih]
    by_cases h : m ∈ l
    · simp [h]
    · by_cases hn : m = n
      · subst hn; simp
      · simp [h, hn]

theorem readData_snoc (order : List String) (e m : String) :
    readData c f (order ++ [e]) m = if m ∈ useCols c f e then f e m else readData c f order m := by
  unfold readData
  rw [List.foldl_append, List.foldl_cons, List.foldl_nil, inner_fold]

theorem readData_none {order : List String} {m : String} (h : ∀ e ∈ order, m ∉ useCols c f e) : readData c f order m = none := by
  induction order using List.reverseRecOn with
  | nil => rfl
  | append_singleton l e ih =>
    rw [readData_snoc, if_neg (h e (by simp)), ih fun e' he' => h e' (by simp [he'])]

theorem readData_one {order : List String} {m e0 : String} (h0 : e0 ∈ order) (hu : m ∈ useCols c f e0)
    (h : ∀ e ∈ order, m ∈ useCols c f e → e = e0) : readData c f order m = f e0 m := by
  induction order using List.reverseRecOn with
  | nil => simp at h0
  | append_singleton l e ih =>
    rw [readData_snoc]
    by_cases he : m ∈ useCols c f e
    · rw [if_pos he, h e (by simp) he]
    · rw [if_neg he]
      rcases List.mem_append.1 h0 with h1 | h1
      · exact ih h1 fun e' he' => h e' (by simp [he'])
      · rw [List.mem_singleton] at h1
        subst h1
        exact absurd hu he

theorem mem_allKeys (key : Key) : key ∈ allKeys := by cases key <;> decide

theorem mem_useCols {e m : String} : m ∈ useCols c f e ↔
    (m ≠ "0" ∧ colByExt c m = some e ∧ f.names e m = true) ∨ (m ∈ c.extra ∧ f.names e m = true) := by
  unfold useCols
  rw [List.mem_append, List.mem_filter, List.mem_filter]
  constructor
  · rintro (⟨-, h⟩ | h)
    · simp only [Bool.and_eq_true, decide_eq_true_eq] at h
      exact .inl ⟨h.1.1, h.1.2, h.2⟩
    · exact .inr h
  · rintro (⟨h1, h2, h3⟩ | h)
    · left
      refine ⟨?_, by simp [h1, h2, h3]⟩
      unfold colByExt at h2
      cases hl : (allKeys.filter fun key => c.col key = m).getLast? with
      | none => rw [hl] at h2; simp at h2
      | some key =>
        have := List.mem_filter.1 (List.mem_of_getLast? hl)
        exact List.mem_map.2 ⟨key, this.1, by simpa using this.2⟩
    · exact .inr h

theorem colByExt_of {key : Key} (h : ∀ b, c.col key = c.col b → c.ext key = c.ext b) : colByExt c (c.col key) = some (c.ext key) := by
  unfold colByExt
  cases hl : (allKeys.filter fun k' => c.col k' = c.col key).getLast? with
  | none =>
    rw [List.getLast?_eq_none_iff] at hl
    have : key ∈ allKeys.filter fun k' => c.col k' = c.col key := List.mem_filter.2 ⟨mem_allKeys key, by simp⟩
    rw [hl] at this
    simp at this
  | some k' =>
    have := (List.mem_filter.1 (List.mem_of_getLast? hl)).2
    simp only [decide_eq_true_eq] at this
    simp [h k' this.symm]

theorem ext_mem (key : Key) : c.ext key ∈ allExts c :=
  List.mem_dedup.2 (List.mem_append_left _ (List.mem_map.2 ⟨key, mem_allKeys key, rfl⟩))

/-- The numbers under the name of a quantity are those of its column. -/
theorem data_plain (hp : Plain c f) {order : List String} (ho : order.Perm (allExts c)) {key : Key} (hg : c.given key = true) :
    readData c f order (c.col key) = f (c.ext key) (c.col key) := by
  have hce := colByExt_of (c := c) (key := key) fun b hb => hp.sameExt key b hg hb
  have h0 : c.col key ≠ "0" := by simpa [Conf.given] using hg
  by_cases hv : f.names (c.ext key) (c.col key) = true
  · refine readData_one (ho.mem_iff.2 (ext_mem key)) (mem_useCols.2 (.inl ⟨h0, hce, hv⟩)) fun e he hu => ?_
    rcases mem_useCols.1 hu with ⟨-, h1, -⟩ | ⟨h1, h2⟩
    · rw [hce] at h1; exact (Option.some.inj h1).symm
    · exact hp.extraOk key hg h1 e (ho.mem_iff.1 he) h2
  · have hn : f (c.ext key) (c.col key) = none := by simpa [File.names] using hv
    rw [hn]
    refine readData_none fun e he hu => ?_
    rcases mem_useCols.1 hu with ⟨-, h1, h2⟩ | ⟨h1, h2⟩
    · rw [hce] at h1; rw [← Option.some.inj h1] at h2; exact hv h2
    · rw [hp.extraOk key hg h1 e (ho.mem_iff.1 he) h2] at h2; exact hv h2

theorem mapM_ok {α β : Type} {g : α → Except PyErr β} {h : α → β} {l : List α} (hg : ∀ x ∈ l, g x = .ok (h x)) :
    l.mapM g = .ok (l.map h) := by
  induction l with
  | nil => rfl
  | cons x l ih =>
    rw [List.mapM_cons, hg x (by simp), ih fun y hy => hg y (by simp [hy])]
    rfl

/-- What it means that a file is accepted. -/
structure Accepted (c : Conf D) (f : File D) (isRand : Bool) : Prop where
  pos : posBad c = false
  miss : ∀ F ∈ Fld.all, missing c F = false
  half : ∀ q ∈ pairs, half c q = false
  posIn : posAbsent c f = false
  otherIn : otherAbsent c f = false
  valueIn : isRand = false → ∀ F ∈ Fld.all, valueAbsent c f F = false

theorem accepted_iff {isRand : Bool} : checkFile c f isRand = .ok () ↔ Accepted c f isRand := by
  unfold checkFile
  constructor
  · intro h
    split at h
    · cases h
    · rename_i hn
      simp only [Bool.or_eq_true, not_or, Bool.not_eq_true, List.any_eq_false, Bool.and_eq_false_iff] at hn
      obtain ⟨⟨⟨⟨⟨h1, h2⟩, h3⟩, h4⟩, h5⟩, h6⟩ := hn
      refine ⟨h1, h2, h3, h4, h5, fun hr => ?_⟩
      rcases h6 with h6 | h6
      · simp [hr] at h6
      · simpa [List.any_eq_false] using h6
  · rintro ⟨h1, h2, h3, h4, h5, h6⟩
    rw [if_neg]
    simp only [Bool.or_eq_true, not_or, Bool.not_eq_true, List.any_eq_false, Bool.and_eq_false_iff]
    refine ⟨⟨⟨⟨⟨h1, h2⟩, h3⟩, h4⟩, h5⟩, ?_⟩
    cases isRand
    · right; simpa [List.any_eq_false] using h6 rfl
    · left; rfl

end ReadCols
end TreeCorr
