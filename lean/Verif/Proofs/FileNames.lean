import Verif.Spec.FileNames

namespace TreeCorr
namespace Config

theorem splitWords_white {w : Str} (h : Whites w) (s : Str) : splitWords [] (w ++ s) = splitWords [] s := by
  induction w with
  | nil => rfl
  | cons c w ih =>
    rw [List.cons_append, splitWords, if_pos (h c (by simp)), if_pos rfl]
    exact ih fun d hd => h d (by simp [hd])

theorem splitWords_word {n : Str} (h : ∀ c ∈ n, c.isWhitespace = false) (cur s : Str) :
    splitWords cur (n ++ s) = splitWords (cur ++ n) s := by
  induction n generalizing cur with
  | nil => simp
  | cons c n ih =>
    rw [List.cons_append, splitWords, if_neg (by rw [h c (by simp)]; simp), ih fun d hd => h d (by simp [hd])]
    simp

theorem splitWords_separated {s : Str} {l : List Str} (h : Separated s l) : splitWords [] s = l := by
  induction h with
  | nil hw => 
    have := splitWords_white hw []
    rw [List.append_nil] at this
    rw [this]; rfl
  | last hw hn =>
    rw [splitWords_white hw]
    have := splitWords_word hn.2 [] []
    rw [List.append_nil] at this
    rw [this, List.nil_append, splitWords, if_neg hn.1]
  | cons hw hn hc hs ih =>
    rw [List.append_assoc, splitWords_white hw, splitWords_word hn.2, List.nil_append, splitWords, if_pos hc, if_neg hn.1, ih]

theorem fileLines_line {n : Str} (h : '\n' ∉ n) (cur s : Str) : fileLines cur (n ++ s) = fileLines (cur ++ n) s := by
  induction n generalizing cur with
  | nil => simp
  | cons c n ih =>
    have hc : c ≠ '\n' := fun e => h (by simp [e])
    rw [List.cons_append, fileLines, if_neg hc, ih fun hd => h (by simp [hd])]
    simp

theorem dropWhile_whites {w : Str} (h : Whites w) (s : Str) : (w ++ s).dropWhile Char.isWhitespace = s.dropWhile Char.isWhitespace := by
  induction w with
  | nil => rfl
  | cons c w ih =>
    rw [List.cons_append, List.dropWhile_cons, if_pos (h c (by simp))]
    exact ih fun d hd => h d (by simp [hd])

theorem dropWhile_heads {s : Str} {c : Char} (h : s.head? = some c) (hc : c.isWhitespace = false) (t : Str) :
    (s ++ t).dropWhile Char.isWhitespace = s ++ t := by
  cases s with
  | nil => cases h
  | cons d s =>
    cases h
    rw [List.cons_append, List.dropWhile_cons, if_neg (by rw [hc]; simp)]

theorem strip_fileName {w n w' : Str} (hw : Whites w) (hw' : Whites w') (hn : Name n) : strip (w ++ n ++ w') = n := by
  obtain ⟨c, d, h1, h2, h3, h4, -⟩ := hn
  unfold strip
  rw [List.append_assoc, dropWhile_whites hw, dropWhile_heads h1 h3, List.reverse_append,
    dropWhile_whites (fun c hc => hw' c (List.mem_reverse.1 hc))]
  have h5 : n.reverse.head? = some d := by rw [List.head?_reverse, h2]
  have := dropWhile_heads h5 h4 []
  rw [List.append_nil] at this
  rw [this, List.reverse_reverse]

theorem name_ne {n : Str} (h : Name n) : n ≠ [] := by
  obtain ⟨c, d, h1, -⟩ := h
  rintro rfl
  cases h1

theorem listNames_listed {s : Str} {l : List Str} (h : Listed s l) : listNames s = l := by
  induction h with
  | nil => rfl
  | @last w n w' hw hw' h1 h2 hn =>
    have h3 : '\n' ∉ w ++ n ++ w' := by
      obtain ⟨c, d, -, -, -, -, h⟩ := hn
      simp [h1, h2, h]
    have := fileLines_line h3 [] []
    rw [List.append_nil, List.nil_append] at this
    rw [listNames, this, fileLines, if_neg (by simp [name_ne hn]), List.map_singleton, strip_fileName hw hw' hn]
  | @cons w n w' s l hw hw' h1 h2 hn hs ih =>
    have h3 : '\n' ∉ w ++ n ++ w' := by
      obtain ⟨c, d, -, -, -, -, h⟩ := hn
      simp [h1, h2, h]
    rw [listNames, fileLines_line h3, List.nil_append, fileLines, if_pos rfl, List.map_cons, strip_fileName hw hw' hn]
    rw [listNames] at ih
    rw [ih]

theorem readCatalogs_names {C : Type} {cat : Str → Bool → Except FileErr (List C)} {c : Call} {l : List Str} (h : fileNames c = .ok l)
    (f : Str → List C) (hf : ∀ n ∈ l, cat n (randFlag c) = .ok (f n)) : readCatalogs cat c = .ok (l.flatMap f) := by
  unfold readCatalogs
  simp only [h]
  have : (l.mapM fun n => cat n (randFlag c)) = .ok (l.map f) := by
    clear h
    induction l with
    | nil => rfl
    | cons n l ih =>
      rw [List.mapM_cons, hf n (by simp), ih fun m hm => hf m (by simp [hm])]
      rfl
  rw [this, List.flatMap_def]
  rfl

end Config
end TreeCorr
