import Verif.Proofs.FileType

/-!
# C91: files are read as what they were written as
-/

namespace TreeCorr
namespace FileType

/-- The kind of file that is written follows from the extension. -/
theorem writer_of_name (name : List Char) :
    (ExtBegins name "fit" → makeWriter none name = .ok .fits) ∧
    (ExtBegins name "hdf" ∨ ExtBegins name "h5" → makeWriter none name = .ok .hdf) ∧
    (¬ ExtBegins name "fit" → ¬ ExtBegins name "hdf" → ¬ ExtBegins name "h5" → makeWriter none name = .ok .ascii) := by
  have hf := begins_iff (name := name) (s := "fit") (t := ".fit".toList) rfl
  have hh := begins_iff (name := name) (s := "hdf") (t := ".hdf".toList) rfl
  have h5 := begins_iff (name := name) (s := "h5") (t := ".h5".toList) rfl
  have excl : ∀ {s t : String}, ExtBegins name s → ExtBegins name t → s.toList.head? = t.toList.head? ∨ s.toList = [] ∨ t.toList = [] := by
    rintro s t ⟨e, he, ⟨r, hr⟩⟩ ⟨e', he', ⟨r', hr'⟩⟩
    have : e = e' := (List.cons.inj ((ext_of he).symm.trans (ext_of he'))).2
    rw [← this, ← hr] at hr'
    cases hs : s.toList with
    | nil => exact Or.inr (Or.inl rfl)
    | cons a s' =>
      cases ht : t.toList with
      | nil => exact Or.inr (Or.inr rfl)
      | cons b t' =>
        rw [hs, ht] at hr'
        simp only [List.cons_append] at hr'
        left
        simp [(List.cons.inj hr').1]
  unfold makeWriter parse
  refine ⟨fun h => ?_, fun h => ?_, fun h1 h2 h3 => ?_⟩
  · simp only [hf.2 h, if_true]
  · have hnf : ¬ ".fit".toList.isPrefixOf ((ext name).map Char.toLower) = true := by
      rw [hf]
      intro h'
      rcases h with h | h
      · have := excl h' h
        revert this; decide
      · have := excl h' h
        revert this; decide
    have hyes : (".hdf".toList.isPrefixOf ((ext name).map Char.toLower) || ".h5".toList.isPrefixOf ((ext name).map Char.toLower)) = true := by
      rw [Bool.or_eq_true, hh, h5]
      exact h
    simp only [if_neg hnf, hyes, if_true]
    decide
  · rw [← hf] at h1
    have hno : ¬ (".hdf".toList.isPrefixOf ((ext name).map Char.toLower) || ".h5".toList.isPrefixOf ((ext name).map Char.toLower)) = true := by
      rw [Bool.or_eq_true, hh, h5]
      exact fun h => h.elim h2 h3
    simp only [if_neg h1, if_neg hno, Bool.not_true, Bool.false_and, Bool.false_eq_true, if_false]
    decide

/-- A file type that is given counts, in capital or small letters; there are three. -/
theorem writer_given (t name : List Char) (k : Kind) :
    makeWriter (some t) name = .ok k ↔ t.map Char.toUpper = k.name ∧ k ≠ .parquet := by
  unfold makeWriter parse
  dsimp only
  generalize t.map Char.toUpper = u
  split_ifs with h1 h2 h3
  · subst h1; cases k <;> decide
  · subst h2; cases k <;> decide
  · subst h3; cases k <;> decide
  · cases k <;> simp_all [Kind.name]

/-- What is written is read as the same kind, unless the file type is left out and the extension begins with `.par`. -/
theorem written_read_partial {given : Option (List Char)} {name : List Char} {k : Kind} (h : makeWriter given name = .ok k)
    (hp : given = none → ¬ ExtBegins name "par") : makeReader given name = .ok k ∧ catReader given name = k := by
  have hpar := begins_iff (name := name) (s := "par") (t := ".par".toList) rfl
  have hsame : parse given name false = parse given name true := by
    cases given with
    | some t => rfl
    | none =>
      have hn : ¬ ".par".toList.isPrefixOf ((ext name).map Char.toLower) = true := by rw [hpar]; exact hp rfl
      unfold parse
      simp only [Bool.not_false, Bool.true_and, if_neg hn, Bool.not_true, Bool.false_and, Bool.false_eq_true, if_false]
  constructor
  · rw [← h]
    unfold makeReader makeWriter
    rw [hsame]
  · unfold makeWriter at h
    unfold catReader
    rw [hsame]
    dsimp only at h ⊢
    split_ifs at h ⊢ with h1 h2 h3 h4 h4
    · exact Except.ok.inj h
    · exact Except.ok.inj h
    · rw [h3] at h4; exact absurd h4 (by decide)
    · exact Except.ok.inj h

/-- Results written to `out.parquet` are ASCII, and can not be read under that name. -/
theorem parquet_wrong : ∃ name, makeWriter none name = .ok .ascii ∧ makeReader none name = .error .valueError ∧ catReader none name = .parquet :=
  ⟨"out.parquet".toList, by decide +kernel, by decide +kernel, by decide +kernel⟩

/-! ## Examples -/

example : HasExt "run.2/out.FITS".toList "FITS".toList :=
  ⟨"run.2/".toList, "out".toList, by decide, Or.inr ⟨"run.2".toList, by decide⟩, by decide, ⟨'o', by decide, by decide⟩, by decide, by decide⟩

example : ExtBegins "run.2/out.FITS".toList "fit" :=
  ⟨_, ⟨"run.2/".toList, "out".toList, rfl, Or.inr ⟨"run.2".toList, by decide⟩, by decide, ⟨'o', by decide, by decide⟩, by decide, by decide⟩, by decide⟩

example : ext "run.fits/out".toList = [] ∧ ext "dir/.fits".toList = [] ∧ ext "a.tar.h5".toList = ".h5".toList := by decide +kernel

example : makeWriter none "out.Hdf5".toList = .ok .hdf ∧ makeReader none "out.Hdf5".toList = .ok .hdf := by decide +kernel

example : makeWriter (some "fits".toList) "out.par".toList = .ok .fits ∧ makeReader (some "fits".toList) "out.par".toList = .ok .fits := by decide +kernel

end FileType
end TreeCorr
