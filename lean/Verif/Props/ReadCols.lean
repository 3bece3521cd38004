import Verif.Proofs.ReadCols

/-!
C81: a catalogue read from a file has for each quantity the numbers of the column that is named for it, in the extension that is named
for it; columns that are needed and not there are refused before anything is read; columns that are not needed may be missing.
-/

namespace TreeCorr
namespace ReadCols
variable {D : Type} {c : Conf D} {f : File D}

theorem read_plain_key (hp : Plain c f) (hx : c.allowXyz = false) {isRand : Bool} (hc : Accepted c f isRand) {order : List String}
    (ho : order.Perm (allExts c)) (key : Key) :
    readKey c f isRand (readData c f order) key = .ok (wanted c f isRand key) := by
  have hd := fun k' (h : c.given k' = true) => data_plain hp ho h
  have hhas : ∀ k', c.has k' = c.given k' := fun k' => by simp [Conf.has, hp.noEval]
  have hbad0 : ∀ k', c.given k' = false → c.bad f k' = true := fun k' h => by
    have : c.col k' = "0" := by simpa [Conf.given] using h
    simp [Conf.bad, this, hp.zero]
  have hv : ∀ k', c.bad f k' = false → ∃ v, f (c.ext k') (c.col k') = some v := fun k' h => by
    simpa [Conf.bad, File.names, Option.isSome_iff_exists] using h
  have hnv : ∀ k', c.bad f k' = true → f (c.ext k') (c.col k') = none := fun k' h => by
    simpa [Conf.bad, File.names] using h
  -- a quantity that is given and there is parsed
  have parse : ∀ k', c.given k' = true → c.bad f k' = false →
      (parseValue c (readData c f order) k').map some = .ok (f (c.ext k') (c.col k')) := by
    intro k' hg hb
    obtain ⟨v, e⟩ := hv k' hb
    simp [parseValue, hp.noEval, hd k' hg, e, Except.map]
  have pos := hc.pos
  have posIn := hc.posIn
  simp only [posBad, hhas, hx] at pos
  simp only [posAbsent] at posIn
  -- the pairs
  have pair : ∀ q ∈ pairs, c.given q.1 = c.given q.2 ∧ c.bad f q.1 = c.bad f q.2 := by
    intro q hq
    have h := hc.half q hq
    simp only [half, hp.noEval, Option.isNone_none, Bool.and_true] at h
    have e : c.given q.1 = c.given q.2 := by revert h; cases c.given q.1 <;> cases c.given q.2 <;> simp
    refine ⟨e, ?_⟩
    cases hg : c.given q.1
    · rw [hbad0 _ hg, hbad0 _ (e ▸ hg)]
    · exact hp.halves q hq hg
  have value : ∀ a b, c.given a = c.given b → c.bad f a = c.bad f b → isValue b = true →
      (if !isRand && (!c.bad f a || (c.eval a).isSome) then (parseValue c (readData c f order) b).map some else .ok none) =
        .ok (wanted c f isRand b) := by
    intro a b e1 e2 hb
    unfold wanted
    cases isRand
    · simp only [Bool.not_false, Bool.true_and, hp.noEval, Option.isSome_none, Bool.or_false, Bool.false_and, Bool.false_eq_true, if_false]
      cases hba : c.bad f a
      · have hg : c.given b = true := by
          cases hgb : c.given b
          · rw [hba, hbad0 b hgb] at e2; cases e2
          · rfl
        simp only [Bool.not_false, if_true]
        rw [if_pos hg]
        exact parse b hg (e2 ▸ hba)
      · simp only [Bool.not_true, Bool.false_eq_true, if_false]
        split
        · rw [hnv b (e2 ▸ hba)]
        · rfl
    · simp [hb]
  -- a quantity of which it is known that the file has it
  have plain : ∀ k', isValue k' = false → (c.given k' = true → c.bad f k' = false) →
      (if c.given k' then (parseValue c (readData c f order) k').map some else .ok none) = .ok (wanted c f isRand k') := by
    intro k' h1 h2
    unfold wanted
    simp only [h1, Bool.and_false, Bool.false_eq_true, if_false]
    split
    · rename_i hg; exact parse k' hg (h2 hg)
    · rfl
  have other : ∀ k' ∈ [Key.w, .wpos, .flag, .patch], c.given k' = true → c.bad f k' = false := by
    intro k' hk hg
    have := List.any_eq_false.1 hc.otherIn k' hk
    simpa [hg] using this
  unfold readKey
  have px : c.given .x = true → c.given .y = true ∧ c.given .ra = false ∧ c.given .dec = false ∧ c.given .r = false ∧
      c.bad f .x = false ∧ c.bad f .y = false ∧ (c.given .z = true → c.bad f .z = false) := by
    intro h
    simp only [h, Bool.true_or, if_true, Bool.not_true, Bool.false_or, Bool.not_false, Bool.and_true, Bool.or_eq_false_iff,
      Bool.not_eq_false'] at pos
    obtain ⟨hy, ⟨h1, h2⟩, h3⟩ := pos
    simp only [h, hy, Bool.and_self, if_true, Bool.or_eq_false_iff, Bool.and_eq_false_iff] at posIn
    obtain ⟨⟨a1, a2⟩, a3⟩ := posIn
    exact ⟨hy, h1, h2, h3, a1, a2, fun hz => by simpa [hz] using a3⟩
  have pnx : c.given .x = false → c.given .y = false ∧ c.given .ra = true ∧ c.given .dec = true ∧ c.given .z = false ∧
      c.bad f .ra = false ∧ c.bad f .dec = false ∧ (c.given .r = true → c.bad f .r = false) := by
    intro h
    have hy : c.given .y = false := by
      by_contra hy
      simp [h, Bool.not_eq_false _ ▸ hy] at pos
    rw [h, hy] at pos posIn
    have hr : c.given .ra = true ∧ c.given .dec = true ∧ c.given .z = false := by
      revert pos
      cases c.given .ra <;> cases c.given .dec <;> cases c.given .z <;> simp
    simp only [hr.1, hr.2.1, Bool.and_self, Bool.false_eq_true, if_false, if_true, Bool.or_eq_false_iff, Bool.and_eq_false_iff] at posIn
    obtain ⟨⟨a1, a2⟩, a3⟩ := posIn
    exact ⟨hy, hr.1, hr.2.1, hr.2.2, a1, a2, fun hz => by simpa [hz] using a3⟩
  have noRead : ∀ k', isValue k' = false → c.given k' = false → (Except.ok none : Except PyErr (Option D)) = .ok (wanted c f isRand k') :=
    fun k' h1 h2 => by simp [wanted, h1, h2]
  have yesRead : ∀ k', isValue k' = false → c.given k' = true → c.bad f k' = false →
      (parseValue c (readData c f order) k').map some = .ok (wanted c f isRand k') :=
    fun k' h1 h2 h3 => by rw [parse k' h2 h3]; simp [wanted, h1, h2]
  cases key
  case x =>
    simp only [isRead, hhas]
    exact plain .x rfl fun h => (px h).2.2.2.2.1
  case y =>
    simp only [isRead, hhas]
    cases h : c.given .x
    · exact noRead .y rfl (pnx h).1
    · exact yesRead .y rfl (px h).1 (px h).2.2.2.2.2.1
  case z =>
    simp only [isRead, hhas]
    cases h : c.given .x
    · exact noRead .z rfl (pnx h).2.2.2.1
    · simp only [Bool.true_and]
      exact plain .z rfl (px h).2.2.2.2.2.2
  case ra =>
    simp only [isRead, hhas]
    cases h : c.given .x
    · exact plain .ra rfl fun _ => (pnx h).2.2.2.2.1
    · exact plain .ra rfl fun h' => by rw [(px h).2.1] at h'; cases h'
  case dec =>
    simp only [isRead, hhas]
    cases h : c.given .x
    · rw [if_pos (pnx h).2.1]
      exact yesRead .dec rfl (pnx h).2.2.1 (pnx h).2.2.2.2.2.1
    · rw [(px h).2.1]
      exact noRead .dec rfl (px h).2.2.1
  case r =>
    simp only [isRead, hhas]
    cases h : c.given .x
    · rw [(pnx h).2.1, Bool.true_and]
      exact plain .r rfl (pnx h).2.2.2.2.2.2
    · rw [(px h).2.1]
      exact noRead .r rfl (px h).2.2.2.1
  case patch =>
    cases h : c.given .patch
    · have : isRead c f isRand (readData c f order) .patch = false := by simp [isRead, h]
      rw [this]
      exact noRead .patch rfl h
    · obtain ⟨v, e⟩ := hv .patch (other .patch (by simp) h)
      have : isRead c f isRand (readData c f order) .patch = true := by simp [isRead, h, hd .patch h, e]
      rw [this]
      exact yesRead .patch rfl h (other .patch (by simp) h)
  case w => simp only [isRead, hhas]; exact plain .w rfl (other .w (by simp))
  case wpos => simp only [isRead, hhas]; exact plain .wpos rfl (other .wpos (by simp))
  case flag => simp only [isRead, hhas]; exact plain .flag rfl (other .flag (by simp))
  case k => exact value .k .k rfl rfl rfl
  case z1 => exact value .z1 .z1 rfl rfl rfl
  case z2 => exact value .z1 .z2 (pair (.z1, .z2) (by simp [pairs])).1 (pair (.z1, .z2) (by simp [pairs])).2 rfl
  case v1 => exact value .v1 .v1 rfl rfl rfl
  case v2 => exact value .v1 .v2 (pair (.v1, .v2) (by simp [pairs])).1 (pair (.v1, .v2) (by simp [pairs])).2 rfl
  case g1 => exact value .g1 .g1 rfl rfl rfl
  case g2 => exact value .g1 .g2 (pair (.g1, .g2) (by simp [pairs])).1 (pair (.g1, .g2) (by simp [pairs])).2 rfl
  case t1 => exact value .t1 .t1 rfl rfl rfl
  case t2 => exact value .t1 .t2 (pair (.t1, .t2) (by simp [pairs])).1 (pair (.t1, .t2) (by simp [pairs])).2 rfl
  case q1 => exact value .q1 .q1 rfl rfl rfl
  case q2 => exact value .q1 .q2 (pair (.q1, .q2) (by simp [pairs])).1 (pair (.q1, .q2) (by simp [pairs])).2 rfl

/-- **C81, columns, partly.** A file that is accepted is read, and every quantity has the numbers of its column in its extension, in
whatever order the set of extensions is gone through.  Missing: quantities computed from other columns (`eval`), and the cases in which
it is false (`read_same_name_wrong`, `read_half_wrong`). -/
theorem read_columns_partial (hp : Plain c f) (hx : c.allowXyz = false) {isRand : Bool} (hc : checkFile c f isRand = .ok ())
    {order : List String} (ho : order.Perm (allExts c)) :
    readFile c f isRand order = .ok (allKeys.map fun key => (key, wanted c f isRand key)) := by
  refine mapM_ok fun key _ => ?_
  rw [read_plain_key hp hx (accepted_iff.1 hc) ho key]
  rfl

/-- **C81, needed columns.** If a data file is accepted, all the columns that are needed are given by name or expression, and those given
by name alone are in the file. -/
theorem needed_there {isRand : Bool} (hc : checkFile c f isRand = .ok ()) {F : Fld} (hn : c.need F = true) {key : Key} (hk : key ∈ F.keys) :
    c.has key = true ∧ (isRand = false → (∀ k' ∈ F.keys, c.eval k' = none) → (f (c.ext key) (c.col key)).isSome = true) := by
  have A := accepted_iff.1 hc
  have hF : F ∈ Fld.all := by cases F <;> decide
  have h1 : ∀ k' ∈ F.keys, c.has k' = true := by
    intro k' hk'
    have := List.any_eq_false.1 (A.miss F hF) k' hk'
    simpa [hn] using this
  refine ⟨h1 key hk, fun hr he => ?_⟩
  have h2 := A.valueIn hr F hF
  have hg : ∀ k' ∈ F.keys, c.given k' = true := fun k' hk' => by simpa [Conf.has, he k' hk'] using h1 k' hk'
  have hb : c.bad f key = false := by
    unfold valueAbsent at h2
    split at h2
    · rename_i k0 l e
      rw [e] at hk hg
      simp only [hg k0 (by simp), hn, Bool.true_or, Bool.and_true, Bool.true_and, Bool.or_eq_false_iff] at h2
      rcases List.mem_cons.1 hk with rfl | hk
      · exact h2.1
      · simpa using List.any_eq_false.1 h2.2 key hk
    · rename_i e; rw [e] at hk; simp at hk
  simpa [Conf.bad, File.names] using hb

/-- **C81, order.** The order in which the extensions are read makes no difference if each extra column is in one of them only. -/
theorem read_order_partial (h1 : OneExt c f) (h2 : ∀ key, c.given key = true → c.col key ∉ c.extra) {isRand : Bool} {o o' : List String}
    (ho : o.Perm (allExts c)) (ho' : o'.Perm (allExts c)) : readFile c f isRand o = readFile c f isRand o' := by
  have : readData c f o = readData c f o' := by
    funext m
    by_cases h : ∃ e ∈ allExts c, m ∈ useCols c f e
    · obtain ⟨e, he, hu⟩ := h
      have one : ∀ e' ∈ allExts c, m ∈ useCols c f e' → e' = e := by
        intro e' he' hu'
        have key : ∀ e'' , colByExt c m = some e'' → m ≠ "0" → m ∉ c.extra := by
          intro e'' h3 h0
          unfold colByExt at h3
          cases hl : (allKeys.filter fun key => c.col key = m).getLast? with
          | none => rw [hl] at h3; simp at h3
          | some k' =>
            have := (List.mem_filter.1 (List.mem_of_getLast? hl)).2
            simp only [decide_eq_true_eq] at this
            rw [← this]
            exact h2 k' (by simpa [Conf.given, this] using h0)
        rcases mem_useCols.1 hu with ⟨a0, a1, a2⟩ | ⟨a1, a2⟩ <;> rcases mem_useCols.1 hu' with ⟨b0, b1, b2⟩ | ⟨b1, b2⟩
        · rw [a1] at b1; exact (Option.some.inj b1).symm
        · exact absurd b1 (key e a1 a0)
        · exact absurd a1 (key e' b1 b0)
        · exact h1 m a1 e' he' e he b2 a2
      rw [readData_one (ho.mem_iff.2 he) hu fun e' he' => one e' (ho.mem_iff.1 he'),
        readData_one (ho'.mem_iff.2 he) hu fun e' he' => one e' (ho'.mem_iff.1 he')]
    · push Not at h
      rw [readData_none fun e he => h e (ho.mem_iff.1 he), readData_none fun e he => h e (ho'.mem_iff.1 he)]
  unfold readFile
  rw [this]

/-! ### Cases and counterexamples -/

/-- A configuration with columns `x`, `y` in extension 1. -/
def exConf : Conf ℕ where
  col := fun key => match key with
    | .x => "X"
    | .y => "Y"
    | _ => "0"
  eval := fun _ => none
  ext := fun _ => "1"
  dflt := "1"
  extra := []
  allowXyz := false
  need := fun _ => false
  corr2 := false

/-- Two extensions with a column `V` each. -/
def exFile : File ℕ := fun e n =>
  if e = "1" then (if n = "X" then some 10 else if n = "Y" then some 11 else if n = "V" then some 12 else none)
  else if e = "2" then (if n = "V" then some 22 else none)
  else none

/-- The same with weights in extension 2. -/
def exWeight : Conf ℕ := { exConf with
  col := fun key => if key = .w then "V" else exConf.col key
  ext := fun key => if key = .w then "2" else "1" }

example : Plain exWeight exFile where
  noEval := fun _ => rfl
  sameExt := by intro a b; cases a <;> cases b <;> decide
  extraOk := by intro a _ h; simp [exWeight, exConf] at h
  halves := by decide
  zero := by intro key; cases key <;> decide

example : checkFile exWeight exFile false = .ok () := by decide

example : readFile exWeight exFile false ["1", "2"] = readFile exWeight exFile false ["2", "1"] ∧
    wanted exWeight exFile false .w = some 22 := by decide

/-- The same with scalar values that are needed: accepted with the column `V`, refused without. -/
example : checkFile { exConf with col := fun key => if key = .k then "V" else exConf.col key, need := fun F => F = .K } exFile false =
      .ok () ∧
    checkFile { exConf with need := fun F => F = .K } exFile false ≠ .ok () ∧
    checkFile { exConf with col := fun key => if key = .k then "U" else exConf.col key, need := fun F => F = .K } exFile false ≠ .ok () := by
  decide

example : OneExt exWeight exFile ∧ ∀ key, exWeight.given key = true → exWeight.col key ∉ exWeight.extra := by
  refine ⟨fun n h => ?_, fun _ _ h => ?_⟩ <;> simp [exWeight, exConf] at h

/-- **C81 fails** for two quantities under the same name in different extensions: with `w_col=V, w_ext=1, k_col=V, k_ext=2` the weights
are read from extension 2, without any error. -/
theorem read_same_name_wrong : ∃ (c : Conf ℕ) (f : File ℕ), (∀ key, c.eval key = none) ∧ c.extra = [] ∧ checkFile c f false = .ok () ∧
    (readFile c f false (allExts c)).toOption.bind (fun t => (t.lookup .w).join) = some 22 ∧ wanted c f false .w = some 12 := by
  refine ⟨{ exConf with
    col := fun key => if key = .w ∨ key = .k then "V" else exConf.col key
    ext := fun key => if key = .k then "2" else "1" }, exFile, fun _ => rfl, rfl, ?_, ?_, ?_⟩ <;> decide

/-- **C81 fails** for an extra column that is in two of the extensions: what an expression sees depends on the order in which Python
goes through a set of strings. -/
theorem read_extra_order_wrong : ∃ (c : Conf ℕ) (f : File ℕ) (o o' : List String), checkFile c f false = .ok () ∧
    o.Perm (allExts c) ∧ o'.Perm (allExts c) ∧
    (readFile c f false o).toOption.bind (fun t => (t.lookup .w).join) = some 22 ∧
    (readFile c f false o').toOption.bind (fun t => (t.lookup .w).join) = some 12 := by
  refine ⟨{ exConf with
    eval := fun key => if key = .w then some fun d => match d "V" with
      | some v => .ok v
      | none => .error .keyError else none
    ext := fun key => if key = .k then "2" else "1"
    extra := ["V"] }, exFile, ["1", "2"], ["2", "1"], ?_, ?_, ?_, ?_, ?_⟩ <;> decide

/-- **C81 fails** for a pair that is not needed and of which the file has the first column only: it is let pass with a warning, and then
the reading fails. -/
theorem read_half_wrong : ∃ (c : Conf ℕ) (f : File ℕ), c.corr2 = true ∧ c.need .G = false ∧ checkFile c f false = .ok () ∧
    readFile c f false (allExts c) = .error .keyError := by
  refine ⟨{ exConf with
    col := fun key => if key = .g1 then "V" else if key = .g2 then "U" else exConf.col key
    corr2 := true }, exFile, rfl, rfl, ?_, ?_⟩ <;> decide

/-- **C81 fails** for expressions: a column for `g1` and an expression for `g2` are refused, an expression for `g1` and nothing for `g2`
is accepted and cannot be read. -/
theorem eval_half_wrong : ∃ (c c' : Conf ℕ) (f : File ℕ), (∀ key ∈ Fld.G.keys, c.has key = true) ∧
    f (c.ext .g1) (c.col .g1) = some 12 ∧ checkFile c f false = .error .valueError ∧
    c'.has .g2 = false ∧ checkFile c' f false = .ok () ∧ readFile c' f false (allExts c') = .error .keyError := by
  refine ⟨{ exConf with
    col := fun key => if key = .g1 then "V" else exConf.col key
    eval := fun key => if key = .g2 then some fun _ => .ok 5 else none },
    { exConf with eval := fun key => if key = .g1 then some fun _ => .ok 5 else none }, exFile, ?_, ?_, ?_, ?_, ?_, ?_⟩ <;> decide

end ReadCols
end TreeCorr
