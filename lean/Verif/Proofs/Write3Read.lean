import Verif.Proofs.Write3

/-! # Files of three-point correlations: reading what was written -/

namespace TreeCorr
namespace IO3

open Classical
open TreeCorr.IO (Arr Val Dict optStr zpName ppName Chunk Reader AscState named ascii render getCol getStr getNat getRows readCov
  isShape Reads NamedAt NamedStart named_reads AscAt ascii_reads onCol Free chunkNames zpName_inj ppName_prefix ppName_inj
  covChunks covAfter readCov_ok group_nodup group_prefix names_disjoint chunkNames_append OptRel)

theorem foldl_dictSet (g : (ℤ × ℤ × ℤ) × Core → Core) :
    ∀ (rs res : List ((ℤ × ℤ × ℤ) × Core)), ((res ++ rs).map Prod.fst).Nodup →
      rs.foldl (fun res q => dictSet res q.1 (g q)) res = res ++ rs.map fun q => (q.1, g q)
  | [], res, _ => by simp
  | q :: rs, res, h => by
    have hq : ∀ p ∈ res, p.1 ≠ q.1 := by
      intro p hp e
      rw [List.map_append, List.nodup_append] at h
      exact h.2.2 p.1 (List.mem_map_of_mem hp) q.1 (by simp) e
    have hset : dictSet res q.1 (g q) = res ++ [(q.1, g q)] := by
      rw [dictSet, List.filter_eq_self.2]
      intro p hp; simpa using hq p hp
    rw [List.foldl_cons, hset, foldl_dictSet g rs]
    · simp
    · simpa using h

section
variable {σ : Type} {r : Reader σ} {ρ : ℕ → ℝ → ℝ} {lax : Prop} {At Start : σ → List Chunk → Prop}

theorem columns_ne (K : Kind) (nom : List Arr) (c : Core) (extra : List (String × Arr)) :
    columns K nom c extra ≠ [] := by simp [columns]

theorem minimal_none {cfg : Dict} {k : String} (h : dflt k = none) : minimal cfg k = none := by
  simp [minimal, h]

theorem writeParams_coords (K : Kind) (cfg : Dict) (c : Core) (fl) :
    writeParams K cfg c fl "coords" = some (optStr c.coords) := by
  unfold writeParams
  rcases fl with _ | ⟨a, b, e⟩ <;> cases K.nn <;> simp [IO.Dict.set]

theorem writeParams_metric (K : Kind) (cfg : Dict) (c : Core) (fl) :
    writeParams K cfg c fl "metric" = some (optStr c.metric) := by
  unfold writeParams
  rcases fl with _ | ⟨a, b, e⟩ <;> cases K.nn <;> simp [IO.Dict.set]

theorem writeParams_corr (K : Kind) (cfg : Dict) (c : Core) (fl) :
    writeParams K cfg c fl "corr" = some (.str K.letters) := by
  unfold writeParams
  rcases fl with _ | ⟨a, b, e⟩ <;> cases K.nn <;> simp [IO.Dict.set]

theorem writeParams_tot {K : Kind} (h : K.nn = true) (cfg : Dict) (c : Core) (fl) :
    writeParams K cfg c fl "tot" = some (.num c.tot) := by
  unfold writeParams
  rcases fl with _ | ⟨a, b, e⟩ <;> simp [IO.Dict.set, h]

/-- Keys that are neither constructor parameters nor written by `_write_params`. -/
theorem writeParams_other (K : Kind) (cfg : Dict) (c : Core) (fl) {k : String} (h0 : dflt k = none)
    (hk : k ∉ ["coords", "metric", "corr", "tot", "_rrr", "_drr", "_rdd"]) :
    writeParams K cfg c fl k = none := by
  simp only [List.mem_cons, List.not_mem_nil, or_false, not_or] at hk
  obtain ⟨h1, h2, h3, h4, h5, h6, h7⟩ := hk
  unfold writeParams
  rcases fl with _ | ⟨a, b, e⟩ <;> cases K.nn <;> simp [IO.Dict.set, minimal_none h0, *]

/-- Constructor parameters. -/
theorem writeParams_valid (K : Kind) (cfg : Dict) (c : Core) (fl) {k : String} (h0 : dflt k ≠ none)
    (hk : k ≠ "metric") : writeParams K cfg c fl k = minimal cfg k := by
  have h := mem_validNames h0
  have : k ∉ ["coords", "corr", "tot", "_rrr", "_drr", "_rdd"] := by
    have key : ∀ k ∈ validNames, k ∉ ["coords", "corr", "tot", "_rrr", "_drr", "_rdd"] := by
      unfold validNames; decide +kernel
    exact key k h
  simp only [List.mem_cons, List.not_mem_nil, or_false, not_or] at this
  obtain ⟨h1, h3, h4, h5, h6, h7⟩ := this
  unfold writeParams
  rcases fl with _ | ⟨a, b, e⟩ <;> cases K.nn <;> simp [IO.Dict.set, *]

theorem readTris_ok (R : Reads r ρ lax At Start) {K : Kind} (hK : K.OK) {cfg : Dict} {nom : List Arr}
    (hnom : ∀ a ∈ nom, a.length = size nom)
    {name : String} {c : Core} {cs : List Chunk} :
    ∀ (rs : List ((ℤ × ℤ × ℤ) × Core)) (i : ℕ) (res : List ((ℤ × ℤ × ℤ) × Core)) (s : σ),
      (∀ q ∈ rs, q.2.WF K (size nom)) → At s (ppTables K cfg nom name i rs ++ cs) →
      ∃ s', readTris r K (some name) c (size nom) (some (size nom)) i rs.length res s =
        some (rs.foldl (fun res q => dictSet res q.1 (merged K c q.2 (ρ 16))) res, s') ∧ At s' cs
  | [], i, res, s, _, h => ⟨s, rfl, h⟩
  | q :: rs, i, res, s, hq, h => by
    obtain ⟨k, c'⟩ := q
    have hc := hq (k, c') (by simp)
    obtain ⟨s1, s2, h1, h2, h3⟩ := R.table (mx := some (size nom)) h (columns_ne _ _ _ _)
      (columns_len hK hnom hc ⟨by simp, by simp⟩) (Or.inl rfl)
    obtain ⟨s', h4, h5⟩ := readTris_ok R hK hnom (cfg := cfg) (c := c) rs (i + 1)
      (dictSet res k (merged K c c' (ρ 16))) s2 (fun p hp => hq p (by simp [hp])) h3
    have h6 := readFromData_columns hK (old := c) hc (extra := []) ⟨by simp, by simp⟩ (ρ 16)
      (d := (writeParams K cfg c' none).set "key" (.key3 k))
      (by rw [IO.Dict.set_ne _ _ (by decide), writeParams_coords])
      (by rw [IO.Dict.set_ne _ _ (by decide), writeParams_metric])
      (fun hnn => by rw [IO.Dict.set_ne _ _ (by decide), writeParams_tot hnn])
    refine ⟨s', ?_, h5⟩
    simp only [List.length_cons, readTris, h1, h2, h6, Option.bind_eq_bind, Option.bind_some,
      IO.Dict.set_same, List.foldl_cons]
    exact h4

theorem readZeros_ok {K : Kind} {name : String} {c : Core} {n : ℕ} {d : Dict} :
    ∀ (rs : List ((ℤ × ℤ × ℤ) × Core)) (i : ℕ) (res : List ((ℤ × ℤ × ℤ) × Core)),
      (∀ j (h : j < rs.length), d (zpName name (i + j)) = some (.keyTot3 rs[j].1 rs[j].2.tot)) →
      readZeros K (some name) c n d i rs.length res =
        some (rs.foldl (fun res q => dictSet res q.1 (zeroCore K c n q.2.tot)) res)
  | [], _, _, _ => rfl
  | q :: rs, i, res, h => by
    have h0 := h 0 (by simp)
    simp only [List.getElem_cons_zero, Nat.add_zero] at h0
    simp only [List.length_cons, readZeros, h0, List.foldl_cons]
    refine readZeros_ok rs (i + 1) _ fun j hj => ?_
    have := h (j + 1) (by simpa using hj)
    rwa [show i + (j + 1) = i + 1 + j by omega] at this

/-! ## The header of the main table -/

/-- A name under which objects are written. -/
def GoodName (wpr : Bool) (name : String) : Prop :=
  wpr = false ∨ name = "main" ∨ name = "_rrr" ∨ name = "_drr" ∨ name = "_rdd"

theorem GoodName.free {name : String} (h : GoodName true name) {k : String}
    (hk : k ∈ validNames ∨ k ∈ ["coords", "metric", "corr", "tot", "_rrr", "_drr", "_rdd", "npatch1", "npatch2", "npatch3", "num_rows",
      "num_zero_patch", "num_patch_tri", "cov_shape"]) : Free name k := by
  have key : ∀ k ∈ validNames ++ ["coords", "metric", "corr", "tot", "_rrr", "_drr", "_rdd", "npatch1", "npatch2", "npatch3", "num_rows",
      "num_zero_patch", "num_patch_tri", "cov_shape"], Free "main" k ∧ Free "_rrr" k ∧ Free "_drr" k ∧ Free "_rdd" k := by
    unfold Free validNames
    decide +kernel
  have := key k (List.mem_append.2 hk)
  rcases h with h | rfl | rfl | rfl | rfl
  · exact absurd h (by simp)
  · exact this.1
  · exact this.2.1
  · exact this.2.2.1
  · exact this.2.2.2

variable {K : Kind} {x : Corr} {fl : Option (Bool × Bool × Bool)} {name : String} {wpr zt : Bool}
  {cov : Option (List Arr)}

/-- Entries of `_write_params` are found in the header of the main table. -/
theorem mainParams_base (hg : GoodName wpr name) {k : String}
    (hk : k ∈ validNames ∨ k ∈ ["coords", "metric", "corr", "tot", "_rrr", "_drr", "_rdd"]) :
    mainParams K x fl name wpr zt cov k = writeParams K x.cfg x.core fl k := by
  have hne : k ∉ ["npatch1", "npatch2", "npatch3", "num_rows", "num_zero_patch", "num_patch_tri", "cov_shape"] := by
    have key : ∀ k ∈ validNames ++ ["coords", "metric", "corr", "tot", "_rrr", "_drr", "_rdd"],
        k ∉ ["npatch1", "npatch2", "npatch3", "num_rows", "num_zero_patch", "num_patch_tri", "cov_shape"] := by
      unfold validNames; decide +kernel
    exact key k (List.mem_append.2 hk)
  simp only [List.mem_cons, List.not_mem_nil, or_false, not_or] at hne
  obtain ⟨h1, h2, h2', h3, h4, h5, h6⟩ := hne
  unfold mainParams
  cases wpr
  · cases cov <;> simp [IO.Dict.set, h6]
  · have hf : Free name k := hg.free (by
      rcases hk with h | h
      · exact Or.inl h
      · refine Or.inr ?_
        simp only [List.mem_cons, List.not_mem_nil, or_false] at h ⊢
        tauto)
    cases cov <;> cases zt <;> simp [IO.Dict.set, *, setZeros_free hf]

theorem other_none {k : String} (hk : k ∈ ["npatch1", "npatch2", "npatch3", "num_rows", "num_zero_patch", "num_patch_tri", "cov_shape"])
    (cfg : Dict) (c : Core) : writeParams K cfg c fl k = none := by
  have key : ∀ k ∈ ["npatch1", "npatch2", "npatch3", "num_rows", "num_zero_patch", "num_patch_tri", "cov_shape"],
      k ∉ ["coords", "metric", "corr", "tot", "_rrr", "_drr", "_rdd"] := by decide
  refine writeParams_other K cfg c fl ?_ (key k hk)
  simp only [List.mem_cons, List.not_mem_nil, or_false] at hk
  rcases hk with rfl | rfl | rfl | rfl | rfl | rfl | rfl <;> rfl

theorem mainParams_cov (hg : GoodName wpr name) :
    mainParams K x fl name wpr zt cov "cov_shape" =
      cov.map fun m => .shape (m.length, (m.headD []).length) := by
  have ho := other_none (K := K) (fl := fl) (k := "cov_shape") (by simp) x.cfg x.core
  unfold mainParams
  cases wpr
  · cases cov <;> simp [IO.Dict.set, ho]
  · have hf : Free name "cov_shape" := hg.free (by simp)
    cases cov <;> cases zt <;> simp [IO.Dict.set, setZeros_free hf, ho]

/-- The header entries about patch results. -/
theorem mainParams_pp (hg : GoodName true name) :
    mainParams K x fl name true zt cov "npatch1" = some (.int x.npatch1) ∧
    mainParams K x fl name true zt cov "npatch2" = some (.int x.npatch2) ∧
    mainParams K x fl name true zt cov "npatch3" = some (.int x.npatch3) ∧
    mainParams K x fl name true zt cov "num_rows" = some (.int (size x.nom)) ∧
    mainParams K x fl name true zt cov "num_patch_tri" = some (.int (tabled zt x.results).length) ∧
    mainParams K x fl name true zt cov "num_zero_patch" =
      (if zt then some (.int (zeroed x.results).length) else none) ∧
    (zt = true → ∀ j (h : j < (zeroed x.results).length),
      mainParams K x fl name true zt cov (zpName name (0 + j)) =
        some (.keyTot3 (zeroed x.results)[j].1 (zeroed x.results)[j].2.tot)) := by
  have f1 : Free name "npatch1" := hg.free (by simp)
  have f2 : Free name "npatch2" := hg.free (by simp)
  have f7 : Free name "npatch3" := hg.free (by simp)
  have f3 : Free name "num_rows" := hg.free (by simp)
  have f4 : Free name "num_patch_tri" := hg.free (by simp)
  have f5 : Free name "num_zero_patch" := hg.free (by simp)
  have f6 : Free name "cov_shape" := hg.free (by simp)
  have ho := other_none (K := K) (fl := fl) (k := "num_zero_patch") (by simp) x.cfg x.core
  unfold mainParams
  refine ⟨?_, ?_, ?_, ?_, ?_, ?_, ?_⟩
  · cases cov <;> cases zt <;> simp [IO.Dict.set, setZeros_free f1]
  · cases cov <;> cases zt <;> simp [IO.Dict.set, setZeros_free f2]
  · cases cov <;> cases zt <;> simp [IO.Dict.set, setZeros_free f7]
  · cases cov <;> cases zt <;> simp [IO.Dict.set, setZeros_free f3]
  · cases cov <;> cases zt <;> simp [IO.Dict.set]
  · cases cov <;> cases zt <;> simp [IO.Dict.set, ho]
  · rintro rfl j h
    have e4 := (f4.ne (0 + j)).symm
    have e5 := (f5.ne (0 + j)).symm
    have e6 := (f6.ne (0 + j)).symm
    have := fun d => setZeros_get (name := name) 0 (zeroed x.results) d j h
    cases cov <;> simp [IO.Dict.set] at * <;> simp [*]

theorem mainParams_np :
    mainParams K x fl name false zt cov "npatch1" = none ∧
    mainParams K x fl name false zt cov "npatch2" = none ∧
    mainParams K x fl name false zt cov "npatch3" = none ∧
    mainParams K x fl name false zt cov "num_rows" = none ∧
    mainParams K x fl name false zt cov "num_patch_tri" = none ∧
    mainParams K x fl name false zt cov "num_zero_patch" = none := by
  have ho := fun k hk => other_none (K := K) (fl := fl) (k := k) hk x.cfg x.core
  have h1 := ho "npatch1" (by simp)
  have h2 := ho "npatch2" (by simp)
  have h6 := ho "npatch3" (by simp)
  have h3 := ho "num_rows" (by simp)
  have h4 := ho "num_patch_tri" (by simp)
  have h5 := ho "num_zero_patch" (by simp)
  unfold mainParams
  cases cov <;> simp [IO.Dict.set, *]

/-- The object that is read. -/
noncomputable def restored (ρ : ℕ → ℝ → ℝ) (K : Kind) (x y : Corr) (wpr zt : Bool) (p pc : ℕ)
    (cov : Option (List Arr)) : Corr :=
  let c := merged K y.core x.core (ρ p)
  { y with
    core := c
    npatch1 := if wpr then x.npatch1 else 1
    npatch2 := if wpr then x.npatch2 else 1
    npatch3 := if wpr then x.npatch3 else 1
    results := if wpr then
        (if zt then (zeroed x.results).map fun q => (q.1, zeroCore K c (size x.nom) q.2.tot) else []) ++
          (tabled zt x.results).map fun q => (q.1, merged K c q.2 (ρ 16))
      else []
    cov := covAfter (ρ pc) y.cov cov }

theorem split_perm (rs : List ((ℤ × ℤ × ℤ) × Core)) : (zeroed rs ++ tabled true rs).Perm rs := by
  have := List.filter_append_perm (fun r : (ℤ × ℤ × ℤ) × Core => decide (¬ r.2.nonzero)) rs
  simpa [zeroed, tabled] using this

theorem split_nodup {rs : List ((ℤ × ℤ × ℤ) × Core)} (h : (rs.map Prod.fst).Nodup) :
    (((if zt then zeroed rs else []) ++ tabled zt rs).map Prod.fst).Nodup := by
  cases zt
  · simpa [tabled] using h
  · exact (((split_perm rs).map Prod.fst).nodup_iff).2 h

theorem readWith_ok (R : Reads r ρ lax At Start) (hK : K.OK) (hx : x.WF K)
    {extra : List (String × Arr)} (he : ExtraOK (size x.nom) extra)
    {y : Corr} (hy : y.nom = x.nom) {nameO : Option String} (hg : GoodName wpr name)
    (hname : wpr = true → nameO = some name ∨ (nameO = none ∧ name = "main" ∧
      (zt = false ∨ zeroed x.results = [] ∨ tabled zt x.results ≠ [])))
    {p pc : ℕ} {s : σ} {rest : List Chunk}
    (hm : ∀ m, cov = some m → (∃ k, 0 < k ∧ isShape (k, k) m) ∧ (2 ≤ m.length ∨ lax))
    (hread : ∀ name', name' = nameO ∨ (wpr = true ∧ name' = some name) →
      ∃ s2, r.readData name' (if wpr then some (size x.nom) else none) s =
        some ((columns K x.nom x.core extra).map (onCol (ρ p)), s2) ∧
        At s2 ((if wpr then ppTables K x.cfg x.nom name 0 (tabled zt x.results) else []) ++
          (covChunks pc cov ++ rest))) :
    ∃ s', readWith r K y nameO (mainParams K x fl name wpr zt cov) s =
      some (restored ρ K x y wpr zt p pc cov, s') ∧ At s' rest := by
  have b1 : mainParams K x fl name wpr zt cov "coords" = some (optStr x.core.coords) := by
    rw [mainParams_base hg (by simp), writeParams_coords]
  have b2 : mainParams K x fl name wpr zt cov "metric" = some (optStr x.core.metric) := by
    rw [mainParams_base hg (by simp), writeParams_metric]
  have b3 : K.nn = true → mainParams K x fl name wpr zt cov "tot" = some (.num x.core.tot) := by
    intro h
    rw [mainParams_base hg (by simp), writeParams_tot h]
  have hdata := readFromData_columns hK (old := y.core) hx.core he (ρ p) b1 b2 b3
  have hcv := mainParams_cov (K := K) (x := x) (fl := fl) (zt := zt) (cov := cov) hg
  cases wpr with
  | false =>
    obtain ⟨n1, n2, n2', n3, n4, n5⟩ := mainParams_np (K := K) (x := x) (fl := fl) (name := name) (zt := zt) (cov := cov)
    obtain ⟨s2, h1, h2⟩ := hread nameO (Or.inl rfl)
    simp only [Bool.false_eq_true, if_false, List.nil_append] at h1 h2
    obtain ⟨s', h3, h4⟩ := readCov_ok R (old := y.cov) hcv hm h2
    refine ⟨s', ?_, h4⟩
    simp only [readWith, getRows, getNat, n1, n2, n2', n3, n4, n5, Option.bind_eq_bind, Option.bind_some,
      ne_eq, not_true_eq_false, false_and, if_false, h1, hy, hdata, readZeros, readTris, h3]
    simp [restored, hy]
  | true =>
    obtain ⟨n1, n2, n2', n3, n4, n5, n6⟩ := mainParams_pp (K := K) (x := x) (fl := fl) (zt := zt) (cov := cov) hg
    set nm' : Option String := if (tabled zt x.results).length ≠ 0 ∧ nameO = none then some "main" else nameO with hnm'
    have hnm : nm' = nameO ∨ (true = true ∧ nm' = some name) := by
      rw [hnm']
      rcases hname rfl with h | ⟨h1, h2, _⟩
      · left; simp [h]
      · by_cases h0 : (tabled zt x.results).length ≠ 0 ∧ nameO = none
        · right; simp [h0, h2]
        · left; rw [if_neg h0]
    obtain ⟨s2, h1, h2⟩ := hread nm' hnm
    simp only [if_true] at h1 h2
    -- either the name is known, or there is nothing to be found by name
    have hcase : nm' = some name ∨ (tabled zt x.results = [] ∧ (if zt then zeroed x.results else []) = []) := by
      rw [hnm']
      rcases hname rfl with h | ⟨h1, h2, h3⟩
      · left; simp [h]
      · by_cases h0 : tabled zt x.results = []
        · right
          refine ⟨h0, ?_⟩
          rcases h3 with rfl | h3 | h3
          · rfl
          · cases zt <;> simp [h3]
          · exact absurd h0 h3
        · left
          have : (tabled zt x.results).length ≠ 0 := by simpa using h0
          simp [h0, h1, h2]
    have hsub : ∀ q ∈ tabled zt x.results, q ∈ x.results := by
      intro q hq
      cases zt
      · exact hq
      · exact List.mem_of_mem_filter hq
    obtain ⟨s3, h5, h6⟩ := readTris_ok R hK hx.nom (c := merged K y.core x.core (ρ p)) (name := name)
      (tabled zt x.results) 0
      ((if zt then zeroed x.results else []).foldl
        (fun res q => dictSet res q.1 (zeroCore K (merged K y.core x.core (ρ p)) (size x.nom) q.2.tot)) [])
      s2 (fun q hq => hx.results q (hsub q hq)) h2
    obtain ⟨s', h3, h4⟩ := readCov_ok R (old := y.cov) hcv hm h6
    have hz : readZeros K nm' (merged K y.core x.core (ρ p)) (size x.nom)
        (mainParams K x fl name true zt cov) 0 (if zt then zeroed x.results else []).length [] =
        some ((if zt then zeroed x.results else []).foldl
        (fun res q => dictSet res q.1 (zeroCore K (merged K y.core x.core (ρ p)) (size x.nom) q.2.tot)) []) := by
      rcases hcase with h | ⟨-, h⟩
      · rw [h]
        refine readZeros_ok _ 0 [] fun j hj => ?_
        cases zt
        · simp at hj
        · exact n6 rfl j hj
      · rw [h]; rfl
    have hp : readTris r K nm' (merged K y.core x.core (ρ p)) (size x.nom) (some (size x.nom)) 0
        (tabled zt x.results).length ((if zt then zeroed x.results else []).foldl
        (fun res q => dictSet res q.1 (zeroCore K (merged K y.core x.core (ρ p)) (size x.nom) q.2.tot)) []) s2 =
        some ((tabled zt x.results).foldl (fun res q => dictSet res q.1 (merged K (merged K y.core x.core (ρ p)) q.2 (ρ 16)))
          ((if zt then zeroed x.results else []).foldl
        (fun res q => dictSet res q.1 (zeroCore K (merged K y.core x.core (ρ p)) (size x.nom) q.2.tot)) []), s3) := by
      rcases hcase with h | ⟨h, -⟩
      · rw [h]; exact h5
      · rw [h] at h5 ⊢; exact h5
    have hnz : getNat (mainParams K x fl name true zt cov) "num_zero_patch" 0 =
        some (if zt then zeroed x.results else []).length := by
      rw [getNat, n5]
      cases zt <;> simp
    have hnd := split_nodup (zt := zt) hx.keys
    have hres : (tabled zt x.results).foldl (fun res q => dictSet res q.1 (merged K (merged K y.core x.core (ρ p)) q.2 (ρ 16)))
          ((if zt then zeroed x.results else []).foldl
        (fun res q => dictSet res q.1 (zeroCore K (merged K y.core x.core (ρ p)) (size x.nom) q.2.tot)) []) =
        (if zt then (zeroed x.results).map fun q =>
          (q.1, zeroCore K (merged K y.core x.core (ρ p)) (size x.nom) q.2.tot) else []) ++
          (tabled zt x.results).map fun q => (q.1, merged K (merged K y.core x.core (ρ p)) q.2 (ρ 16)) := by
      rw [foldl_dictSet (fun q => zeroCore K (merged K y.core x.core (ρ p)) (size x.nom) q.2.tot),
        foldl_dictSet (fun q => merged K (merged K y.core x.core (ρ p)) q.2 (ρ 16))]
      · cases zt <;> simp
      · simp only [List.nil_append, List.map_append, List.map_map, Function.comp_def] at hnd ⊢
        exact hnd
      · rw [List.map_append] at hnd
        simpa using hnd.of_append_left
    refine ⟨s', ?_, h4⟩
    simp only [readWith, getRows, getNat, n1, n2, n2', n3, n4, hnz, Option.bind_eq_bind, Option.bind_some,
      Int.toNat_natCast]
    simp only [getNat] at hnz
    simp only [hnz, Option.bind_some, ← hnm', h1, hy, hdata, hz, hp, h3, hres]
    simp [restored, hy]

/-! ## Whole files -/

theorem writeCorr_eq {extra : List (String × Arr)} {nameO : Option String} {wcov : Bool} {prec : ℕ}
    {f : List Chunk} (h : writeCorr K x extra fl nameO wpr wcov zt prec = some f) :
    ∃ nm : Option String, nm = (if nameO = none ∧ (wpr = true ∨ wcov = true) then some "main" else nameO) ∧
    ∃ cov : Option (List Arr), (wcov = true → x.cov = cov ∧ cov ≠ none) ∧ (wcov = false → cov = none) ∧
      f = .table nm prec (mainParams K x fl (nm.getD "") wpr zt cov) (columns K x.nom x.core extra) ::
        ((if wpr then ppTables K x.cfg x.nom (nm.getD "") 0 (tabled zt x.results) else []) ++
          covChunks (if wpr then 16 else prec) cov) := by
  refine ⟨_, rfl, ?_⟩
  unfold writeCorr at h
  cases wcov with
  | false =>
    refine ⟨none, by simp, by simp, ?_⟩
    simp only [Bool.false_eq_true, if_false, Option.some.injEq] at h
    rw [← h]
    simp [covChunks]
  | true =>
    cases hc : x.cov with
    | none => simp [hc] at h
    | some m =>
      refine ⟨some m, by simp, by simp, ?_⟩
      simp only [hc, if_true, Option.some.injEq] at h
      rw [← h]
      simp [covChunks]

theorem merged_fresh (hK : K.OK) {b : BinT} {kw : Dict} {c : Core} {nom : List Arr} (hc : c.WF K (size nom)) (f : ℝ → ℝ) :
    merged K (fresh K b kw nom).core c f = c.stored f := by
  have ht := hc.tot
  have hcomp := hc.comps
  unfold merged fresh Core.stored
  cases hnn : K.nn with
  | false => simp [ht hnn]
  | true =>
    by_cases hx : c.xi = []
    · have hv : c.var = [] := by
        rcases hcomp with ⟨h1, h2⟩ | ⟨_, _, h⟩
        · rw [hx] at h1
          exact absurd (List.length_eq_zero_iff.1 h1.symm) hK.xi_ne
        · exact h
      simp [hx, hv]
    · simp [hx]

theorem settings_eq (hx : x.WF K) (hg : GoodName wpr name) :
    effective (minimal (mainParams K x fl name wpr zt cov)) = x.settings := by
  obtain ⟨m, hm⟩ := Option.isSome_iff_exists.1 hx.core.metric
  rw [effective_minimal, Corr.settings, hm]
  funext k
  by_cases h0 : dflt k = none
  · simp [effective, h0]
  · have hv := mem_validNames h0
    have hb := mainParams_base (K := K) (x := x) (fl := fl) (zt := zt) (cov := cov) hg (Or.inl hv)
    obtain ⟨dv, hdv⟩ := Option.ne_none_iff_exists'.1 h0
    by_cases hk : k = "metric"
    · subst hk
      simp only [effective, hdv, hb, writeParams_metric, hm, optStr, IO.Dict.set_same]
    · have e : effective (minimal x.cfg) k = effective x.cfg k := by rw [effective_minimal]
      simp only [effective, hdv] at e
      simp only [effective, hdv, hb, writeParams_valid K x.cfg x.core fl h0 hk, IO.Dict.set_ne _ _ hk]
      exact e

theorem fromFile_ok (R : Reads r ρ lax At Start) {C : Cls} (hCK : K = kind C x.bin) (hx : x.WF K)
    {extra : List (String × Arr)} (he : ExtraOK (size x.nom) extra) {mk : Dict → Option (List Arr)}
    (hmk : Made mk x) {wcov : Bool} {prec : ℕ} {f rest : List Chunk}
    (hw : writeCorr K x extra fl none wpr wcov zt prec = some f)
    (hrest : wpr = false → rest = [])
    (hcov : ¬ lax → wcov = true → wpr = true ∧ ∀ m, x.cov = some m → 2 ≤ m.length)
    (hz : ¬ lax → wpr = true → zt = false ∨ zeroed x.results = [] ∨ tabled zt x.results ≠ [])
    {s : σ} (hs : Start s (f ++ rest)) :
    ∃ (nm : Option String) (cov : Option (List Arr)) (s' : σ), GoodName wpr (nm.getD "") ∧
      (wcov = true → x.cov = cov ∧ cov ≠ none) ∧ (wcov = false → cov = none) ∧
      fromFile r C mk s = some (restored ρ K x (fresh K x.bin
        (minimal (mainParams K x fl (nm.getD "") wpr zt cov)) x.nom) wpr zt prec
          (if wpr then 16 else prec) cov,
        mainParams K x fl (nm.getD "") wpr zt cov, s') ∧ At s' rest := by
  have hK : K.OK := by rw [hCK]; exact kind_ok C x.bin
  obtain ⟨nm, hnm, cov, hc1, hc2, rfl⟩ := writeCorr_eq hw
  have hg : GoodName wpr (nm.getD "") := by
    cases wpr
    · exact Or.inl rfl
    · right; left; simp [hnm]
  set d := mainParams K x fl (nm.getD "") wpr zt cov with hd
  have hnm' : (nm = none ∧ ((if wpr then ppTables K x.cfg x.nom (nm.getD "") 0 (tabled zt x.results) else []) ++
          covChunks (if wpr then 16 else prec) cov) ++ rest = []) ∨ nm = some "main" := by
    by_cases h : wpr = true ∨ wcov = true
    · right; simp [hnm, h]
    · left
      simp only [not_or, Bool.not_eq_true] at h
      simp [hnm, h.1, h.2, hc2 h.2, covChunks, hrest h.1]
  rw [List.cons_append] at hs
  obtain ⟨name0, s1, h1, h2, h3, h4⟩ := R.start hs (columns_ne _ _ _ _) (columns_len hK hx.nom hx.core he) hnm'
  have hcs : ∀ m, cov = some m → (∃ k, 0 < k ∧ isShape (k, k) m) ∧ (2 ≤ m.length ∨ lax) := by
    intro m hm
    have hwc : wcov = true := by
      by_contra h
      rw [hc2 (by simpa using h)] at hm
      exact absurd hm (by simp)
    have hxm : x.cov = some m := by rw [(hc1 hwc).1, hm]
    refine ⟨hx.cov m hxm, ?_⟩
    by_cases hl : lax
    · exact Or.inr hl
    · exact Or.inl ((hcov hl hwc).2 m hxm)
  obtain ⟨s', h5, h6⟩ := readWith_ok (fl := fl) (wpr := wpr) (zt := zt) (cov := cov)
    (name := nm.getD "") R hK hx he
    (y := fresh K x.bin (minimal d) x.nom) rfl (nameO := name0) hg
    (p := prec) (pc := if wpr then 16 else prec) (s := s1) (rest := rest) (by
      intro hwpr
      have hm : nm = some "main" := by simp [hnm, hwpr]
      rcases h3 with h | ⟨h, hl⟩
      · left; rw [h, hm]; rfl
      · right; exact ⟨h, by rw [hm]; rfl, hz hl hwpr⟩) hcs (by
      intro name' hn
      have hmx : (if wpr then some (size x.nom) else none) = some (size x.nom) ∨ lax ∨
          ((if wpr then some (size x.nom) else none) = none ∧
            ((if wpr then ppTables K x.cfg x.nom (nm.getD "") 0 (tabled zt x.results) else []) ++
          covChunks (if wpr then 16 else prec) cov) ++ rest = []) := by
        cases hwpr : wpr with
        | true => left; rfl
        | false =>
          right
          by_cases hl : lax
          · exact Or.inl hl
          · right
            have hwc : wcov = false := by
              by_contra h
              have := (hcov hl (by simpa using h)).1
              rw [hwpr] at this
              exact absurd this (by simp)
            simp [hc2 hwc, covChunks, hrest hwpr]
      obtain ⟨s2, h7, h8⟩ := h4 name' _ (by
        rcases hn with h | ⟨hwpr, h⟩
        · exact Or.inl h
        · right
          have hm : nm = some "main" := by simp [hnm, hwpr]
          rw [h, hm]; rfl) hmx
      exact ⟨s2, h7, by simpa [List.append_assoc] using h8⟩)
  refine ⟨nm, cov, s', hg, hc1, hc2, ?_, h6⟩
  have hcorr : d "corr" = some (.str C.letters) := by
    rw [hd, mainParams_base hg (by simp), writeParams_corr, hCK, kind_letters]
  have hcon : construct C mk (minimal d) = some (fresh K x.bin (minimal d) x.nom) := by
    rw [construct, settings_eq hx hg, hmk.1, hmk.2, hCK]; rfl
  have hb : (fresh K x.bin (minimal d) x.nom).bin = x.bin := rfl
  rw [← hd] at h5 ⊢
  simp only [fromFile, h1, h2, Option.bind_eq_bind, Option.bind_some, hcorr, if_true, hcon, hb, ← hCK, h5]

theorem stored_zeroCore {f : ℝ → ℝ} (hf : f 0 = 0) (c : Core) (n : ℕ) (t : ℝ) :
    (zeroCore K c n t).stored f = zeroCore K c n t := by
  simp [Core.stored, zeroCore, hf]

theorem sameData_merged {c q : Core} {n : ℕ} (hq : q.WF K n) (hc : K.nn = false → c.tot = 0)
    (f : ℝ → ℝ) : SameData K (merged K c q f) (q.stored f) := by
  refine ⟨rfl, rfl, rfl, rfl, rfl, ?_, ?_⟩
  · cases h : K.nn
    · simp [merged, h, Core.stored, hc h, hq.tot h]
    · simp [merged, h, Core.stored]
  · intro h
    simp [merged, h]

theorem mem_zeroed {rs : List ((ℤ × ℤ × ℤ) × Core)} {q : (ℤ × ℤ × ℤ) × Core} :
    q ∈ zeroed rs ↔ q ∈ rs ∧ ¬ q.2.nonzero := by
  simp [zeroed]

/-- The restored patch results hold the stored data. -/
theorem restored_results (hx : x.WF K) {y : Corr} (hy : K.nn = false → y.core.tot = 0) {p pc : ℕ}
    (hzt : zt = true → K.nn = true) (h0 : ρ 16 0 = 0) :
    ((restored ρ K x y true zt p pc cov).results.map Prod.fst).Perm (x.results.map Prod.fst) ∧
    ∀ k c, (k, c) ∈ x.results → ∃ c', (k, c') ∈ (restored ρ K x y true zt p pc cov).results ∧
      SameData K c' (c.stored (ρ 16)) := by
  have ht : K.nn = false → (merged K y.core x.core (ρ p)).tot = 0 := by
    intro h
    simp [merged, h, hy h]
  constructor
  · cases zt
    · simp [restored, tabled, Function.comp_def]
    · have := (split_perm x.results).map Prod.fst
      simpa [restored, Function.comp_def] using this
  · intro k c hc
    have hwf := hx.results _ hc
    simp only [restored, if_true, List.mem_append]
    cases zt with
    | false =>
      refine ⟨_, Or.inr (List.mem_map.2 ⟨(k, c), by simpa [tabled] using hc, rfl⟩), ?_⟩
      exact sameData_merged hwf ht _
    | true =>
      by_cases hn : c.nonzero
      · refine ⟨_, Or.inr (List.mem_map.2 ⟨(k, c), by simp [tabled, hc, hn], rfl⟩), ?_⟩
        exact sameData_merged hwf ht _
      · refine ⟨_, Or.inl (by
          rw [if_pos rfl]
          exact List.mem_map.2 ⟨(k, c), mem_zeroed.2 ⟨hc, hn⟩, rfl⟩), ?_⟩
        have hz : c = zeroCore K x.core (size x.nom) c.tot := hx.zeros _ hc (hzt rfl) hn
        rw [hz, stored_zeroCore h0]
        refine ⟨rfl, rfl, rfl, rfl, rfl, rfl, fun h => ?_⟩
        rw [hzt rfl] at h
        exact absurd h (by simp)

/-- The generic round trip. -/
theorem restored_ok (hK : K.OK) (hx : x.WF K) {p pc : ℕ} {wcov : Bool} (hzt : zt = true → K.nn = true)
    (h0 : ρ 16 0 = 0) (hc1 : wcov = true → x.cov = cov ∧ cov ≠ none) (hg : GoodName wpr name) :
    Restored K (Core.stored (ρ p)) (Core.stored (ρ 16)) (ρ pc) wpr wcov x
      (restored ρ K x (fresh K x.bin (minimal (mainParams K x fl name wpr zt cov)) x.nom) wpr zt p pc cov) := by
  refine ⟨merged_fresh hK hx.core _, rfl, rfl, settings_eq hx hg, ?_, ?_, ?_, ?_⟩
  · rintro rfl; exact ⟨rfl, rfl, rfl⟩
  · rintro rfl; exact (restored_results hx (fun _ => rfl) hzt h0).1
  · rintro rfl; exact (restored_results hx (fun _ => rfl) hzt h0).2
  · intro h
    obtain ⟨m, hm⟩ := Option.ne_none_iff_exists'.1 (hc1 h).2
    rw [(hc1 h).1, hm]; rfl

/-- Without printing errors nothing changes. -/
theorem stored_id {c : Core} (h : c.VarOK) : c.stored (fun v => v) = c := by
  have hv : c.var.map (List.map fun v => Real.sqrt v ^ 2) = c.var := by
    conv_rhs => rw [← List.map_id c.var]
    refine List.map_congr_left fun a ha => ?_
    conv_rhs => rw [id, ← List.map_id a]
    exact List.map_congr_left fun v hv => Real.sq_sqrt (h a ha v hv)
  ext1 <;> simp [Core.stored, hv]

/-! ## Names in a file -/

theorem ppTables_names (cfg : Dict) (nom : List Arr) : ∀ (rs : List ((ℤ × ℤ × ℤ) × Core)) (i : ℕ),
    chunkNames (ppTables K cfg nom name i rs) = (List.range' i rs.length).map (ppName name)
  | [], _ => rfl
  | q :: rs, i => by
    obtain ⟨k, c⟩ := q
    have := ppTables_names cfg nom rs (i + 1)
    simp only [chunkNames] at this ⊢
    simp only [ppTables, List.filterMap_cons, Chunk.name, this, List.length_cons, List.range'_succ,
      List.map_cons]

theorem writeCorr_names {extra : List (String × Arr)} {nm : String} {wcov : Bool} {prec : ℕ}
    {f : List Chunk} (h : writeCorr K x extra fl (some nm) true wcov zt prec = some f) (hw : wcov = false) :
    chunkNames f = nm :: (List.range' 0 (tabled zt x.results).length).map (ppName nm) := by
  obtain ⟨nm', hnm, cov, -, hc2, rfl⟩ := writeCorr_eq h
  simp only [reduceCtorEq, false_and, if_false] at hnm
  subst hnm
  have := ppTables_names (K := K) (name := nm) x.cfg x.nom (tabled zt x.results) 0
  simp only [chunkNames] at this
  simp [chunkNames, Chunk.name, hc2 hw, covChunks, this]

theorem writeMain_names {extra : List (String × Arr)} {wcov : Bool} {prec : ℕ}
    {f : List Chunk} (h : writeCorr K x extra fl none wpr wcov zt prec = some f) :
    (chunkNames f).Nodup ∧ ∀ s ∈ chunkNames f, "main".toList <+: s.toList ∨ "cov".toList <+: s.toList := by
  obtain ⟨nm', hnm, cov, -, hc2, rfl⟩ := writeCorr_eq h
  have hcov : ∀ p (c : Option (List Arr)), (chunkNames (covChunks p c)).Sublist ["cov"] := by
    intro p c; cases c <;> simp [chunkNames, covChunks, Chunk.name]
  have key : ∀ n, ((("main" :: (List.range' 0 n).map (ppName "main")) ++ ["cov"]).Nodup) := by
    intro n
    rw [List.nodup_append]
    refine ⟨group_nodup _ _ _, by simp, ?_⟩
    intro a ha b hb e
    have := group_prefix ha
    rw [e, List.mem_singleton.1 hb] at this
    exact absurd this (by decide +kernel)
  have hpre : ∀ n, ∀ s ∈ ("main" :: (List.range' 0 n).map (ppName "main")) ++ ["cov"],
      "main".toList <+: s.toList ∨ "cov".toList <+: s.toList := by
    intro n s hs
    rcases List.mem_append.1 hs with h | h
    · exact Or.inl (group_prefix h)
    · rw [List.mem_singleton.1 h]; exact Or.inr (List.prefix_refl _)
  suffices hsub : ∃ n, (chunkNames (.table nm' prec (mainParams K x fl (nm'.getD "") wpr zt cov) (columns K x.nom x.core extra) ::
        ((if wpr then ppTables K x.cfg x.nom (nm'.getD "") 0 (tabled zt x.results) else []) ++
          covChunks (if wpr then 16 else prec) cov))).Sublist
      (("main" :: (List.range' 0 n).map (ppName "main")) ++ ["cov"]) by
    obtain ⟨n, hn⟩ := hsub
    exact ⟨hn.nodup (key n), fun s hs => hpre n s (hn.subset hs)⟩
  by_cases hm : wpr = true ∨ wcov = true
  · have e : nm' = some "main" := by simp [hnm, hm]
    subst e
    cases wpr with
    | true =>
      refine ⟨(tabled zt x.results).length, ?_⟩
      have := ppTables_names (K := K) (name := "main") x.cfg x.nom (tabled zt x.results) 0
      have hc := hcov 16 cov
      simp only [chunkNames] at this hc
      simp only [chunkNames, List.filterMap_cons, Chunk.name, if_true, List.filterMap_append,
        Option.getD_some, this, List.cons_append]
      exact List.Sublist.cons_cons _ (List.Sublist.append (List.Sublist.refl _) hc)
    | false =>
      refine ⟨0, ?_⟩
      have hc := hcov prec cov
      simp only [chunkNames] at hc
      simpa [chunkNames, Chunk.name] using hc
  · simp only [not_or, Bool.not_eq_true] at hm
    have e : nm' = none := by simp [hnm, hm.1, hm.2]
    subst e
    refine ⟨0, ?_⟩
    simp [chunkNames, Chunk.name, hm.1, hc2 hm.2, covChunks]

theorem lookup_letters (C : Cls) : lookup C.letters = some C := by
  cases C <;> rfl

/-- The base class finds the class of the file. -/
theorem fromFileAny_of {C : Cls} {mk : Dict → Option (List Arr)} {s s' : σ} {y : Corr} {d : Dict}
    (h : fromFile r C mk s = some (y, d, s')) : fromFileAny r mk s = some (C, y, d, s') := by
  have h' := h
  unfold fromFile at h
  unfold fromFileAny
  cases h1 : r.readParams (if r.contains "main" s then some "main" else none) s with
  | none => simp [h1] at h
  | some a =>
    obtain ⟨d1, s1⟩ := a
    simp only [h1, Option.bind_eq_bind, Option.bind_some] at h ⊢
    cases h2 : d1 "corr" with
    | none => simp [h2] at h
    | some v =>
      cases v with
      | str l =>
        simp only [h2] at h ⊢
        by_cases hl : l = C.letters
        · subst hl
          rw [lookup_letters]
          simp [h']
        · simp [hl] at h
      | _ => simp [h2] at h

/-! ## NNN -/

theorem readOpt_ok (R : Reads r ρ lax At Start) (hK : K.OK) (hnn : K.nn = true) {xo : Option Corr} {y : Corr} {d : Dict}
    (hn : name = "_rrr" ∨ name = "_drr" ∨ name = "_rdd")
    (hx : ∀ x, xo = some x → x.WF K ∧ x.nom = y.nom)
    (hd : d name = some (.flag xo.isSome)) {f rest : List Chunk} (hw : writeOpt K xo name = some f) (h0 : ρ 16 0 = 0)
    {s : σ} (hs : At s (f ++ rest)) :
    ∃ o s', readOpt r K y d name s = some (o, s') ∧ At s' rest ∧
      OptRel (RestoredRan K (Core.stored (ρ 16)) (Core.stored (ρ 16))) xo o := by
  cases xo with
  | none =>
    simp only [writeOpt, Option.some.injEq] at hw
    subst hw
    refine ⟨none, s, ?_, by simpa using hs, trivial⟩
    simp [readOpt, hd]
  | some x =>
    obtain ⟨hwf, hb⟩ := hx x rfl
    obtain ⟨nm, hnm, cov, -, hc2, rfl⟩ := writeCorr_eq (K := K) (x := x) (extra := []) (fl := none)
      (nameO := some name) (wpr := true) (wcov := false) (zt := true) (prec := 16) hw
    simp only [reduceCtorEq, false_and, if_false] at hnm
    subst hnm
    have hcov := hc2 rfl
    subst hcov
    rw [List.cons_append] at hs
    have hg : GoodName true name := Or.inr (Or.inr hn)
    have he : ExtraOK (size x.nom) [] := ⟨by simp, by simp⟩
    obtain ⟨s1, s2, h1, h2, h3⟩ := R.table (mx := some (size x.nom)) hs (columns_ne _ _ _ _)
      (columns_len hK hwf.nom hwf.core he) (Or.inl rfl)
    obtain ⟨s', h5, h6⟩ := readWith_ok (fl := none) (wpr := true) (zt := true) (cov := none)
      (name := name) R hK hwf he (y := y) hb.symm (nameO := some name) hg (p := 16) (pc := 16)
      (s := s1) (rest := rest) (fun _ => Or.inl rfl) (by simp) (by
        intro name' h
        have : name' = some name := by
          rcases h with h | ⟨_, h⟩ <;> exact h
        subst this
        exact ⟨s2, h2, by simpa [covChunks] using h3⟩)
    refine ⟨some (restored ρ K x y true true 16 16 none), s', ?_, h6, ?_⟩
    · simp only [readOpt, hd, Option.isSome_some, readNamed]
      rw [h1]
      simp only [Option.bind_eq_bind, Option.bind_some]
      simp only [Option.getD_some] at h5 ⊢
      rw [h5]
      rfl
    · obtain ⟨k1, k2⟩ := restored_results (ρ := ρ) (cov := none) (zt := true) hwf (y := y) (p := 16) (pc := 16)
        (by simp [hnn]) (fun _ => hnn) h0
      exact ⟨sameData_merged hwf.core (by simp [hnn]) _, ⟨rfl, rfl, rfl⟩, k1, k2⟩

theorem writeParams_flags (K : Kind) (cfg : Dict) (c : Core) (a b e : Bool) :
    writeParams K cfg c (some (a, b, e)) "_rrr" = some (.flag a) ∧
    writeParams K cfg c (some (a, b, e)) "_drr" = some (.flag b) ∧
    writeParams K cfg c (some (a, b, e)) "_rdd" = some (.flag e) := by
  unfold writeParams
  cases K.nn <;> simp [IO.Dict.set]

theorem writeParams_noflags (K : Kind) (cfg : Dict) (c : Core) {k : String}
    (hk : k = "_rrr" ∨ k = "_drr" ∨ k = "_rdd") : writeParams K cfg c none k = none := by
  rcases hk with rfl | rfl | rfl <;> unfold writeParams <;> cases K.nn <;>
    simp [IO.Dict.set, minimal, dflt]

/-- The parts of an NN file. -/
theorem writeNNN_eq {x : CorrNNN} {extra : List (String × Arr)} {wcov : Bool} {prec : ℕ} {f : List Chunk}
    (hK : K = kind .nnn x.main.bin) (h : writeNNN x extra wpr wcov prec = some f) :
    ∃ m rest, f = m ++ rest ∧ writeCorr K x.main extra
        (if wpr then some (x.rrr.isSome, x.drr.isSome, x.rdd.isSome) else none) none wpr wcov true prec = some m ∧
      (wpr = false → rest = []) ∧
      (wpr = true → ∃ a b c, writeOpt K x.rrr "_rrr" = some a ∧ writeOpt K x.drr "_drr" = some b ∧
        writeOpt K x.rdd "_rdd" = some c ∧ rest = a ++ (b ++ c)) := by
  subst hK
  unfold writeNNN at h
  split at h
  · exact absurd h (by simp)
  simp only [Option.bind_eq_bind] at h
  rw [Option.bind_eq_some_iff] at h
  obtain ⟨m, hm, h⟩ := h
  cases wpr with
  | false =>
    simp only [Bool.false_eq_true, if_false, Option.some.injEq] at h
    exact ⟨m, [], by simp [h], hm, fun _ => rfl, by simp⟩
  | true =>
    simp only [if_true, Option.bind_eq_some_iff, Option.some.injEq] at h
    obtain ⟨a, ha, b, hb, c, hc, rfl⟩ := h
    exact ⟨m, _, rfl, hm, by simp, fun _ => ⟨a, b, c, ha, hb, hc, rfl⟩⟩

theorem fromFileNNN_ok (R : Reads r ρ lax At Start) (h0 : ρ 16 0 = 0) {x : CorrNNN} (hCK : K = kind .nnn x.main.bin)
    (hx : x.main.WF K)
    (hran : ∀ y, x.rrr = some y ∨ x.drr = some y ∨ x.rdd = some y → y.WF K ∧ y.nom = x.main.nom)
    {extra : List (String × Arr)} (he : ExtraOK (size x.main.nom) extra) {mk : Dict → Option (List Arr)}
    (hmk : Made mk x.main) {wcov : Bool} {prec : ℕ} {f : List Chunk}
    (hw : writeNNN x extra wpr wcov prec = some f)
    (hcov : ¬ lax → wcov = true → wpr = true ∧ ∀ m, x.main.cov = some m → 2 ≤ m.length)
    (hz : ¬ lax → wpr = true → zeroed x.main.results = [] ∨ tabled true x.main.results ≠ [])
    {s : σ} (hs : Start s f) :
    ∃ y s', fromFileNNN r mk s = some (y, s') ∧
      Restored K (Core.stored (ρ prec)) (Core.stored (ρ 16)) (ρ (if wpr then 16 else prec)) wpr wcov
        x.main y.main ∧
      (wpr = true → OptRel (RestoredRan K (Core.stored (ρ 16)) (Core.stored (ρ 16))) x.rrr y.rrr ∧
        OptRel (RestoredRan K (Core.stored (ρ 16)) (Core.stored (ρ 16))) x.drr y.drr ∧
        OptRel (RestoredRan K (Core.stored (ρ 16)) (Core.stored (ρ 16))) x.rdd y.rdd) := by
  obtain ⟨m, rest, rfl, hm, hr0, hr1⟩ := writeNNN_eq hCK hw
  have hK : K.OK := by rw [hCK]; exact kind_ok .nnn _
  have hnn : K.nn = true := by rw [hCK, kind_nn]
  obtain ⟨nm, cov, s', hg, hc1, hc2, h1, h2⟩ := fromFile_ok R hCK hx he hmk hm hr0 hcov
    (fun hl hwp => Or.inr (hz hl hwp)) hs
  have hR := restored_ok (ρ := ρ) (p := prec) (pc := if wpr then 16 else prec)
    (fl := if wpr then some (x.rrr.isSome, x.drr.isSome, x.rdd.isSome) else none) (zt := true) hK hx
    (fun _ => hnn) h0 hc1 hg
  have hrn := hR.nom
  have hrb := hR.bin
  generalize restored ρ K x.main _ wpr true prec (if wpr then 16 else prec) cov = T at h1 hR hrn hrb
  cases wpr with
  | false =>
    have hno : ∀ k, (k = "_rrr" ∨ k = "_drr" ∨ k = "_rdd") →
        mainParams K x.main none (nm.getD "") false true cov k = none := by
      intro k hk
      rw [mainParams_base hg (by rcases hk with rfl | rfl | rfl <;> simp), writeParams_noflags _ _ _ hk]
    refine ⟨⟨T, none, none, none⟩, s', ?_, hR, by simp⟩
    simp only [Bool.false_eq_true, if_false] at h1
    simp only [fromFileNNN, Option.bind_eq_bind, h1, Option.bind_some, hrb, ← hCK, readOpt,
      hno "_rrr" (by simp), hno "_drr" (by simp), hno "_rdd" (by simp)]
  | true =>
    obtain ⟨a, b, c, ha, hb, hc, rfl⟩ := hr1 rfl
    simp only [if_true] at h1
    have hf := writeParams_flags K x.main.cfg x.main.core x.rrr.isSome x.drr.isSome x.rdd.isSome
    have d1 := mainParams_base (K := K) (x := x.main) (zt := true) (cov := cov)
      (fl := some (x.rrr.isSome, x.drr.isSome, x.rdd.isSome)) hg (k := "_rrr") (by simp)
    have d2 := mainParams_base (K := K) (x := x.main) (zt := true) (cov := cov)
      (fl := some (x.rrr.isSome, x.drr.isSome, x.rdd.isSome)) hg (k := "_drr") (by simp)
    have d3 := mainParams_base (K := K) (x := x.main) (zt := true) (cov := cov)
      (fl := some (x.rrr.isSome, x.drr.isSome, x.rdd.isSome)) hg (k := "_rdd") (by simp)
    rw [hf.1] at d1; rw [hf.2.1] at d2; rw [hf.2.2] at d3
    obtain ⟨o1, s1, e1, t1, q1⟩ := readOpt_ok R hK hnn (by simp) (fun y hy => by rw [hrn]; exact hran y (by simp [hy])) d1 ha h0 h2 (y := T)
    obtain ⟨o2, s2, e2, t2, q2⟩ := readOpt_ok R hK hnn (by simp) (fun y hy => by rw [hrn]; exact hran y (by simp [hy])) d2 hb h0 t1 (y := T)
    obtain ⟨o3, s3, e3, t3, q3⟩ := readOpt_ok R hK hnn (by simp) (fun y hy => by rw [hrn]; exact hran y (by simp [hy])) d3 hc h0
      (by simpa using t2) (rest := []) (y := T)
    refine ⟨⟨T, o1, o2, o3⟩, s3, ?_, hR, fun _ => ⟨q1, q2, q3⟩⟩
    simp only [fromFileNNN, Option.bind_eq_bind, h1, Option.bind_some, hrb, ← hCK, e1, e2, e3, if_true]

theorem writeOpt_names {xo : Option Corr} {f : List Chunk} (h : writeOpt K xo name = some f) :
    (chunkNames f).Nodup ∧ ∀ s ∈ chunkNames f, name.toList <+: s.toList := by
  cases xo with
  | none =>
    simp only [writeOpt, Option.some.injEq] at h
    subst h
    simp [chunkNames]
  | some x =>
    have := writeCorr_names (K := K) (x := x) (extra := []) (fl := none) (nm := name) (wcov := false)
      (zt := true) (prec := 16) h rfl
    rw [this]
    exact ⟨group_nodup _ _ _, fun s hs => group_prefix hs⟩

theorem writeNNN_names {x : CorrNNN} {extra : List (String × Arr)} {wcov : Bool} {prec : ℕ} {f : List Chunk}
    (h : writeNNN x extra wpr wcov prec = some f) : (chunkNames f).Nodup := by
  obtain ⟨m, rest, rfl, hm, hr0, hr1⟩ := writeNNN_eq rfl h
  obtain ⟨n1, n2⟩ := writeMain_names hm
  cases wpr with
  | false => rw [hr0 rfl]; simpa using n1
  | true =>
    obtain ⟨a, b, c, ha, hb, hc, rfl⟩ := hr1 rfl
    obtain ⟨a1, a2⟩ := writeOpt_names ha
    obtain ⟨b1, b2⟩ := writeOpt_names hb
    obtain ⟨c1, c2⟩ := writeOpt_names hc
    simp only [chunkNames_append, List.nodup_append]
    have ab := names_disjoint a2 b2 (by decide +kernel) (by decide +kernel)
    have ac := names_disjoint a2 c2 (by decide +kernel) (by decide +kernel)
    have bc := names_disjoint b2 c2 (by decide +kernel) (by decide +kernel)
    have main : ∀ {l : List String} {q : List Char}, (∀ s ∈ l, q <+: s.toList) →
        (¬ "main".toList <+: q ∧ ¬ q <+: "main".toList ∧ ¬ "cov".toList <+: q ∧ ¬ q <+: "cov".toList) →
        ∀ s ∈ chunkNames m, ∀ t ∈ l, s ≠ t := by
      rintro l q hl ⟨h1, h2, h3, h4⟩ s hs t ht rfl
      rcases n2 s hs with h | h
      · rcases List.prefix_or_prefix_of_prefix h (hl s ht) with h' | h'
        · exact h1 h'
        · exact h2 h'
      · rcases List.prefix_or_prefix_of_prefix h (hl s ht) with h' | h'
        · exact h3 h'
        · exact h4 h'
    have ma := main a2 (by decide +kernel)
    have mb := main b2 (by decide +kernel)
    have mc := main c2 (by decide +kernel)
    refine ⟨n1, ⟨a1, ⟨b1, c1, bc⟩, ?_⟩, ?_⟩
    · intro s hs t ht
      rcases List.mem_append.1 ht with ht | ht
      · exact ab s hs t ht
      · exact ac s hs t ht
    · intro s hs t ht
      rcases List.mem_append.1 ht with ht | ht
      · exact ma s hs t ht
      · rcases List.mem_append.1 ht with ht | ht
        · exact mb s hs t ht
        · exact mc s hs t ht

end
end IO3
end TreeCorr
