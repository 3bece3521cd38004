import Verif.Proofs.Write3Read
import Verif.Props.Write

/-!
# C86: a saved three-point correlation can be read back
-/

namespace TreeCorr
namespace IO3

open Classical
open TreeCorr.IO (Arr Val Dict optStr zpName ppName Chunk Reader AscState named ascii render getCol getStr getNat getRows readCov
  isShape Reads NamedAt NamedStart named_reads AscAt ascii_reads onCol Free chunkNames OptRel covChunks Line tableRows
  tableRows_length tableRows_width render_table takeRows takeRows_two mem_of_lookup ascData ascParams ascArray)

/-- No printing: the numbers come back as they are. -/
theorem restored_exact {K : Kind} {x y : Corr} {wpr wcov : Bool}
    (h : Restored K (Core.stored fun v => v) (Core.stored fun v => v) (fun v => v) wpr wcov x y)
    (hv : x.core.VarOK) (hr : ∀ r ∈ x.results, r.2.VarOK) : Restored K id id id wpr wcov x y := by
  refine ⟨?_, h.nom, h.bin, h.settings, h.npatch, h.keys, ?_, ?_⟩
  · rw [h.core, stored_id hv]; rfl
  · intro hw k c hc
    obtain ⟨c', h1, h2⟩ := h.results hw k c hc
    rw [stored_id (hr _ hc)] at h2
    exact ⟨c', h1, h2⟩
  · intro hw
    rw [h.cov hw]
    cases x.cov <;> simp

/-- **C86, FITS and HDF5, KKK and GGG, all kinds of bins.**  Whatever options `write` was given,
`from_file` of the class and of `Corr3` make an object with the same bins, settings, arrays and errors; with
`write_patch_results` also the same patch results, and with `write_cov` the same covariance matrix
(a real one). -/
theorem write_read3_named {C : Cls} (hC : C ≠ .nnn) {x : Corr} (hx : x.WF (kind C x.bin))
    (hv : x.core.VarOK) (hr : ∀ r ∈ x.results, r.2.VarOK) {mk : Dict → Option (List Arr)}
    (hmk : Made mk x) {wpr wcov : Bool} {prec : ℕ} {f : List Chunk}
    (hw : writeCorr (kind C x.bin) x [] none none wpr wcov false prec = some f) :
    ∃ y d s, fromFile named C mk f = some (y, d, s) ∧ fromFileAny named mk f = some (C, y, d, s) ∧
      Restored (kind C x.bin) id id id wpr wcov x y := by
  have hok := kind_ok C x.bin
  obtain ⟨nm, cov, s', hg, hc1, hc2, h1, -⟩ := fromFile_ok named_reads rfl hx (extra := [])
    ⟨by simp, by simp⟩ hmk hw (rest := []) (fun _ => rfl) (fun h => absurd trivial h)
    (fun h => absurd trivial h) (s := f) ⟨(writeMain_names hw).1, List.append_nil f⟩
  refine ⟨_, _, _, h1, ?_, restored_exact (restored_ok (ρ := fun _ v => v)
    (zt := false) hok hx (fun h => absurd h (by decide)) rfl hc1 hg) hv hr⟩
  exact fromFileAny_of h1

/-- **C86, ASCII, KKK and GGG.**  The same up to the digits printed: `precision` for the main
table, 16 for the patch results.  Missing: `write_cov` needs `write_patch_results`, at least two
entries and a real matrix, see `ascii3_cov_wrong`, `TreeCorr.IO.ascii_cov_single_wrong` and
`ascii3_cplx_cov_wrong`. -/
theorem write_read3_ascii_partial {C : Cls} (hC : C ≠ .nnn) {x : Corr} (hx : x.WF (kind C x.bin))
    {mk : Dict → Option (List Arr)} (hmk : Made mk x) {wpr wcov : Bool} {prec : ℕ} {f : List Chunk}
    (hcov : wcov = true → wpr = true ∧ ∀ m, x.cov = some m → 2 ≤ m.length)
    (hw : writeCorr (kind C x.bin) x [] none none wpr wcov false prec = some f)
    {ρ : ℕ → ℝ → ℝ} (h0 : ρ 16 0 = 0) (h : List String) :
    ∃ y d s, fromFile ascii C mk (h, f.flatMap (render ρ)) = some (y, d, s) ∧
      fromFileAny ascii mk (h, f.flatMap (render ρ)) = some (C, y, d, s) ∧
      Restored (kind C x.bin) (Core.stored (ρ prec)) (Core.stored (ρ 16)) (ρ 16) wpr wcov x y := by
  have hok := kind_ok C x.bin
  obtain ⟨nm, cov, s', hg, hc1, hc2, h1, -⟩ := fromFile_ok (ascii_reads ρ) rfl hx (extra := [])
    ⟨by simp, by simp⟩ hmk hw (rest := []) (fun _ => rfl) (fun _ => hcov)
    (fun _ _ => Or.inl rfl) (s := (h, f.flatMap (render ρ))) (by simp [AscAt])
  refine ⟨_, _, _, h1, fromFileAny_of h1, ?_⟩
  have hR := restored_ok (ρ := ρ) (p := prec) (pc := if wpr then 16 else prec) (fl := none) (zt := false) hok hx
    (by simp) h0 hc1 hg
  refine ⟨hR.core, hR.nom, hR.bin, hR.settings, hR.npatch, hR.keys, hR.results, ?_⟩
  intro hwc
  obtain rfl := (hcov hwc).1
  simpa using hR.cov hwc

/-! ## NNN -/

/-- **C86, NNN, FITS and HDF5.**  With `write_patch_results` the randoms given to `calculateZeta` are restored as well. -/
theorem write_read_nnn_named {x : CorrNNN} (hx : x.WF) (hv : x.main.core.VarOK)
    (hr : ∀ r ∈ x.main.results, r.2.VarOK) {extra : List (String × Arr)} (he : ExtraOK (size x.main.nom) extra)
    {mk : Dict → Option (List Arr)} (hmk : Made mk x.main) {wpr wcov : Bool} {prec : ℕ}
    {f : List Chunk} (hw : writeNNN x extra wpr wcov prec = some f) :
    ∃ y s, fromFileNNN named mk f = some (y, s) ∧ Restored (kind .nnn x.main.bin) id id id wpr wcov x.main y.main ∧
      (wpr = true → OptRel (RestoredRan (kind .nnn x.main.bin) (Core.stored fun v => v) (Core.stored fun v => v)) x.rrr y.rrr ∧
        OptRel (RestoredRan (kind .nnn x.main.bin) (Core.stored fun v => v) (Core.stored fun v => v)) x.drr y.drr ∧
        OptRel (RestoredRan (kind .nnn x.main.bin) (Core.stored fun v => v) (Core.stored fun v => v)) x.rdd y.rdd) := by
  obtain ⟨y, s, h1, h2, h3⟩ := fromFileNNN_ok named_reads rfl rfl hx.main hx.ran he hmk hw
    (fun h => absurd trivial h) (fun h => absurd trivial h) (s := f)
    ⟨writeNNN_names hw, rfl⟩
  refine ⟨y, s, h1, restored_exact ⟨h2.core, h2.nom, h2.bin, h2.settings, h2.npatch, h2.keys, h2.results, h2.cov⟩ hv hr, h3⟩

/-- **C86, NNN, ASCII**, with what fails left out: the covariance as above, and files in which all patch triples are empty
(`ascii3_zero_patches_wrong`). -/
theorem write_read_nnn_ascii_partial {x : CorrNNN} (hx : x.WF) {extra : List (String × Arr)}
    (he : ExtraOK (size x.main.nom) extra) {mk : Dict → Option (List Arr)}
    (hmk : Made mk x.main) {wpr wcov : Bool} {prec : ℕ} {f : List Chunk}
    (hw : writeNNN x extra wpr wcov prec = some f)
    (hcov : wcov = true → wpr = true ∧ ∀ m, x.main.cov = some m → 2 ≤ m.length)
    (hz : wpr = true → (∃ r ∈ x.main.results, r.2.nonzero) ∨ x.main.results = [])
    {ρ : ℕ → ℝ → ℝ} (h0 : ρ 16 0 = 0) (h : List String) :
    ∃ y s, fromFileNNN ascii mk (h, f.flatMap (render ρ)) = some (y, s) ∧
      Restored (kind .nnn x.main.bin) (Core.stored (ρ prec)) (Core.stored (ρ 16)) (ρ 16) wpr wcov x.main y.main ∧
      (wpr = true → OptRel (RestoredRan (kind .nnn x.main.bin) (Core.stored (ρ 16)) (Core.stored (ρ 16))) x.rrr y.rrr ∧
        OptRel (RestoredRan (kind .nnn x.main.bin) (Core.stored (ρ 16)) (Core.stored (ρ 16))) x.drr y.drr ∧
        OptRel (RestoredRan (kind .nnn x.main.bin) (Core.stored (ρ 16)) (Core.stored (ρ 16))) x.rdd y.rdd) := by
  obtain ⟨y, s, h1, h2, h3⟩ := fromFileNNN_ok (ascii_reads ρ) h0 rfl hx.main hx.ran he hmk hw (fun _ => hcov)
    (fun _ hwp => by
      rcases hz hwp with ⟨q, hq, hn⟩ | h
      · right
        intro he
        have : q ∈ tabled true x.main.results := by simp [tabled, hq, hn]
        rw [he] at this
        exact absurd this (by simp)
      · left; simp [h, zeroed]) (s := (h, f.flatMap (render ρ))) rfl
  refine ⟨y, s, h1, ⟨h2.core, h2.nom, h2.bin, h2.settings, h2.npatch, h2.keys, h2.results, ?_⟩, h3⟩
  intro hwc
  obtain rfl := (hcov hwc).1
  simpa using h2.cov hwc

/-! ## What fails -/

/-- A column that has the wrong length stops the reading. -/
theorem readWith_short {K : Kind} {y : Corr} {name : Option String} {d : Dict} {s : AscState}
    (h : ∀ mx cols s', getRows d = some mx → ascData mx s = some (cols, s') →
      ∀ c ∈ cols, c.2.length ≠ size y.nom) : readWith ascii K y name d s = none := by
  unfold readWith
  cases hg : getRows d with
  | none => simp
  | some mx =>
    cases getNat d "num_patch_tri" 0 with
    | none => simp
    | some npt =>
      cases getNat d "num_zero_patch" 0 with
      | none => simp
      | some nzp =>
        cases hd : ascData mx s with
        | none => simp [ascii, hd]
        | some q =>
          obtain ⟨cols, s'⟩ := q
          have hc : getCol (size y.nom) cols "ntri" = none := by
            unfold getCol
            cases hl : cols.lookup "ntri" with
            | none => rfl
            | some a =>
              have := h mx cols s' hg hd ("ntri", a) (mem_of_lookup hl)
              simp only
              rw [if_neg this]
          have hr : readFromData K (size y.nom) y.core cols d = none := by
            unfold readFromData
            cases K.means.mapM (getCol (size y.nom) cols) with
            | none => rfl
            | some m =>
              cases K.weight.mapM (getCol (size y.nom) cols) with
              | none => rfl
              | some w => simp [hc]
          simp [ascii, hd, hr]

/-- **C86 fails**: an ASCII file written with `write_cov=True` and without `write_patch_results` can never be read.  The
number of rows is not in its header, so the rows of the covariance matrix are taken for rows of the table. -/
theorem ascii3_cov_wrong {C : Cls} {x : Corr} (hx : x.WF (kind C x.bin)) {mk : Dict → Option (List Arr)}
    (hmk : Made mk x) {zt : Bool} {prec : ℕ}
    {f : List Chunk} (hw : writeCorr (kind C x.bin) x [] none none false true zt prec = some f) (ρ : ℕ → ℝ → ℝ) (h : List String) :
    fromFile ascii C mk (h, f.flatMap (render ρ)) = none := by
  have hok := kind_ok C x.bin
  obtain ⟨nm, hnm, cov, hc1, -, rfl⟩ := writeCorr_eq hw
  obtain ⟨hxc, hne⟩ := hc1 rfl
  obtain ⟨m, rfl⟩ := Option.ne_none_iff_exists'.1 hne
  obtain ⟨k, hk, hm1, hm2⟩ := hx.cov m hxc
  simp only [or_true, and_true, if_true] at hnm
  subst hnm
  have he : ExtraOK (size x.nom) [] := ⟨by simp, by simp⟩
  set cols := columns (kind C x.bin) x.nom x.core [] with hcols
  have hl : (tableRows (ρ prec) cols).length = size x.nom :=
    tableRows_length _ (columns_ne _ _ _ _) (columns_len hok hx.nom hx.core he)
  set d := mainParams (kind C x.bin) x none ((some "main").getD "") false zt (some m) with hdd
  have hd : getRows d = some none := by
    rw [getRows, hdd, (mainParams_np (K := kind C x.bin) (x := x) (fl := none) (zt := zt)).2.2.2.1]
  have hlines : (Chunk.table (some "main") prec d cols ::
      ((if false = true then ppTables (kind C x.bin) x.cfg x.nom ((some "main").getD "") 0 (tabled zt x.results) else []) ++
        covChunks (if false = true then 16 else prec) (some m))).flatMap (render ρ) =
      .name "main" :: .params d :: .head (cols.map Prod.fst) :: ((tableRows (ρ prec) cols).map Line.row ++
        (.name "cov" :: (m.map (List.map (ρ prec))).map Line.row)) := by
    rw [List.flatMap_cons, render_table]
    simp [covChunks, render, Function.comp_def]
  rw [hlines]
  have hset : effective (minimal d) = x.settings := settings_eq hx (Or.inl rfl)
  have hbad : readWith ascii (kind C x.bin) (fresh (kind C x.bin) x.bin (minimal d) x.nom) none d (cols.map Prod.fst,
      (tableRows (ρ prec) cols).map Line.row ++ (.name "cov" :: (m.map (List.map (ρ prec))).map Line.row)) = none := by
    refine readWith_short fun mx cols' s' hg ha c hc => ?_
    rw [hd] at hg
    obtain rfl := Option.some.inj hg
    have ht := takeRows_two (tableRows (ρ prec) cols) (m.map (List.map (ρ prec))) "cov"
      (tableRows_width (ρ prec) cols)
    rw [ascData] at ha
    rcases ht with ht | ht
    · simp only [ht] at ha; exact absurd ha (by simp)
    · simp only [ht, Option.map_some, Option.some.injEq, Prod.mk.injEq] at ha
      obtain ⟨rfl, -⟩ := ha
      simp only [List.mem_map] at hc
      obtain ⟨q, -, rfl⟩ := hc
      simp only [List.length_map, List.length_append, hl, hm1, fresh]
      omega
  have hcorr : fromFile ascii C mk (h, .name "main" :: .params d :: .head (cols.map Prod.fst) ::
      ((tableRows (ρ prec) cols).map Line.row ++ (.name "cov" :: (m.map (List.map (ρ prec))).map Line.row))) = none := by
    rw [fromFile]
    simp only [ascii, Bool.false_eq_true, if_false, ascParams, ne_eq, not_true_eq_false, false_and,
      Option.bind_eq_bind, Option.bind_some]
    split
    · split
      · rw [construct, hset, hmk.1, hmk.2]
        have hb : (fresh (kind C x.bin) x.bin (minimal d) x.nom).bin = x.bin := rfl
        simp only [Option.bind_eq_bind, Option.bind_some, hb]
        have := hbad
        simp only [ascii] at this
        rw [this]
        rfl
      · rfl
    · rfl
  exact hcorr

/-- Numbered empty patch triples and no others: the name of the table is missing. -/
theorem readWith_noname {σ : Type} {r : Reader σ} {K : Kind} {y : Corr} {d : Dict} {s : σ} {k : ℕ}
    (h1 : getNat d "num_patch_tri" 0 = some 0) (h2 : getNat d "num_zero_patch" 0 = some (k + 1)) :
    readWith r K y none d s = none := by
  unfold readWith
  simp only [h1, h2, Option.bind_eq_bind, Option.bind_some, ne_eq, not_true_eq_false, false_and, if_false]
  rw [Option.bind_eq_none_iff]
  intro mx _
  rw [Option.bind_eq_none_iff]
  intro q _
  rw [Option.bind_eq_none_iff]
  intro c _
  rw [Option.bind_eq_none_iff]
  intro a _
  rw [Option.bind_eq_none_iff]
  intro b _
  rw [Option.bind_eq_none_iff]
  intro e _
  rfl

/-- **C86 fails**: an ASCII file of NNN counts with patches, none of which has a triangle, can not be read: the names of the
header entries are made from a name that is missing. -/
theorem ascii3_zero_patches_wrong {x : Corr} {fl : Option (Bool × Bool × Bool)} {extra : List (String × Arr)}
    (hz : ∀ r ∈ x.results, ¬ r.2.nonzero) (hne : x.results ≠ []) {mk : Dict → Option (List Arr)}
    {wcov : Bool} {prec : ℕ} {f : List Chunk} (hw : writeCorr (kind .nnn x.bin) x extra fl none true wcov true prec = some f)
    (ρ : ℕ → ℝ → ℝ) (h : List String) (rest : List Line) :
    fromFile ascii .nnn mk (h, f.flatMap (render ρ) ++ rest) = none := by
  obtain ⟨nm, hnm, cov, -, -, rfl⟩ := writeCorr_eq hw
  simp only [true_or, and_true, if_true] at hnm
  subst hnm
  rw [List.flatMap_cons, render_table]
  simp only [fromFile, ascii, Bool.false_eq_true, if_false, ascParams, ne_eq, not_true_eq_false, false_and,
    Option.bind_eq_bind, Option.bind_some, List.cons_append, List.nil_append]
  split
  · split
    · rw [Option.bind_eq_none_iff]
      intro y hy
      have hpp := mainParams_pp (K := (kind .nnn x.bin)) (x := x) (fl := fl) (name := (some "main").getD "") (zt := true) (cov := cov)
        (Or.inr (Or.inl rfl))
      have hzl : zeroed x.results = x.results := by
        rw [zeroed, List.filter_eq_self]
        intro r hr
        simpa using hz r hr
      have htl : tabled true x.results = [] := by
        simp only [tabled, if_true, List.filter_eq_nil_iff]
        intro r hr
        simpa using hz r hr
      obtain ⟨k, hk⟩ : ∃ k, x.results.length = k + 1 :=
        ⟨x.results.length - 1, by have := List.length_pos_of_ne_nil hne; omega⟩
      have := readWith_noname (r := ascii) (K := kind .nnn y.bin) (y := y) (k := k)
        (d := mainParams (kind .nnn x.bin) x fl ((some "main").getD "") true true cov)
        (s := ((columns (kind .nnn x.bin) x.nom x.core extra).map Prod.fst,
          ((tableRows (ρ prec) (columns (kind .nnn x.bin) x.nom x.core extra)).map Line.row ++
            (((if true = true then ppTables (kind .nnn x.bin) x.cfg x.nom ((some "main").getD "") 0 (tabled true x.results)
              else []) ++ covChunks (if true = true then 16 else prec) cov).flatMap (render ρ))) ++ rest))
        (by rw [getNat, hpp.2.2.2.2.1, htl]; rfl) (by rw [getNat, hpp.2.2.2.2.2.1, hzl, hk]; rfl)
      simp only [ascii] at this
      rw [this]
      rfl
    · rfl
  · rfl

/-- The covariance as it is found in an ASCII file, whatever the width of a row: a row of complex
numbers has three cells per number. -/
theorem cplxRow_length (row : List (ℝ × ℝ)) : (cplxRow row).length = 3 * row.length := by
  induction row with
  | nil => rfl
  | cons a l ih =>
    rw [cplxRow] at ih ⊢
    rw [List.flatMap_cons, List.length_append, ih, List.length_cons]
    simp only [List.length_cons, List.length_nil]
    omega

/-- **C86 fails**: a complex covariance matrix, which GGG has with jackknife or any other sampling method,
can not be read from an ASCII file: a row has three times as many cells as the header says. -/
theorem ascii3_cplx_cov_wrong {k : ℕ} (hk : 0 < k) {m : List (List (ℝ × ℝ))} (h1 : m.length = k)
    (h2 : ∀ r ∈ m, r.length = k) : readCells (k, k) (m.map cplxRow) = none := by
  rw [readCells, if_neg]
  rintro ⟨-, -, h3⟩
  obtain ⟨r, l, rfl⟩ := List.exists_cons_of_length_pos (h1 ▸ hk : 0 < m.length)
  have := h3 (cplxRow r) (by simp)
  rw [cplxRow_length, h2 r (by simp)] at this
  simp only at this
  omega

example : readCells (2, 2) ([[(1, 0), (0, 2)], [(0, -2), (3, 0)]].map cplxRow) = none :=
  ascii3_cplx_cov_wrong (k := 2) (by decide) rfl (by simp)

/-! ## Examples -/

/-- A processed GGG object with two LogMultipole bins and two patch results. -/
noncomputable def exCore (C : Cls) (b : BinT) (v : ℝ) : Core :=
  { coords := some "flat", metric := some "Euclidean", means := (kind C b).means.map fun _ => [1, v]
    weight := (kind C b).weight.map fun _ => [v, 2], ntri := [v, 5]
    xi := (kind C b).xi.map fun _ => [7, v], var := (kind C b).sigma.map fun _ => [4, 0], tot := 0 }

noncomputable def ex3 (C : Cls) (b : BinT) (cov : Option (List Arr)) : Corr :=
  { cfg := fun k => if k = "bin_type" then some (.str (match b with
      | .ruv => "LogRUV" | .sas => "LogSAS" | .multi => "LogMultipole")) else none
    bin := b, nom := [[1, 2], [3, 3], [0, 1]], core := exCore C b 3
    npatch1 := 2, npatch2 := 1, npatch3 := 1
    results := [((0, 0, 0), exCore C b 2), ((1, 0, 0), exCore C b 1)], cov := cov }

theorem exCore_wf {C : Cls} (hC : C ≠ .nnn) (b : BinT) (v : ℝ) : (exCore C b v).WF (kind C b) 2 := by
  refine ⟨⟨by simp [exCore], ?_⟩, ⟨by simp [exCore], ?_⟩, rfl, Or.inl ⟨by simp [exCore], by simp [exCore]⟩, ?_, ?_,
    rfl, rfl, fun _ => rfl⟩ <;>
  · intro a ha
    simp only [exCore, List.mem_map] at ha
    obtain ⟨_, _, rfl⟩ := ha
    rfl

theorem ex3_wf {C : Cls} (hC : C ≠ .nnn) (b : BinT) {cov : Option (List Arr)}
    (hc : cov = none ∨ cov = some [[1, 0], [0, 0]]) : (ex3 C b cov).WF (kind C (ex3 C b cov).bin) where
  nom := by simp [ex3, size]
  core := exCore_wf hC b 3
  results := by
    intro r hr
    simp only [ex3, List.mem_cons, List.not_mem_nil, or_false] at hr
    rcases hr with rfl | rfl <;> exact exCore_wf hC b _
  keys := by simp [ex3]
  zeros := fun _ _ h => absurd ((kind_nn _ _).1 h) hC
  cov := by
    intro m hm
    rcases hc with rfl | rfl
    · exact absurd hm (by simp [ex3])
    · obtain rfl : [[1, 0], [0, 0]] = m := by simpa [ex3] using hm
      exact ⟨2, by decide, rfl, by simp⟩

theorem exCore_var (C b v) : (exCore C b v).VarOK := by
  intro a ha
  simp only [exCore, List.mem_map] at ha
  obtain ⟨_, _, rfl⟩ := ha
  simp

theorem ex3_var (C b cov) : (ex3 C b cov).core.VarOK ∧ ∀ r ∈ (ex3 C b cov).results, r.2.VarOK := by
  refine ⟨exCore_var _ _ _, fun r hr => ?_⟩
  simp only [ex3, List.mem_cons, List.not_mem_nil, or_false] at hr
  rcases hr with rfl | rfl <;> exact exCore_var _ _ _

/-- The nominal values of the example. -/
noncomputable def exMk : Dict → Option (List Arr) := fun _ => some [[1, 2], [3, 3], [0, 1]]

theorem ex3_made (C b cov) : Made exMk (ex3 C b cov) := by
  refine ⟨rfl, ?_⟩
  cases b <;> simp [ex3, binType, Corr.settings, effective, dflt, exCore, IO.Dict.set]

/-- `write_read3_named` with all options, for GGG and KKK and all kinds of bins. -/
example {C : Cls} (hC : C ≠ .nnn) (b : BinT) : ∃ f y d s,
    writeCorr (kind C b) (ex3 C b (some [[1, 0], [0, 0]])) [] none none true true false 4 = some f ∧
    fromFileAny named exMk f = some (C, y, d, s) ∧
    y.core = exCore C b 3 ∧ y.cov = some [[1, 0], [0, 0]] ∧ y.npatch1 = 2 ∧
    (y.results.map Prod.fst).Perm [(0, 0, 0), (1, 0, 0)] := by
  obtain ⟨f, hf⟩ : ∃ f, writeCorr (kind C b) (ex3 C b (some [[1, 0], [0, 0]])) [] none none true true false 4 = some f :=
    ⟨_, rfl⟩
  obtain ⟨y, d, s, -, h1, h3⟩ := write_read3_named hC (ex3_wf hC b (Or.inr rfl)) (ex3_var _ _ _).1
    (ex3_var _ _ _).2 (ex3_made C b _) hf
  exact ⟨f, y, d, s, hf, h1, h3.core, by simpa [ex3] using h3.cov rfl, (h3.npatch rfl).1, h3.keys rfl⟩

/-- `write_read3_ascii_partial`: the main table with one digit, the rest with all of them. -/
example : ∃ f y d s, writeCorr (kind .ggg .sas) (ex3 .ggg .sas (some [[1, 0], [0, 0]])) [] none none true true false 4 = some f ∧
    fromFile ascii .ggg exMk ([], f.flatMap (render fun p v => if p = 16 then v else 0)) =
      some (y, d, s) ∧ y.core.ntri = [0, 0] ∧ y.cov = some [[1, 0], [0, 0]] := by
  obtain ⟨f, hf⟩ : ∃ f, writeCorr (kind .ggg .sas) (ex3 .ggg .sas (some [[1, 0], [0, 0]])) [] none none true true false 4 = some f :=
    ⟨_, rfl⟩
  obtain ⟨y, d, s, h1, -, h3⟩ := write_read3_ascii_partial (C := .ggg) (by decide) (ex3_wf (by decide) .sas (Or.inr rfl))
    (ex3_made _ _ _) (fun _ => ⟨rfl, fun m hm => by
      obtain rfl : [[1, 0], [0, 0]] = m := by simpa [ex3] using hm
      simp⟩) hf (ρ := fun p v => if p = 16 then v else 0) (by simp) []
  refine ⟨f, y, d, s, hf, h1, ?_, by simpa [ex3] using h3.cov rfl⟩
  rw [h3.core]
  simp [ex3, exCore, Core.stored]

/-- `ascii3_cov_wrong`: a covariance, no patch results. -/
example (ρ : ℕ → ℝ → ℝ) : ∃ f, writeCorr (kind .kkk .multi) (ex3 .kkk .multi (some [[1, 0], [0, 0]])) [] none none false true false 4 = some f ∧
    fromFile ascii .kkk exMk ([], f.flatMap (render ρ)) = none :=
  ⟨_, rfl, ascii3_cov_wrong (C := .kkk) (x := ex3 .kkk .multi (some [[1, 0], [0, 0]])) (ex3_wf (by decide) .multi (Or.inr rfl))
    (ex3_made _ _ _) rfl ρ []⟩

/-- Counts of triangles. -/
noncomputable def exNcore (b : BinT) (v : ℝ) (z : Bool) : Core :=
  { exCore .nnn b v with
    xi := if z then [[7, v]] else [], var := if z then [[4, 0]] else [], tot := 9 }

theorem exNcore_wf (b : BinT) (v : ℝ) (z : Bool) : (exNcore b v z).WF (kind .nnn b) 2 := by
  refine ⟨⟨by simp [exNcore, exCore], ?_⟩, ⟨by simp [exNcore, exCore], ?_⟩, rfl, ?_, ?_, ?_,
    rfl, rfl, fun h => absurd h (by simp [kind])⟩
  · intro a ha
    simp only [exNcore, exCore, List.mem_map] at ha
    obtain ⟨_, _, rfl⟩ := ha
    rfl
  · intro a ha
    simp only [exNcore, exCore, List.mem_map] at ha
    obtain ⟨_, _, rfl⟩ := ha
    rfl
  · cases z
    · exact Or.inr ⟨rfl, rfl, rfl⟩
    · exact Or.inl ⟨rfl, rfl⟩
  · cases z <;> simp [exNcore]
  · cases z <;> simp [exNcore]

theorem exNcore_nonzero (b v z) : (exNcore b v z).nonzero := ⟨5, by simp [exNcore, exCore], by norm_num⟩

/-- NNN counts with an empty patch triple, and randoms. -/
noncomputable def exNNN (b : BinT) : CorrNNN :=
  { main := { ex3 .nnn b none with
              core := exNcore b 3 true
              results := [((0, 0, 0), exNcore b 3 false), ((0, 0, 1), zeroCore (kind .nnn b) (exNcore b 3 true) 2 5)] }
    rrr := some { ex3 .nnn b none with core := exNcore b 1 false, results := [((0, 0, 0), exNcore b 1 false)] }
    drr := none, rdd := none }

theorem exNNN_wf (b : BinT) : (exNNN b).WF where
  main :=
    { nom := by simp [exNNN, ex3, size]
      core := exNcore_wf b 3 true
      results := by
        intro r hr
        simp only [exNNN, List.mem_cons, List.not_mem_nil, or_false] at hr
        rcases hr with rfl | rfl
        · exact exNcore_wf b 3 false
        · exact ⟨⟨by simp [zeroCore, exNNN, ex3], by simp [zeroCore, ex3, exNNN, size]⟩,
            ⟨by simp [zeroCore, exNNN, ex3], by simp [zeroCore, ex3, exNNN, size]⟩, rfl, Or.inr ⟨rfl, rfl, rfl⟩, by simp [zeroCore],
            by simp [zeroCore], rfl, rfl, fun h => absurd h (by simp [kind])⟩
      keys := by simp [exNNN]
      zeros := by
        intro r hr _ hn
        simp only [exNNN, List.mem_cons, List.not_mem_nil, or_false] at hr
        rcases hr with rfl | rfl
        · exact absurd (exNcore_nonzero _ _ _) hn
        · rfl
      cov := fun m hm => absurd hm (by simp [exNNN, ex3]) }
  ran := by
    intro y hy
    obtain rfl : _ = y := by simpa [exNNN] using hy
    refine ⟨⟨by simp [ex3, size], exNcore_wf b 1 false, ?_, by simp, ?_, by simp [ex3]⟩, rfl⟩
    · intro r hr
      simp only [List.mem_cons, List.not_mem_nil, or_false] at hr
      subst hr
      exact exNcore_wf b 1 false
    · intro r hr _ hn
      simp only [List.mem_cons, List.not_mem_nil, or_false] at hr
      subst hr
      exact absurd (exNcore_nonzero _ _ _) hn

theorem exNNN_made (b) : Made exMk (exNNN b).main := by
  refine ⟨rfl, ?_⟩
  cases b <;> simp [exNNN, ex3, binType, Corr.settings, effective, dflt, exNcore, exCore, IO.Dict.set]

/-- `write_read_nnn_ascii_partial`: the randoms come back. -/
example (ρ : ℕ → ℝ → ℝ) (h0 : ρ 16 0 = 0) : ∃ f y s, writeNNN (exNNN .ruv) [("RRR", [1, 0])] true false 4 = some f ∧
    fromFileNNN ascii exMk ([], f.flatMap (render ρ)) = some (y, s) ∧ y.rrr.isSome ∧ y.drr = none := by
  obtain ⟨f, hf⟩ : ∃ f, writeNNN (exNNN .ruv) [("RRR", [1, 0])] true false 4 = some f := by
    simp [writeNNN, exNNN, ex3, writeOpt, writeCorr]
  obtain ⟨y, s, h1, -, h3⟩ := write_read_nnn_ascii_partial (exNNN_wf .ruv) (extra := [("RRR", [1, 0])])
    ⟨by simp, by simp [exNNN, ex3, size]⟩ (exNNN_made _) hf (fun h => absurd h (by decide))
    (fun _ => Or.inl ⟨((0, 0, 0), exNcore .ruv 3 false), by simp [exNNN], exNcore_nonzero _ _ _⟩) h0 []
  refine ⟨f, y, s, hf, h1, ?_, ?_⟩
  · have := (h3 rfl).1
    revert this
    cases y.rrr <;> simp [OptRel, exNNN]
  · have := (h3 rfl).2.1
    revert this
    cases y.drr <;> simp [OptRel, exNNN]

/-- `write_read_nnn_named`, for every kind of bins. -/
example (b : BinT) : ∃ f y s, writeNNN (exNNN b) [] true false 4 = some f ∧
    fromFileNNN named exMk f = some (y, s) ∧ y.main.core = exNcore b 3 true := by
  obtain ⟨f, hf⟩ : ∃ f, writeNNN (exNNN b) [] true false 4 = some f := by
    simp [writeNNN, exNNN, ex3, writeOpt, writeCorr]
  obtain ⟨y, s, h1, h2, -⟩ := write_read_nnn_named (exNNN_wf b) (by simp [exNNN, exNcore, Core.VarOK]) (by
    intro r hr
    simp only [exNNN, List.mem_cons, List.not_mem_nil, or_false] at hr
    rcases hr with rfl | rfl <;> simp [exNcore, zeroCore, Core.VarOK])
    (extra := []) ⟨by simp, by simp⟩ (exNNN_made b) hf
  exact ⟨f, y, s, hf, h1, h2.core⟩

/-- `ascii3_zero_patches_wrong`: one patch triple, empty. -/
example (ρ : ℕ → ℝ → ℝ) (mk : Dict → Option (List Arr)) : ∃ f, writeCorr (kind .nnn (exNNN .sas).main.bin)
    { (exNNN .sas).main with results := [((0, 0, 0), zeroCore (kind .nnn .sas) (exNNN .sas).main.core 2 5)] }
      [] none none true false true 4 = some f ∧
    fromFile ascii .nnn mk ([], f.flatMap (render ρ)) = none :=
  ⟨_, rfl, by
    have := ascii3_zero_patches_wrong
      (x := { (exNNN .sas).main with results := [((0, 0, 0), zeroCore (kind .nnn .sas) (exNNN .sas).main.core 2 5)] })
      (fl := none) (extra := []) (by simp [zeroCore, Core.nonzero]) (by simp) (mk := mk) (wcov := false)
      (prec := 4) rfl ρ [] []
    simpa only [List.append_nil] using this⟩

/-- **C86, the columns of the file**, by name, for every class and kind of bins.  The first three are NNN
before `calculateZeta`. -/
theorem file3_columns (co me : Option String) (t : ℝ) (a b c d1 l1 d2 l2 d3 l3 e f w w' nt z z' v g0r g0i g1r g1i g2r g2i g3r g3i v0 v1 v2
    v3 : Arr) :
    columns (kind .nnn .ruv) [a, b, c] ⟨co, me, [d1, l1, d2, l2, d3, l3, e, f], [w], nt,
        [], [], t⟩ [] =
      [("r_nom", a), ("u_nom", b), ("v_nom", c), ("meand1", d1), ("meanlogd1", l1), ("meand2", d2),
        ("meanlogd2", l2), ("meand3", d3), ("meanlogd3", l3), ("meanu", e), ("meanv", f), ("DDD", w), ("ntri", nt)] ∧
    columns (kind .nnn .sas) [a, b, c] ⟨co, me, [d1, l1, d2, l2, d3, l3, e], [w], nt,
        [], [], t⟩ [] =
      [("d2_nom", a), ("d3_nom", b), ("phi_nom", c), ("meand1", d1), ("meanlogd1", l1), ("meand2", d2),
        ("meanlogd2", l2), ("meand3", d3), ("meanlogd3", l3), ("meanphi", e), ("DDD", w), ("ntri", nt)] ∧
    columns (kind .nnn .multi) [a, b, c] ⟨co, me, [d1, l1, d2, l2, d3, l3], [w, w'], nt,
        [], [], t⟩ [] =
      [("d2_nom", a), ("d3_nom", b), ("n", c), ("meand1", d1), ("meanlogd1", l1), ("meand2", d2), ("meanlogd2", l2),
        ("meand3", d3), ("meanlogd3", l3), ("weight_re", w), ("weight_im", w'),
        ("DDD", List.zipWith (fun x y => Real.sqrt (x ^ 2 + y ^ 2)) w w'), ("ntri", nt)] ∧
    columns (kind .nnn .ruv) [a, b, c] ⟨co, me, [d1, l1, d2, l2, d3, l3, e, f], [w], nt,
        [z], [v], t⟩ [] =
      [("r_nom", a), ("u_nom", b), ("v_nom", c), ("meand1", d1), ("meanlogd1", l1), ("meand2", d2),
        ("meanlogd2", l2), ("meand3", d3), ("meanlogd3", l3), ("meanu", e), ("meanv", f), ("zeta", z),
        ("sigma_zeta", v.map Real.sqrt), ("DDD", w), ("ntri", nt)] ∧
    columns (kind .nnn .sas) [a, b, c] ⟨co, me, [d1, l1, d2, l2, d3, l3, e], [w], nt,
        [z], [v], t⟩ [] =
      [("d2_nom", a), ("d3_nom", b), ("phi_nom", c), ("meand1", d1), ("meanlogd1", l1), ("meand2", d2),
        ("meanlogd2", l2), ("meand3", d3), ("meanlogd3", l3), ("meanphi", e), ("zeta", z),
        ("sigma_zeta", v.map Real.sqrt), ("DDD", w), ("ntri", nt)] ∧
    columns (kind .nnn .multi) [a, b, c] ⟨co, me, [d1, l1, d2, l2, d3, l3], [w, w'], nt,
        [z], [v], t⟩ [] =
      [("d2_nom", a), ("d3_nom", b), ("n", c), ("meand1", d1), ("meanlogd1", l1), ("meand2", d2), ("meanlogd2", l2),
        ("meand3", d3), ("meanlogd3", l3), ("zeta", z), ("sigma_zeta", v.map Real.sqrt), ("weight_re", w),
        ("weight_im", w'), ("DDD", List.zipWith (fun x y => Real.sqrt (x ^ 2 + y ^ 2)) w w'), ("ntri", nt)] ∧
    columns (kind .kkk .ruv) [a, b, c] ⟨co, me, [d1, l1, d2, l2, d3, l3, e, f], [w], nt,
        [z], [v], t⟩ [] =
      [("r_nom", a), ("u_nom", b), ("v_nom", c), ("meand1", d1), ("meanlogd1", l1), ("meand2", d2),
        ("meanlogd2", l2), ("meand3", d3), ("meanlogd3", l3), ("meanu", e), ("meanv", f), ("zeta", z),
        ("sigma_zeta", v.map Real.sqrt), ("weight", w), ("ntri", nt)] ∧
    columns (kind .kkk .sas) [a, b, c] ⟨co, me, [d1, l1, d2, l2, d3, l3, e], [w], nt,
        [z], [v], t⟩ [] =
      [("d2_nom", a), ("d3_nom", b), ("phi_nom", c), ("meand1", d1), ("meanlogd1", l1), ("meand2", d2),
        ("meanlogd2", l2), ("meand3", d3), ("meanlogd3", l3), ("meanphi", e), ("zeta", z),
        ("sigma_zeta", v.map Real.sqrt), ("weight", w), ("ntri", nt)] ∧
    columns (kind .kkk .multi) [a, b, c] ⟨co, me, [d1, l1, d2, l2, d3, l3], [w, w'], nt,
        [z, z'], [v], t⟩ [] =
      [("d2_nom", a), ("d3_nom", b), ("n", c), ("meand1", d1), ("meanlogd1", l1), ("meand2", d2), ("meanlogd2", l2),
        ("meand3", d3), ("meanlogd3", l3), ("zeta_re", z), ("zeta_im", z'), ("sigma_zeta", v.map Real.sqrt),
        ("weight_re", w), ("weight_im", w'), ("ntri", nt)] ∧
    columns (kind .ggg .ruv) [a, b, c] ⟨co, me, [d1, l1, d2, l2, d3, l3, e, f], [w], nt,
        [g0r, g0i, g1r, g1i, g2r, g2i, g3r, g3i], [v0, v1, v2, v3], t⟩ [] =
      [("r_nom", a), ("u_nom", b), ("v_nom", c), ("meand1", d1), ("meanlogd1", l1), ("meand2", d2),
        ("meanlogd2", l2), ("meand3", d3), ("meanlogd3", l3), ("meanu", e), ("meanv", f), ("gam0r", g0r),
        ("gam0i", g0i), ("gam1r", g1r), ("gam1i", g1i), ("gam2r", g2r), ("gam2i", g2i), ("gam3r", g3r),
        ("gam3i", g3i), ("sigma_gam0", v0.map Real.sqrt), ("sigma_gam1", v1.map Real.sqrt),
        ("sigma_gam2", v2.map Real.sqrt), ("sigma_gam3", v3.map Real.sqrt), ("weight", w), ("ntri", nt)] ∧
    columns (kind .ggg .sas) [a, b, c] ⟨co, me, [d1, l1, d2, l2, d3, l3, e], [w], nt,
        [g0r, g0i, g1r, g1i, g2r, g2i, g3r, g3i], [v0, v1, v2, v3], t⟩ [] =
      [("d2_nom", a), ("d3_nom", b), ("phi_nom", c), ("meand1", d1), ("meanlogd1", l1), ("meand2", d2),
        ("meanlogd2", l2), ("meand3", d3), ("meanlogd3", l3), ("meanphi", e), ("gam0r", g0r), ("gam0i", g0i),
        ("gam1r", g1r), ("gam1i", g1i), ("gam2r", g2r), ("gam2i", g2i), ("gam3r", g3r), ("gam3i", g3i),
        ("sigma_gam0", v0.map Real.sqrt), ("sigma_gam1", v1.map Real.sqrt), ("sigma_gam2", v2.map Real.sqrt),
        ("sigma_gam3", v3.map Real.sqrt), ("weight", w), ("ntri", nt)] ∧
    columns (kind .ggg .multi) [a, b, c] ⟨co, me, [d1, l1, d2, l2, d3, l3], [w, w'], nt,
        [g0r, g0i, g1r, g1i, g2r, g2i, g3r, g3i], [v0, v1, v2, v3], t⟩ [] =
      [("d2_nom", a), ("d3_nom", b), ("n", c), ("meand1", d1), ("meanlogd1", l1), ("meand2", d2), ("meanlogd2", l2),
        ("meand3", d3), ("meanlogd3", l3), ("gam0r", g0r), ("gam0i", g0i), ("gam1r", g1r), ("gam1i", g1i),
        ("gam2r", g2r), ("gam2i", g2i), ("gam3r", g3r), ("gam3i", g3i), ("sigma_gam0", v0.map Real.sqrt),
        ("sigma_gam1", v1.map Real.sqrt), ("sigma_gam2", v2.map Real.sqrt), ("sigma_gam3", v3.map Real.sqrt),
        ("weight_re", w), ("weight_im", w'), ("ntri", nt)] := by
  refine ⟨?_, ?_, ?_, ?_, ?_, ?_, ?_, ?_, ?_, ?_, ?_, ?_⟩ <;>
    simp [columns, kind, nomNames, meanNames, weightNames, modCol, modulus]

end IO3
end TreeCorr
