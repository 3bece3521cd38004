import Verif.Spec.Write3
import Verif.Proofs.WriteRead

/-! # Files of three-point correlations: helper lemmas -/

namespace TreeCorr
namespace IO3

open Classical
open TreeCorr.IO (Arr Val Dict optStr zpName ppName Chunk Reader AscState named ascii render getCol getStr getNat getRows readCov
  isShape Reads NamedAt NamedStart named_reads AscAt ascii_reads onCol lookup_of_mem lookup_none_of mapM_getCol Free
  zip_fst_sublist map_onCol_fst chunkNames zpName_inj)

/-! ## Dicts -/

theorem effective_minimal (d : Dict) : effective (minimal d) = effective d := by
  funext k
  simp only [effective, minimal]
  cases h : dflt k with
  | none => rfl
  | some dv =>
    cases hd : d k with
    | none => rfl
    | some v => by_cases hv : v = dv <;> simp [hv]

def validNames : List String :=
  ["nbins", "bin_size", "min_sep", "max_sep", "sep_units", "bin_slop", "angle_slop",
   "nubins", "ubin_size", "min_u", "max_u", "nvbins", "vbin_size", "min_v", "max_v",
   "nphi_bins", "phi_bin_size", "min_phi", "max_phi", "phi_units", "max_n",
   "log_file", "output_dots", "min_top",
   "period", "xperiod", "yperiod", "zperiod", "num_threads", "brute", "verbose", "split_method",
   "max_top", "precision", "metric", "bin_type", "var_method", "num_bootstrap"]

theorem mem_validNames {k : String} (h : dflt k ≠ none) : k ∈ validNames := by
  unfold dflt at h
  split at h <;> first | exact absurd rfl h | simp [validNames]

theorem setZeros_free {name k : String} (hk : Free name k) :
    ∀ (i : ℕ) (rs : List ((ℤ × ℤ × ℤ) × Core)) (d : Dict), setZeros name i rs d k = d k
  | _, [], _ => rfl
  | i, r :: rs, d => by
    obtain ⟨q, c⟩ := r
    rw [setZeros, setZeros_free hk (i + 1) rs, IO.Dict.set_ne _ _ (hk.ne i)]

theorem setZeros_lt {name : String} {j : ℕ} :
    ∀ (i : ℕ) (rs : List ((ℤ × ℤ × ℤ) × Core)) (d : Dict), j < i →
      setZeros name i rs d (zpName name j) = d (zpName name j)
  | _, [], _, _ => rfl
  | i, r :: rs, d, h => by
    obtain ⟨q, c⟩ := r
    rw [setZeros, setZeros_lt (i + 1) rs _ (by omega), IO.Dict.set_ne]
    intro e; exact absurd (zpName_inj e) (by omega)

theorem setZeros_get {name : String} :
    ∀ (i : ℕ) (rs : List ((ℤ × ℤ × ℤ) × Core)) (d : Dict) (j : ℕ) (h : j < rs.length),
      setZeros name i rs d (zpName name (i + j)) = some (.keyTot3 rs[j].1 rs[j].2.tot)
  | i, r :: rs, d, 0, _ => by
    obtain ⟨q, c⟩ := r
    rw [setZeros, Nat.add_zero, setZeros_lt (i + 1) rs _ (by omega)]
    simp
  | i, r :: rs, d, j + 1, h => by
    obtain ⟨q, c⟩ := r
    have := setZeros_get (name := name) (i + 1) rs (d.set (zpName name i) (.keyTot3 q c.tot)) j
      (by simpa using h)
    rw [setZeros, show i + (j + 1) = i + 1 + j by omega, this]
    simp

/-! ## Columns -/

/-- All the names a class may write. -/
def Kind.all (K : Kind) : List String :=
  K.nom ++ (K.means ++ (K.xi ++ (K.sigma ++ (K.weight ++
    ((if K.modulus then ["DDD"] else []) ++ (["RRR", "DRR", "RDD"] ++ ["ntri"]))))))

/-- The names of the columns are distinct, for every class and kind of bins. -/
structure Kind.OK (K : Kind) : Prop where
  nodup : K.all.Nodup
  nn : K.nn = true → K.xi = ["zeta"]
  xi_ne : K.xi ≠ []
  sigma_ne : K.sigma ≠ []
  mod : K.modulus = true → K.weight.length = 2

theorem kind_ok (C : Cls) (b : BinT) : (kind C b).OK := by
  cases C <;> cases b <;> exact ⟨by decide, by decide, by decide, by decide, by decide⟩

theorem kind_letters (C : Cls) (b : BinT) : (kind C b).letters = C.letters := by
  cases C <;> rfl

theorem kind_nn (C : Cls) (b : BinT) : (kind C b).nn = true ↔ C = .nnn := by
  cases C <;> simp [kind]

theorem modulus_length {n : ℕ} {l : List Arr} (h2 : l.length = 2) (h : ∀ a ∈ l, a.length = n) :
    (modulus l).length = n := by
  match l, h2 with
  | [a, b], _ => simp [modulus, h a (by simp), h b (by simp)]

theorem columns_sublist (K : Kind) (nom : List Arr) (c : Core) {extra : List (String × Arr)}
    (he : (extra.map Prod.fst).Sublist ["RRR", "DRR", "RDD"]) :
    ((columns K nom c extra).map Prod.fst).Sublist K.all := by
  simp only [columns, Kind.all, List.map_append, List.map_cons, List.map_nil]
  refine (zip_fst_sublist _ _).append ((zip_fst_sublist _ _).append ((zip_fst_sublist _ _).append
    ((zip_fst_sublist _ _).append ((zip_fst_sublist _ _).append (List.Sublist.append ?_
      (he.append (List.Sublist.refl _)))))))
  unfold modCol
  split <;> simp

theorem columns_len {K : Kind} (hK : K.OK) {nom : List Arr} {c : Core} {extra : List (String × Arr)}
    (hn : ∀ a ∈ nom, a.length = size nom)
    (hc : c.WF K (size nom)) (he : ExtraOK (size nom) extra) :
    ∀ p ∈ columns K nom c extra, p.2.length = size nom := by
  intro p hp
  simp only [columns, List.mem_append, List.mem_cons, List.not_mem_nil, or_false] at hp
  rcases hp with hp | hp | hp | hp | hp | hp | hp | rfl
  · exact hn _ (List.of_mem_zip hp).2
  · exact hc.means.2 _ (List.of_mem_zip hp).2
  · exact hc.xi _ (List.of_mem_zip hp).2
  · have := (List.of_mem_zip hp).2
    obtain ⟨v, hv, e⟩ := List.mem_map.1 this
    rw [← e, List.length_map]
    exact hc.var v hv
  · exact hc.weight.2 _ (List.of_mem_zip hp).2
  · unfold modCol at hp
    split at hp
    · rename_i hm
      obtain rfl := List.mem_singleton.1 hp
      exact modulus_length (hc.weight.1.trans (hK.mod hm)) hc.weight.2
    · exact absurd hp (by simp)
  · exact he.lens p hp
  · exact hc.ntri

/-- What is read from a table: the stored numbers, except that NNN keeps the old `zeta` when the
file has none. -/
noncomputable def merged (K : Kind) (old c : Core) (f : ℝ → ℝ) : Core :=
  { c.stored f with
    xi := if K.nn = true ∧ c.xi = [] then old.xi else (c.stored f).xi
    var := if K.nn = true ∧ c.xi = [] then old.var else (c.stored f).var
    tot := if K.nn = true then c.tot else old.tot }

theorem readFromData_columns {K : Kind} (hK : K.OK) {nom : List Arr} {c old : Core}
    {extra : List (String × Arr)} (hc : c.WF K (size nom)) (he : ExtraOK (size nom) extra)
    (f : ℝ → ℝ) {d : Dict} (h1 : d "coords" = some (optStr c.coords))
    (h2 : d "metric" = some (optStr c.metric)) (h3 : K.nn = true → d "tot" = some (.num c.tot)) :
    readFromData K (size nom) old ((columns K nom c extra).map (onCol f)) d =
      some (merged K old c f) := by
  set cols := (columns K nom c extra).map (onCol f) with hcols
  have hn : (cols.map Prod.fst).Nodup := by
    rw [hcols, map_onCol_fst]
    exact (columns_sublist K nom c he.names).nodup hK.nodup
  have hmem : ∀ p ∈ columns K nom c extra, onCol f p ∈ cols := fun p hp =>
    List.mem_map_of_mem hp
  have getL : ∀ (ns : List String) (as : List Arr), ns.length = as.length →
      (∀ p ∈ ns.zip as, p ∈ columns K nom c extra) → (∀ a ∈ as, a.length = size nom) →
      ns.mapM (getCol (size nom) cols) = some (as.map (List.map f)) := by
    intro ns as hl hp ha
    refine mapM_getCol hn _ _ (by simpa using hl) ?_ ?_
    · intro p hp'
      rw [List.zip_map_right] at hp'
      obtain ⟨q, hq, rfl⟩ := List.mem_map.1 hp'
      exact hmem q (hp q hq)
    · intro a ha'
      obtain ⟨b, hb, rfl⟩ := List.mem_map.1 ha'
      simpa using ha b hb
  have g1 := getL K.means c.means hc.means.1.symm (fun p hp => by simp [columns, hp]) hc.means.2
  have g2 := getL K.weight c.weight hc.weight.1.symm (fun p hp => by simp [columns, hp]) hc.weight.2
  have g3 : getCol (size nom) cols "ntri" = some (c.ntri.map f) := by
    rw [getCol, lookup_of_mem hn (hmem ("ntri", c.ntri) (by simp [columns]))]
    simp [hc.ntri]
  obtain ⟨co, hco⟩ := Option.isSome_iff_exists.1 hc.coords
  obtain ⟨me, hme⟩ := Option.isSome_iff_exists.1 hc.metric
  have g5 : getStr d "coords" = some co := by rw [getStr, h1, hco]; rfl
  have g6 : getStr d "metric" = some me := by rw [getStr, h2, hme]; rfl
  have gt : readTot K old d = some (if K.nn = true then c.tot else old.tot) := by
    by_cases hnn : K.nn = true
    · simp [readTot, hnn, h3 hnn]
    · simp [readTot, hnn]
  have gx : readXi K (size nom) old cols =
      some ((merged K old c f).xi, (merged K old c f).var) := by
    unfold readXi
    rcases hc.comps with ⟨hx, hv⟩ | ⟨hnn, hx, hv⟩
    · have hne : c.xi ≠ [] := by
        intro h; rw [h] at hx
        exact hK.xi_ne (List.length_eq_zero_iff.1 hx.symm)
      have m1 := getL K.xi c.xi hx.symm (fun p hp => by simp [columns, hp]) hc.xi
      have m2 := getL K.sigma (c.var.map (List.map Real.sqrt)) (by simpa using hv.symm)
        (fun p hp => by simp [columns, hp]) (by
          intro a ha
          obtain ⟨b, hb, rfl⟩ := List.mem_map.1 ha
          simpa using hc.var b hb)
      have hlk : ¬ (K.nn = true ∧ cols.lookup "zeta" = none) := by
        rintro ⟨hnn, hl⟩
        have := hK.nn hnn
        rw [this] at hx
        obtain ⟨a, ha⟩ := List.length_eq_one_iff.1 hx
        have : onCol f ("zeta", a) ∈ cols := hmem _ (by simp [columns, this, ha])
        rw [lookup_of_mem hn this] at hl
        exact absurd hl (by simp)
      rw [if_neg hlk, m1, m2]
      simp [merged, hne, Core.stored, Function.comp_def]
    · have hlk : cols.lookup "zeta" = none := by
        apply lookup_none_of
        rw [hcols, map_onCol_fst]
        have hs := hK.nodup
        rw [Kind.all, hK.nn hnn] at hs
        intro hin
        have hin' : "zeta" ∈ (K.nom ++ K.means) ++ (K.sigma ++ (K.weight ++
            ((if K.modulus then ["DDD"] else []) ++ (["RRR", "DRR", "RDD"] ++ ["ntri"])))) := by
          simp only [columns, hx, hv, List.map_nil, List.zip_nil_right, List.nil_append, List.map_append,
            List.mem_append] at hin
          simp only [List.mem_append]
          rcases hin with h | h | h | h | h | h
          · exact Or.inl (Or.inl ((zip_fst_sublist _ _).subset h))
          · exact Or.inl (Or.inr ((zip_fst_sublist _ _).subset h))
          · exact Or.inr (Or.inr (Or.inl ((zip_fst_sublist _ _).subset h)))
          · refine Or.inr (Or.inr (Or.inr (Or.inl ?_)))
            unfold modCol at h
            split at h
            · rename_i hm; simpa [hm] using h
            · exact absurd h (by simp)
          · exact Or.inr (Or.inr (Or.inr (Or.inr (Or.inl (he.names.subset h)))))
          · exact Or.inr (Or.inr (Or.inr (Or.inr (Or.inr (by simpa using h)))))
        have h' : ((K.nom ++ K.means) ++ ("zeta" :: (K.sigma ++ (K.weight ++
            ((if K.modulus then ["DDD"] else []) ++ (["RRR", "DRR", "RDD"] ++ ["ntri"])))))).Nodup := by
          simpa only [List.append_assoc, List.singleton_append] using hs
        rw [List.nodup_middle, List.nodup_cons] at h'
        exact h'.1 hin'
      rw [if_pos ⟨hnn, hlk⟩]
      simp [merged, hnn, hx]
  unfold readFromData
  simp only [g1, g2, g3, g5, g6, gt, gx, Option.bind_eq_bind, Option.bind_some]
  simp [merged, Core.stored, hco, hme]

end IO3
end TreeCorr
