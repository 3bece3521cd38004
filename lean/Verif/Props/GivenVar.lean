import Verif.Proofs.GivenVar

/-!
# C92: a variance given by the user is the one that is used
-/

namespace TreeCorr
namespace Catalog

variable {R : Type} [Field R] [DecidableEq R]

/-- Without patches the given variance is used. -/
theorem given_used_partial (c : VCat R) (lowFile : Bool) (v : R) (hv : c.given = some v) (hp : c.patched = false) :
    processVarK c lowFile = v ∧ processVarG c lowFile = v := by
  have : c.patches lowFile = [c] := by
    unfold VCat.patches
    rw [hp]
    simp
  unfold processVarK processVarG
  rw [this]
  unfold varK varG VCat.vark VCat.varg VCat.stats
  simp only [hv, and_self]

/-- With patches that are read from the file of the catalogue with `low_mem`, too. -/
theorem given_used_low_mem [CharZero R] (c : VCat R) (v : R) (hv : c.given = some v) (hok : c.Ok) (hw : (c.rows.map VRow.w).sum ≠ 0) :
    processVarK c true = v ∧ processVarG c true = v := by
  by_cases hp : c.patched = true
  swap
  · exact given_used_partial c true v hv (by simpa using hp)
  have hg : ∀ d ∈ c.patches true, d.given = some v := by
    intro d hd
    unfold VCat.patches at hd
    rw [if_pos hp] at hd
    obtain ⟨i, -, rfl⟩ := List.mem_map.1 hd
    simpa using hv
  have hdok : ∀ d ∈ c.patches true, d.Ok := by
    intro d hd
    unfold VCat.patches at hd
    rw [if_pos hp] at hd
    obtain ⟨i, -, rfl⟩ := List.mem_map.1 hd
    intro hn r hr
    exact hok hn r (List.mem_filter.1 hr).1
  have hsum : ∀ f : VRow R → R, ((c.patches true).map fun d => (d.comp f).sumw).sum ≠ 0 := by
    intro f
    have h1 : ((c.patches true).map fun d => (d.comp f).sumw).sum = ((c.comp f).rows.map fun x => x.1).sum := by
      rw [← ((patches_flat c true f).map fun x => x.1).sum_eq]
      have := sum_flat ((c.patches true).map fun d => d.comp f) (fun x => x.1)
      rw [List.flatMap_map, List.map_map] at this
      rw [← this]
      congr 1
      apply List.map_congr_left
      intro d hd
      exact sumw_eq _ fun hn x hx => by
        obtain ⟨r, hr, rfl⟩ := List.mem_map.1 hx
        exact hdok d hd hn r hr
    rw [h1]
    simpa [VCat.comp, Function.comp_def] using hw
  have hpool := fun f => poolGiven_same (c.patches true) f v hg (hsum f)
  have hne : c.patches true ≠ [] := by
    intro h0
    exact hsum VRow.a (by rw [h0]; rfl)
  unfold processVarK processVarG
  match hl : c.patches true, hne with
  | [d], _ =>
    have hd := hg d (by rw [hl]; simp)
    unfold varK varG VCat.vark VCat.varg VCat.stats
    simp only [hd, and_self]
  | d :: e :: l, _ =>
    rw [hl] at hpool
    unfold varK varG
    simp only [hpool]
    exact ⟨trivial, by ring⟩

/-- For a list of catalogues with given variances: their average, weighted by the sums of the weights. -/
theorem given_average (c d : VCat R) (l : List (VCat R)) (v : VCat R → R) (h : ∀ e ∈ c :: d :: l, e.given = some (v e)) :
    varK (c :: d :: l) = ((c :: d :: l).map fun e => v e * (e.comp VRow.a).sumw).sum / ((c :: d :: l).map fun e => (e.comp VRow.a).sumw).sum :=
  poolGiven_given _ _ v h

/-- If no variance is given, patches do not matter: the variance is that of all the rows. -/
theorem not_given [LinearOrder R] [IsStrictOrderedRing R] (c : VCat R) (lowFile : Bool) (hv : c.given = none) (hok : c.Ok)
    (hw : (c.rows.map VRow.w).sum ≠ 0) (hp : c.patched = true → ∀ i ∈ c.numbers, ((c.rows.filter fun r => r.patch = i).map VRow.w).sum ≠ 0) :
    processVarK c lowFile = wvar (c.rows.map fun r => (r.w, r.a)) ∧
    processVarG c lowFile = (wvar (c.rows.map fun r => (r.w, r.a)) + wvar (c.rows.map fun r => (r.w, r.b))) / 2 := by
  have hg : ∀ d ∈ c.patches lowFile, d.given = none := by
    intro d hd
    unfold VCat.patches at hd
    by_cases hpp : c.patched = true
    · rw [if_pos hpp] at hd
      obtain ⟨i, -, rfl⟩ := List.mem_map.1 hd
      simp
      exact fun _ => hv
    · rw [if_neg hpp] at hd
      rw [List.mem_singleton.1 hd, hv]
  have hdok : ∀ d ∈ c.patches lowFile, d.Ok := by
    intro d hd
    unfold VCat.patches at hd
    by_cases hpp : c.patched = true
    · rw [if_pos hpp] at hd
      obtain ⟨i, -, rfl⟩ := List.mem_map.1 hd
      intro hn r hr
      exact hok hn r (List.mem_filter.1 hr).1
    · rw [if_neg hpp] at hd
      rw [List.mem_singleton.1 hd]; exact hok
  have hdw : ∀ d ∈ c.patches lowFile, (d.rows.map VRow.w).sum ≠ 0 := by
    intro d hd
    unfold VCat.patches at hd
    by_cases hpp : c.patched = true
    · rw [if_pos hpp] at hd
      obtain ⟨i, hi, rfl⟩ := List.mem_map.1 hd
      exact hp hpp i hi
    · rw [if_neg hpp] at hd
      rw [List.mem_singleton.1 hd]; exact hw
  have hcok : ∀ d : VCat R, d.Ok → ∀ f, (d.comp f).Ok := by
    intro d hd f hn x hx
    obtain ⟨r, hr, rfl⟩ := List.mem_map.1 hx
    exact hd hn r hr
  have hcw : ∀ (d : VCat R) (f : VRow R → R), ((d.comp f).rows.map fun x => x.1).sum = (d.rows.map VRow.w).sum := by
    intro d f
    simp [VCat.comp, Function.comp_def]
  have main : ∀ f : VRow R → R, calculateVar ((c.patches lowFile).map fun d => d.comp f) = wvar (c.rows.map fun r => (r.w, f r)) := by
    intro f
    have hperm := patches_flat c lowFile f
    rw [variance_of_list]
    · rw [List.flatMap_map]
      exact wvar_perm hperm
    · intro d hd
      obtain ⟨e, he, rfl⟩ := List.mem_map.1 hd
      exact hcok e (hdok e he) f
    · intro d hd
      obtain ⟨e, he, rfl⟩ := List.mem_map.1 hd
      rw [sumw_eq _ (hcok e (hdok e he) f), hcw]
      exact hdw e he
    · rw [List.flatMap_map, (hperm.map fun x => x.1).sum_eq, hcw]
      exact hw
  have ha := main VRow.a
  have hb := main VRow.b
  have hK : varK (c.patches lowFile) = calculateVar ((c.patches lowFile).map fun d => d.comp VRow.a) ∧
      varG (c.patches lowFile) = (calculateVar ((c.patches lowFile).map fun d => d.comp VRow.a) +
        calculateVar ((c.patches lowFile).map fun d => d.comp VRow.b)) / 2 := by
    match hl : c.patches lowFile with
    | [] =>
      exact ⟨poolGiven_none [] VRow.a (by simp), by
        unfold varG; simp only; rw [poolGiven_none [] VRow.a (by simp), poolGiven_none [] VRow.b (by simp)]; rfl⟩
    | [d] =>
      have hd := hg d (by rw [hl]; simp)
      unfold varK varG VCat.vark VCat.varg VCat.stats calculateVar
      simp only [hd, List.map_cons, List.map_nil, and_self]
    | d :: e :: l =>
      rw [hl] at hg
      unfold varK varG calculateVar
      simp only [List.map_cons]
      rw [poolGiven_none _ VRow.a hg, poolGiven_none _ VRow.b hg]
      exact ⟨rfl, rfl⟩
  unfold processVarK processVarG
  rw [hK.1, hK.2, ha, hb]
  exact ⟨rfl, rfl⟩

/-- With patches, unless they are read again from the file, the given variance has no effect at all. -/
theorem given_ignored (c : VCat R) (v : Option R) (hp : c.patched = true) :
    processVarK { c with given := v } false = processVarK c false ∧ processVarG { c with given := v } false = processVarG c false := by
  have : VCat.patches { c with given := v } false = c.patches false := by
    unfold VCat.patches VCat.numbers
    simp [hp]
  unfold processVarK processVarG
  rw [this]
  exact ⟨rfl, rfl⟩

/-! ## Examples -/

/-- Four rows with weights in two patches; the user says that the variance is 5. -/
def exV (p : Bool) (v : Option ℚ) : VCat ℚ := ⟨[⟨0, 1, 1, 0⟩, ⟨0, 2, 3, 1⟩, ⟨1, 1, 2, 1⟩, ⟨1, 1, 4, -1⟩], true, v, p⟩

/-- The variance that is given is not used for a catalogue with patches. -/
theorem given_wrong : ∃ (c : VCat ℚ) (v : ℚ), c.given = some v ∧ (c.rows.map VRow.w).sum ≠ 0 ∧ processVarK c false ≠ v ∧ processVarG c false ≠ v :=
  ⟨exV true (some 5), 5, rfl, by decide +kernel, by decide +kernel, by decide +kernel⟩

/-- A catalogue with a given variance and one without: the mean of the first is taken to be 0, and the variance is larger than both. -/
theorem mixed_wrong : ∃ c d : VCat ℚ, c.given = some 1 ∧ d.given = none ∧ c.rows = d.rows ∧ varK [d] ≤ 1 ∧ 20 ≤ varK [c, d] :=
  ⟨⟨[⟨0, 1, 10, 0⟩, ⟨0, 1, 10, 0⟩], true, some 1, false⟩, ⟨[⟨0, 1, 10, 0⟩, ⟨0, 1, 10, 0⟩], true, none, false⟩, rfl, rfl, rfl,
    by decide +kernel, by decide +kernel⟩

example : processVarK (exV false (some 5)) false = 5 := (given_used_partial (exV false (some 5)) false 5 rfl rfl).1

example : processVarK (exV true (some 5)) true = 5 := (given_used_low_mem (exV true (some 5)) 5 rfl (by intro h; cases h) (by decide +kernel)).1

example : processVarK (exV true none) false = wvar [(1, 1), (2, 3), (1, 2), (1, 4)] :=
  (not_given (exV true none) false rfl (by intro h; cases h) (by decide +kernel) (fun _ => by decide +kernel)).1

example : varK [exV false (some 5), exV false (some 2)] = 7 / 2 := by decide +kernel

end Catalog
end TreeCorr
