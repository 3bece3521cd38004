import Mathlib.Algebra.BigOperators.Fin
import Mathlib.Algebra.Order.Ring.Rat
import Mathlib.Analysis.Convex.Combination
import Verif.Proofs.CatState

/-!
C85: what a catalogue answers does not depend on what was asked before.
-/

namespace TreeCorr
namespace CatState

variable {R E K F : Type} [Field R] [DecidableEq R] [AddCommGroup E] [Module R E] [DecidableEq K]

/-- **C85, partial.** A catalogue of arrays: in every sequence of questions, loads, unloads and changes of the cache, each question gets the
answer that belongs to its rows: rows, weights, numbers, centres, patches and fields.
Missing: `select` (`select_stale_wrong`, `select_center_wrong`, `select_field_wrong`). -/
theorem history_arrays_partial (e : Env R E K F) (D : Data R E) (h : How E) (ok : D.Ok h) (os : List (Op K)) (ho : ∀ o ∈ os, o.Keeps) :
    run e (fromArrays D h) os = os.map (D.truth e h) :=
  run_ok ok os ho _ (inv_arrays ok)

/-- **C85, partial.** A catalogue of a file, if it is loaded first: the same. -/
theorem history_loaded_partial (e : Env R E K F) (D : Data R E) (h : How E) (ok : D.Ok h) (os : List (Op K)) (ho : ∀ o ∈ os, o.Keeps) :
    run e (fromFile D h) (.load :: os) = .nothing :: os.map (D.truth e h) := by
  rw [run, ← run_ok ok os ho _ (inv_loaded (e := e) ok)]
  rfl

/-- **C85, partial.** A catalogue of a file that is loaded when needed: the same, whenever it is loaded and unloaded.
Missing: patches by k-means (`kmeans_center_wrong`) and a given `npatch` that is not the number of patches in the file
(`npatch_wrong`, `one_patch_wrong`). -/
theorem history_file_partial (e : Env R E K F) (D : Data R E) (h : How E) (ok : D.Ok h) (hk : ∀ c, h ≠ .kmeans c)
    (hn : ∀ n, h = .column (some n) → n = D.count h) (os : List (Op K)) (ho : ∀ o ∈ os, o.Keeps) :
    run e (fromFile D h) os = os.map (D.truth e h) :=
  run_ok ok os ho _ (inv_fromFile hk hn)

/-! ### The centres -/

/-- **C85.** The centre is where the weights balance. -/
theorem centre_balance (l : List (Row R E)) (h : (l.map Row.w).sum ≠ 0) :
    ∃ c, centre (⟨some, fun _ _ => ()⟩ : Env R E Unit Unit) l = some c ∧ (l.map fun r => r.w • (r.pos - c)).sum = 0 := by
  refine ⟨(l.map Row.w).sum⁻¹ • (l.map fun r => r.w • r.pos).sum, by simp [centre, h], ?_⟩
  have key : ∀ (c : E) (l : List (Row R E)), (l.map fun r => r.w • (r.pos - c)).sum = (l.map fun r => r.w • r.pos).sum - (l.map Row.w).sum • c := by
    intro c l
    induction l with
    | nil => simp
    | cons r l ih =>
      rw [List.map_cons, List.sum_cons, ih, List.map_cons, List.map_cons, List.sum_cons, List.sum_cons, smul_sub, add_smul]
      abel
  rw [key, smul_smul, mul_inv_cancel₀ h, one_smul, sub_self]

/-- **C85.** With weights that are not negative the centre lies within every convex set that has the rows: within their bounds, their
circle, their hull. -/
theorem centre_convex [LinearOrder R] [IsStrictOrderedRing R] (l : List (Row R E)) (h0 : ∀ r ∈ l, 0 ≤ r.w) (S : Set E) (hS : Convex R S)
    (hl : ∀ r ∈ l, r.pos ∈ S) (c : E) (hc : centre (⟨some, fun _ _ => ()⟩ : Env R E Unit Unit) l = some c) : c ∈ S := by
  unfold centre at hc
  split at hc
  · cases hc
  rename_i hne
  simp only [Option.some.injEq] at hc
  have e1 : (l.map Row.w).sum = ∑ i : Fin l.length, (l[i.val]).w := (Fin.sum_univ_fun_getElem l Row.w).symm
  have e2 : (l.map fun r => r.w • r.pos).sum = ∑ i : Fin l.length, (l[i.val]).w • (l[i.val]).pos :=
    (Fin.sum_univ_fun_getElem l fun r => r.w • r.pos).symm
  have hw : ∀ i ∈ (Finset.univ : Finset (Fin l.length)), 0 ≤ (l[i.val]).w := fun i _ => h0 _ (List.getElem_mem _)
  have hpos : 0 < ∑ i : Fin l.length, (l[i.val]).w := lt_of_le_of_ne (Finset.sum_nonneg hw) (by rw [← e1]; exact fun h => hne h.symm)
  have := hS.centerMass_mem hw hpos fun i _ => hl _ (List.getElem_mem i.isLt)
  rw [Finset.centerMass] at this
  rw [← hc, e1, e2]
  exact this

/-! ### Where it is false -/

/-- **C85, negation.** `select` on a catalogue of a file that is not loaded does nothing: the rows are those of the file. -/
theorem select_unloaded_wrong (e : Env R E K F) (D : Data R E) (h : How E) (idx : List ℕ) :
    run e (fromFile D h) [.select idx, .rows] = [.nothing, .rows D.rows] := rfl

/-- **C85, negation.** After an unload the selection is forgotten. -/
theorem select_forgotten_wrong (e : Env R E K F) (D : Data R E) (h : How E) (idx : List ℕ) :
    run e (fromFile D h) [.load, .select idx, .rows, .unload, .rows]
      = [.nothing, .nothing, .rows (idx.filterMap fun i => D.rows[i]?), .nothing, .rows D.rows] := rfl

/-- **C85, negation.** `select` on a catalogue of arrays gives the rows that were chosen; but the sum of weights, the number of objects
and the number of patches remain those of all rows. -/
theorem select_stale_wrong (e : Env R E K F) (D : Data R E) (h : How E) (ok : D.Ok h) (idx : List ℕ) :
    run e (fromArrays D h) [.select idx, .rows, .sumw, .nobj, .npatch]
      = [.nothing, .rows (idx.filterMap fun i => D.rows[i]?), .num D.total, .nat (D.rows.filter fun r => r.w ≠ 0).length, .nat (D.count h)] := by
  have i : Inv e D h (fromArrays D h : St R E K F) := inv_arrays ok
  obtain ⟨-, h2, h3, h4⟩ := i.fin rfl
  obtain ⟨x, hx⟩ := Option.ne_none_iff_exists'.1 h2
  obtain ⟨n, hn⟩ := Option.ne_none_iff_exists'.1 h3
  obtain ⟨m, hm⟩ := Option.ne_none_iff_exists'.1 h4
  have hd : (fromArrays D h : St R E K F).data = some D := rfl
  rw [← i.sumw x hx, ← i.nobj n hn, ← i.npatch m hm]
  generalize (fromArrays D h : St R E K F) = s at *
  obtain ⟨f, km, g, d, nt, sw, nb, s2, np, co, pa, ca, si⟩ := s
  simp only at hx hn hm hd
  subst hx hn hm hd
  rfl

/-- **C85, negation.** A field that was made before a `select` is used after it. -/
theorem select_field_wrong (e : Env R E K F) (D : Data R E) (h : How E) (idx : List ℕ) (key : K) :
    run e (fromArrays D h) [.field key, .select idx, .field key] = [.field (e.build key D.rows), .nothing, .field (e.build key D.rows)] := by
  simp [run, step, getField, getRows, fromArrays, fromFile, load, finish, select]

/-- Positions on a line; a field is the list of positions. -/
def exEnv : Env ℚ ℚ Unit (List ℚ) := ⟨some, fun _ l => l.map Row.pos⟩

/-- Four rows in three patches. -/
def exData : Data ℚ ℚ := ⟨[⟨1, 1, 0⟩, ⟨3, 1, 1⟩, ⟨5, 2, 2⟩, ⟨9, 2, 2⟩], true, true⟩

theorem exData_ok (n : Option ℕ) : exData.Ok (.column n) := ⟨by simp [exData], by simp [exData], by simp [exData, Data.count]⟩

/-- Two rows without patches. -/
def exPlain : Data ℚ ℚ := ⟨[⟨1, 1, 0⟩, ⟨3, 1, 0⟩], true, false⟩

/-- **C85, negation.** The centre of the row that was chosen, at 3, is said to be at 3/2: the sum is divided by the old weight. -/
theorem select_center_wrong :
    run exEnv (fromArrays exPlain .none) [.select [1], .rows, .centers] = [.nothing, .rows [⟨3, 1, 0⟩], .centers (some [some (3 / 2)])] := by
  decide +kernel

/-- **C85, negation.** A file whose patches are found by k-means (the centres 1, 4 and 7 in this case, which are not quite the means): the
first question for the centres is answered with the means of the patches, the second with those of k-means. -/
theorem kmeans_center_wrong :
    run exEnv (fromFile exData (.kmeans [1, 4, 7])) [.centers, .centers]
      = [.centers (some [some 1, some 3, some 7]), .centers (some [some 1, some 4, some 7])] := by
  decide +kernel

/-- **C85, negation.** A file with a column of patches, and `npatch = 5` given: there are 5 patches until the file is loaded, then 3. -/
theorem npatch_wrong :
    run exEnv (fromFile exData (.column (some 5))) [.npatch, .load, .npatch] = [.nat 5, .nothing, .nat 3] := by
  decide +kernel

/-- **C85, negation.** With `npatch = 1` given: the patches are the whole catalogue if the file has not been loaded, and remain so; otherwise
they are three. -/
theorem one_patch_wrong :
    run exEnv (fromFile exData (.column (some 1))) [.patches, .load, .npatch, .patches]
      = [.patches [exData.rows], .nothing, .nat 3, .patches [exData.rows]] ∧
    run exEnv (fromFile exData (.column (some 1))) [.load, .patches]
      = [.nothing, .patches [[⟨1, 1, 0⟩], [⟨3, 1, 1⟩], [⟨5, 2, 2⟩, ⟨9, 2, 2⟩]]] := by
  decide +kernel

/-! ### Cases -/

/-- A case of `history_file_partial`, evaluated. -/
example : run exEnv (fromFile exData (.column none)) [.sumw2, .unload, .nobj, .centers, .field (), .unload, .resize 3, .field (), .patches, .sumw, .npatch]
    = [.num 10, .nothing, .nat 4, .centers (some [some 1, some 3, some 7]), .field [1, 3, 5, 9], .nothing, .nothing, .field [1, 3, 5, 9],
      .patches [[⟨1, 1, 0⟩], [⟨3, 1, 1⟩], [⟨5, 2, 2⟩, ⟨9, 2, 2⟩]], .num 6, .nat 3] := by
  rw [history_file_partial exEnv exData _ (exData_ok none) (by simp) (by simp) _ (by simp [Op.Keeps])]
  decide +kernel

/-- A case of `centre_convex`: the centre of the last patch lies between its rows. -/
example : ∀ c, centre (⟨some, fun _ _ => ()⟩ : Env ℚ ℚ Unit Unit) (exData.inPatch 2) = some c → c ∈ Set.Icc (5 : ℚ) 9 :=
  centre_convex _ (by decide +kernel) _ (convex_Icc _ _) (by intro r hr; fin_cases hr <;> constructor <;> norm_num)

end CatState
end TreeCorr
