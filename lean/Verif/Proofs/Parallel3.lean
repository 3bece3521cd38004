import Verif.Model.Parallel3
import Verif.Proofs.Parallel
import Verif.Proofs.PatchCount3

/-!
Lemmas about the parallel loops of the three-point code.
-/

namespace TreeCorr
open Classical
variable {P : Type}

theorem mapM_none3 {α β : Type} (f : α → Option β) (l : List α) : l.mapM f = none ↔ ∃ x ∈ l, f x = none := by
  induction l with
  | nil => simp
  | cons a l ih =>
    simp only [List.mapM_cons, Option.bind_eq_bind, Option.pure_def, List.mem_cons, exists_eq_or_imp, ← ih]
    cases h1 : f a with
    | none => simp
    | some b =>
      cases h2 : l.mapM f with
      | none => simp
      | some bs => simp

section generic
variable {E A : Type} [AddCommMonoid A] {put : A → E → A} {val : E → A} (hput : ∀ a e, put a e = a + val e)
include hput

theorem foldl_put (es : List E) (a : A) : es.foldl put a = a + (es.map val).sum := by
  induction es generalizing a with
  | nil => simp
  | cons e es ih => rw [List.foldl_cons, ih, hput, List.map_cons, List.sum_cons, add_assoc]

theorem foldl_put_perm {es fs : List E} (h : es.Perm fs) (a : A) : es.foldl put a = fs.foldl put a := by
  rw [foldl_put hput, foldl_put hput, (h.map val).sum_eq]

theorem parLoop_flatten (row : ℕ → Option (List E)) (s : Schedule) (a : A) :
    parLoop 0 put (· + ·) row s a = (s.flatten.mapM row).map fun ess => ess.flatten.foldl put a := by
  induction s generalizing a with
  | nil => simp [parLoop]
  | cons is s ih =>
    rw [List.flatten_cons, List.mapM_append]
    simp only [parLoop, List.mapM_cons, threadSum, Option.bind_eq_bind, Option.pure_def] at ih ⊢
    cases h1 : is.mapM row with
    | none => simp
    | some bs =>
      have := ih (a + bs.flatten.foldl put 0)
      simp only [Option.bind_some]
      cases h2 : s.mapM (threadSum 0 put row) with
      | none =>
        rw [h2] at this
        cases h3 : s.flatten.mapM row with
        | none => simp
        | some cs => rw [h3] at this; simp at this
      | some accs =>
        rw [h2] at this
        cases h3 : s.flatten.mapM row with
        | none => rw [h3] at this; simp at this
        | some cs =>
          rw [h3] at this
          simp only [Option.bind_some, Option.map_some, Option.some.injEq, List.foldl_cons, List.flatten_append,
            List.foldl_append] at this ⊢
          rw [this, foldl_put hput bs.flatten a, foldl_put hput bs.flatten 0, zero_add]

/-- Any schedule gives what the loop in order gives, also when a row fails. -/
theorem parLoop_eq (row : ℕ → Option (List E)) (s : Schedule) (n : ℕ) (hs : s.Of n) (a : A) :
    parLoop 0 put (· + ·) row s a = ((List.range n).mapM row).map fun ess => ess.flatten.foldl put a := by
  rw [parLoop_flatten hput]
  cases h : (List.range n).mapM row with
  | none =>
    have : s.flatten.mapM row = none := by
      rw [mapM_none3] at h ⊢
      obtain ⟨x, hx, e⟩ := h
      exact ⟨x, hs.mem_iff.2 hx, e⟩
    rw [this, Option.map_none]
  | some ess =>
    obtain ⟨fs, hf, hp⟩ := mapM_perm row hs.symm h
    rw [hf]
    simp only [Option.map_some, Option.some.injEq]
    exact foldl_put_perm hput hp.symm.flatten a

end generic

/-! ### Rows -/

theorem concatM_mapM {α β : Type} (f : α → Option (List β)) (l : List α) : concatM f l = (l.mapM f).map List.flatten := by
  induction l with
  | nil => simp [concatM]
  | cons a l ih =>
    simp only [concatM, List.mapM_cons, ih, Option.bind_eq_bind, Option.pure_def]
    cases f a with
    | none => rfl
    | some x => cases l.mapM f <;> simp

theorem range_mapM {α β : Type} (f : α → Option β) (l : List α) (row : ℕ → Option β) (hr : ∀ i, row i = l[i]?.bind f) :
    (List.range l.length).mapM row = l.mapM f := by
  rw [mapM_congr' fun i _ => hr i]
  clear hr
  induction l with
  | nil => simp
  | cons a l ih =>
    rw [List.length_cons, List.range_succ_eq_map, List.mapM_cons, List.mapM_cons, mapM_map', ← ih]
    rfl

theorem processAuto3_mapM (B : Bin3 P) (M : Metric3 P) (minsep : ℝ) (cells : List (Cell P)) :
    processAuto3 B M minsep cells = ((List.range cells.length).mapM (autoRow3 B M minsep cells)).map List.flatten := by
  induction cells with
  | nil => simp [processAuto3]
  | cons c cs ih =>
    rw [List.length_cons, List.range_succ_eq_map, List.mapM_cons, mapM_map']
    have e2 : (List.range cs.length).mapM (fun x => autoRow3 B M minsep (c :: cs) x.succ)
        = (List.range cs.length).mapM (autoRow3 B M minsep cs) := by
      apply mapM_congr'
      intro x _
      simp [autoRow3]
    rw [e2]
    simp only [processAuto3, autoRow3, List.drop_zero, ih, Option.bind_eq_bind, Option.pure_def]
    cases process3 B M minsep c with
    | none => rfl
    | some x1 =>
      cases autoLoop2 B M c cs with
      | none => rfl
      | some x2 =>
        cases (List.range cs.length).mapM (autoRow3 B M minsep cs) <;> simp

/-! ### Arrays -/

theorem finish3_val (A : Acc3) (e : Emit3 P) : finish3 A e = A + finish3 (0 : Acc3) e := by
  rw [← finish3_add, add_zero]

@[ext] theorem MpVals.ext' {a b : MpVals} (h1 : a.ntri = b.ntri) (h2 : a.meand2 = b.meand2) (h3 : a.meanlogd2 = b.meanlogd2)
    (h4 : a.meand3 = b.meand3) (h5 : a.meanlogd3 = b.meanlogd3) (h6 : ∀ n, a.weight n = b.weight n) (h7 : ∀ n, a.zeta n = b.zeta n) :
    a = b := by
  cases a; cases b
  simp only [MpVals.mk.injEq]
  exact ⟨h1, h2, h3, h4, h5, funext h6, funext h7⟩

noncomputable instance : Add MpVals := ⟨MpVals.add⟩
noncomputable instance : Zero MpVals := ⟨MpVals.zero⟩

noncomputable instance : AddCommMonoid MpVals where
  add_assoc := by intro a b c; ext <;> exact _root_.add_assoc _ _ _
  add_comm := by intro a b; ext <;> exact _root_.add_comm _ _
  zero_add := by intro a; ext <;> exact _root_.zero_add _
  add_zero := by intro a; ext <;> exact _root_.add_zero _
  nsmul := nsmulRec

@[ext] theorem GVals.ext' {a b : GVals} (h1 : a.base = b.base) (h2 : ∀ n, a.gam0 n = b.gam0 n) (h3 : ∀ n, a.gam1 n = b.gam1 n)
    (h4 : ∀ n, a.gam2 n = b.gam2 n) (h5 : ∀ n, a.gam3 n = b.gam3 n) : a = b := by
  cases a; cases b
  simp only [GVals.mk.injEq]
  exact ⟨h1, funext h2, funext h3, funext h4, funext h5⟩

noncomputable instance : Add GVals := ⟨GVals.add⟩
noncomputable instance : Zero GVals := ⟨GVals.zero⟩

noncomputable instance : AddCommMonoid GVals where
  add_assoc := by
    intro a b c
    refine GVals.ext' (_root_.add_assoc a.base b.base c.base) ?_ ?_ ?_ ?_ <;> intro n <;> exact _root_.add_assoc _ _ _
  add_comm := by
    intro a b
    refine GVals.ext' (_root_.add_comm a.base b.base) ?_ ?_ ?_ ?_ <;> intro n <;> exact _root_.add_comm _ _
  zero_add := by
    intro a
    refine GVals.ext' (_root_.zero_add a.base) ?_ ?_ ?_ ?_ <;> intro n <;> exact _root_.zero_add _
  add_zero := by
    intro a
    refine GVals.ext' (_root_.add_zero a.base) ?_ ?_ ?_ ?_ <;> intro n <;> exact _root_.add_zero _
  nsmul := nsmulRec

theorem mpPut_val {W : Type} [AddCommMonoid W] (A : MpArr W) (x : ℤ × ℤ × W) :
    mpPut (· + ·) A x = A + mpPut (· + ·) 0 x := by
  funext k2 k3
  simp only [mpPut, Pi.add_apply, Pi.zero_apply]
  split <;> simp

/-- The arrays after the additions: at each entry what was there and the sum of the additions to it. -/
theorem foldl_mpPut {W V : Type} [AddCommMonoid W] [AddCommMonoid V] (f : W →+ V) (out : List (ℤ × ℤ × W)) (A : MpArr W) (k2 k3 : ℤ) :
    f (out.foldl (mpPut (· + ·)) A k2 k3) = f (A k2 k3) + mpTotal f out k2 k3 := by
  induction out generalizing A with
  | nil => simp [mpTotal]
  | cons x out ih =>
    rw [List.foldl_cons, ih]
    simp only [mpPut, mpTotal, List.filter_cons, decide_eq_true_eq]
    by_cases h : k2 = x.1 ∧ k3 = x.2.1
    · rw [if_pos h, if_pos ⟨h.1.symm, h.2.symm⟩, map_add, List.map_cons, List.sum_cons, add_assoc]
    · rw [if_neg h, if_neg fun h' => h ⟨h'.1.symm, h'.2.symm⟩]

end TreeCorr
