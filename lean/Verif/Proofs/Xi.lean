import Verif.Proofs.Cov
import Verif.Model.Xi

/-! Helper lemmas for the estimators with randoms and the objects of the row loop. -/

namespace TreeCorr
open Classical
noncomputable section
variable {σ V W : Type}

/-! ### Objects whose rows do not depend on earlier rows -/

/-- With these pairs, the object keeps the invariant and what it returns is the same from every state with the
invariant. -/
def Settled (O : CovObj σ V) (I : σ → Prop) (p : List (ℕ × ℕ)) : Prop :=
  (∀ s t, I s → O.step s p = some t → I t) ∧
  ∀ s s', I s → I s' → (O.step s p).map (fun t => (O.stat t, O.weight t)) = (O.step s' p).map fun t => (O.stat t, O.weight t)

/-- An object, its invariant and its state. -/
structure Tracked (σ V : Type) where
  obj : CovObj σ V
  inv : σ → Prop
  state : σ

theorem stepAll_inv (L : List (Tracked σ V)) : ∀ (row : List (List (ℕ × ℕ))) (ss ts : List σ),
    List.Forall₂ (fun x p => Settled x.obj x.inv p) L row → List.Forall₂ (fun x s => x.inv s) L ss →
    stepAll (L.map Tracked.obj) ss row = some ts → List.Forall₂ (fun x s => x.inv s) L ts := by
  induction L with
  | nil =>
    intro row ss ts h1 h2 h3
    cases h2
    simp [stepAll] at h3
    subst h3
    exact .nil
  | cons x L ih =>
    intro row ss ts h1 h2 h3
    cases h1 with
    | cons a b =>
      cases h2 with
      | cons c d =>
        rename_i p ps s ss
        simp only [List.map_cons, stepAll, Option.bind_eq_bind] at h3
        cases h4 : x.obj.step s p with
        | none => simp [h4] at h3
        | some s' =>
          simp only [h4, Option.bind_some] at h3
          cases h5 : stepAll (L.map Tracked.obj) ss ps with
          | none => simp [h5] at h3
          | some ss' =>
            simp [h5] at h3
            subst h3
            exact .cons (a.1 _ _ c h4) (ih _ _ _ b d h5)

/-- What a row shows: the statistics and weights of all objects. -/
def shown (Os : List (CovObj σ V)) (ts : List σ) : List V × List ℝ :=
  (List.zipWith CovObj.stat Os ts, List.zipWith CovObj.weight Os ts)

theorem stepAll_shown (L : List (Tracked σ V)) : ∀ (row : List (List (ℕ × ℕ))) (ss ss' : List σ),
    List.Forall₂ (fun x p => Settled x.obj x.inv p) L row → List.Forall₂ (fun x s => x.inv s) L ss →
    List.Forall₂ (fun x s => x.inv s) L ss' →
    (stepAll (L.map Tracked.obj) ss row).map (shown (L.map Tracked.obj))
      = (stepAll (L.map Tracked.obj) ss' row).map (shown (L.map Tracked.obj)) := by
  induction L with
  | nil =>
    intro row ss ss' h1 h2 h3
    cases h2; cases h3; rfl
  | cons x L ih =>
    intro row ss ss' h1 h2 h3
    cases h1 with
    | cons a b =>
      cases h2 with
      | cons c d =>
        cases h3 with
        | cons e f =>
          rename_i p ps s ss s' ss'
          have i1 := ih _ _ _ b d f
          have i2 := a.2 _ _ c e
          simp only [List.map_cons, stepAll, Option.bind_eq_bind]
          cases h4 : x.obj.step s p with
          | none =>
            rw [h4] at i2
            cases h4' : x.obj.step s' p with
            | none => rfl
            | some t' => rw [h4'] at i2; simp at i2
          | some t =>
            rw [h4] at i2
            cases h4' : x.obj.step s' p with
            | none => rw [h4'] at i2; simp at i2
            | some t' =>
              rw [h4'] at i2
              simp only [Option.map_some, Option.some.injEq, Prod.mk.injEq] at i2
              simp only [Option.bind_some]
              cases h5 : stepAll (L.map Tracked.obj) ss ps with
              | none =>
                rw [h5] at i1
                cases h5' : stepAll (L.map Tracked.obj) ss' ps with
                | none => rfl
                | some u' => rw [h5'] at i1; simp at i1
              | some u =>
                rw [h5] at i1
                cases h5' : stepAll (L.map Tracked.obj) ss' ps with
                | none => rw [h5'] at i1; simp at i1
                | some u' =>
                  rw [h5'] at i1
                  simp only [Option.map_some, Option.some.injEq, shown, Prod.mk.injEq] at i1
                  simp [shown, i1, i2]

theorem design_mpi_tracked [AddCommMonoid W] (L : List (Tracked σ V)) (func : List V → W) {size : ℕ} (hs : 0 < size)
    (hinv : ∀ x ∈ L, x.inv x.state) (plist : List (List (List (ℕ × ℕ))))
    (hrow : ∀ row ∈ plist, List.Forall₂ (fun x p => Settled x.obj x.inv p) L row) :
    designMatrixMpi (L.map Tracked.obj) func size plist (L.map Tracked.state)
      = designMatrix (L.map Tracked.obj) func plist (L.map Tracked.state) := by
  have h0 : List.Forall₂ (fun (x : Tracked σ V) s => x.inv s) L (L.map Tracked.state) := by
    clear hrow
    induction L with
    | nil => exact .nil
    | cons x L ih => exact .cons (hinv x (by simp)) (ih fun y hy => hinv y (by simp [hy]))
  refine design_mpi_of _ func size hs (fun ss => List.Forall₂ (fun (x : Tracked σ V) s => x.inv s) L ss) _ h0 plist ?_ ?_
  · intro row hr s t h1 h2
    exact stepAll_inv L row s t (hrow row hr) h1 h2
  · intro row hr s h1
    have e := stepAll_shown L row s _ (hrow row hr) h1 h0
    unfold rowVal
    have e2 := congrArg (Option.map fun x : List V × List ℝ => (func x.1, x.2.sum)) e
    simpa [Option.map_map, shown, Function.comp_def] using e2

theorem kk_settled (results : Dict) (bins : Finset ℤ) (p : List (ℕ × ℕ)) :
    Settled (kkObj results bins) (fun _ => True) p := by
  refine ⟨fun _ _ _ _ => trivial, fun s s' _ _ => ?_⟩
  unfold CovObj.step
  split <;> rfl

theorem nn_settled (E : NNEnv) (r0 : Res) {p : List (ℕ × ℕ)} (hp : p ≠ []) :
    Settled (nnObj E) (fun s => E.rr.results = [] → s.rr = r0) p := by
  constructor
  · intro s t hs ht he
    rw [CovObj.step, if_neg hp] at ht
    simp only [nnObj, nnFromPairs, Option.bind_eq_some_iff, Option.some.injEq] at ht
    obtain ⟨_, _, rr, h1, _, _, _, _, rfl⟩ := ht
    rw [NNEnv.sumRr, if_pos he] at h1
    exact (Option.some.inj h1).symm.trans (hs he)
  · intro s s' hs hs'
    rw [CovObj.step, if_neg hp, CovObj.step, if_neg hp]
    simp only [nnObj, nnFromPairs]
    have e : E.sumRr s.rr p = E.sumRr s'.rr p := by
      unfold NNEnv.sumRr
      split
      · rename_i he; rw [hs he, hs' he]
      · rfl
    rw [e]
    cases E.dr <;> cases E.rd <;>
      simp only [sumRand, Option.map_bind, Option.map_none, Option.bind_some, Function.comp_def, Option.map_some]

theorem nk_settled (results : Dict) (rk : Patched) (bins : Finset ℤ) {p : List (ℕ × ℕ)} (hp : p ≠ []) :
    Settled (nkObj results rk bins) (fun s => s.hasRk = true) p := by
  constructor
  · intro s t hs ht
    rw [CovObj.step, if_neg hp] at ht
    simp only [nkObj, nkFromPairs, hs, if_true, Option.bind_eq_bind, Option.bind_eq_some_iff] at ht
    obtain ⟨_, _, rks, _, h⟩ := ht
    split at h
    · cases h
    · obtain rfl := Option.some.inj h
      rfl
  · intro s s' hs hs'
    rw [CovObj.step, if_neg hp, CovObj.step, if_neg hp]
    simp only [nkObj, nkFromPairs, hs, hs']

/-! ### Sums over selected results -/

theorem Dict.get_of_mem {e : Dict} (hnd : (e.map Prod.fst).Nodup) {x : (ℕ × ℕ) × Res} (hx : x ∈ e) :
    e.get x.1 = some x.2 := by
  induction e with
  | nil => cases hx
  | cons y t ih =>
    simp only [List.map_cons, List.nodup_cons] at hnd
    rcases List.mem_cons.1 hx with rfl | hx
    · simp [Dict.get, List.lookup]
    · have hne : x.1 ≠ y.1 := by
        intro h; exact hnd.1 (h ▸ List.mem_map_of_mem hx)
      have := ih hnd.2 hx
      simp only [Dict.get] at this ⊢
      rw [List.lookup_cons]
      rw [beq_false_of_ne hne]
      exact this

/-- Fetching a list of stored pairs without repetition. -/
theorem fetch_perm (e : Dict) (hnd : (e.map Prod.fst).Nodup) (pairs : List (ℕ × ℕ)) (hp : pairs.Nodup)
    (hsub : ∀ k ∈ pairs, k ∈ e.map Prod.fst) :
    ∃ rs, fetch e pairs = some rs ∧ rs.Perm ((e.filter fun x => decide (x.1 ∈ pairs)).map Prod.snd) := by
  have key : ∀ l : List (ℕ × ℕ), (∀ k ∈ l, k ∈ e.map Prod.fst) → fetch e l = some (l.map fun k => (e.get k).getD Res.zero) := by
    intro l hl
    unfold fetch
    apply mapM_some
    intro k hk
    obtain ⟨x, hx, rfl⟩ := List.mem_map.1 (hl k hk)
    rw [Dict.get_of_mem hnd hx]
    rfl
  refine ⟨_, key pairs hsub, ?_⟩
  have h1 : pairs.Perm ((e.filter fun x => decide (x.1 ∈ pairs)).map Prod.fst) := by
    rw [List.perm_ext_iff_of_nodup hp (hnd.sublist (List.filter_sublist.map _))]
    intro k
    constructor
    · intro hk
      obtain ⟨x, hx, rfl⟩ := List.mem_map.1 (hsub k hk)
      exact List.mem_map_of_mem (List.mem_filter.2 ⟨hx, by simpa using hk⟩)
    · intro hk
      obtain ⟨x, hx, rfl⟩ := List.mem_map.1 hk
      simpa using (List.mem_filter.1 hx).2
  refine (h1.map _).trans ?_
  rw [List.map_map]
  apply List.Perm.of_eq
  apply List.map_congr_left
  intro x hx
  simp [Dict.get_of_mem hnd (List.mem_filter.1 hx).1]

/-- The sum of the results whose key has a property. -/
def Dict.sumOf (d : Dict) (p : ℕ × ℕ → Prop) : Res := ((d.filter fun x => decide (p x.1)).map Prod.snd).sum

theorem sum_selected (e : Dict) (hnd : (e.map Prod.fst).Nodup) (hg : ∀ x ∈ e, x.2.acc.Good) (pairs : List (ℕ × ℕ))
    (hp : pairs.Nodup) (hsub : ∀ k ∈ pairs, k ∈ e.map Prod.fst) :
    (fetch e pairs).map (sumOthers true) = some (e.sumOf fun k => k ∈ pairs) := by
  obtain ⟨rs, h1, h2⟩ := fetch_perm e hnd pairs hp hsub
  rw [h1, Option.map_some, sumOthers_eq true rs _ (by simp)]
  · rw [h2.sum_eq]
    unfold Dict.sumOf
    congr!
  · intro r hr
    obtain ⟨x, hx, rfl⟩ := List.mem_map.1 (h2.mem_iff.1 hr)
    exact hg x (List.mem_filter.1 hx).1

theorem Dict.sumOf_congr (d : Dict) (p q : ℕ × ℕ → Prop) (h : ∀ k ∈ d.map Prod.fst, (p k ↔ q k)) :
    d.sumOf p = d.sumOf q := by
  unfold Dict.sumOf
  congr 2
  apply List.filter_congr
  intro x hx
  simp [h x.1 (List.mem_map_of_mem hx)]

theorem addMissing_spec (keys : List (ℕ × ℕ)) : ∀ d : Dict, (d.map Prod.fst).Nodup → (∀ x ∈ d, x.2.acc.Good) →
    ((d.addMissing keys).map Prod.fst).Nodup ∧ (∀ x ∈ d.addMissing keys, x.2.acc.Good) ∧
    (∀ k, k ∈ (d.addMissing keys).map Prod.fst ↔ k ∈ d.map Prod.fst ∨ k ∈ keys) ∧
    ∀ p, (d.addMissing keys).sumOf p = d.sumOf p := by
  induction keys with
  | nil => intro d h1 h2; simp [Dict.addMissing, h1]; exact fun a b r h => h2 _ h
  | cons k0 t ih =>
    intro d h1 h2
    have e : d.addMissing (k0 :: t) = (if k0 ∈ d.keyList then d else d.set k0 Res.zero).addMissing t := rfl
    rw [e]
    by_cases hk : k0 ∈ d.keyList
    · rw [if_pos hk]
      obtain ⟨a, b, c, f⟩ := ih d h1 h2
      refine ⟨a, b, fun k => ?_, f⟩
      rw [c]
      constructor
      · rintro (h | h) <;> simp [h]
      · rintro (h | h)
        · exact Or.inl h
        · rcases List.mem_cons.1 h with rfl | h
          · exact Or.inl hk
          · exact Or.inr h
    · rw [if_neg hk]
      have hs : d.set k0 Res.zero = d ++ [(k0, Res.zero)] := Dict.set_fresh hk _
      rw [hs]
      obtain ⟨a, b, c, f⟩ := ih (d ++ [(k0, Res.zero)]) (by
        rw [List.map_append, List.nodup_append]
        refine ⟨h1, by simp, ?_⟩
        rintro x hx y hy rfl
        simp at hy
        exact hk (hy ▸ hx)) (by
        intro x hx
        rcases List.mem_append.1 hx with hx | hx
        · exact h2 x hx
        · simp at hx; subst hx; exact Acc.Good.zero)
      refine ⟨a, b, fun k => ?_, fun p => ?_⟩
      · rw [c]
        simp [or_assoc, or_comm, or_left_comm]
      · rw [f p]
        unfold Dict.sumOf
        rw [List.filter_append, List.map_append, List.sum_append]
        have : ((List.filter (fun x : (ℕ × ℕ) × Res => decide (p x.1)) [(k0, Res.zero)]).map Prod.snd).sum = 0 := by
          by_cases hp : p k0 <;> simp [hp, ← Res.zero_def]
        rw [this, add_zero]

end
end TreeCorr
