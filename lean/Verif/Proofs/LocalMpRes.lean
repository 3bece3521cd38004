import Verif.Proofs.Local3
import Verif.Proofs.Parallel3
import Verif.Spec.MpArr

/-! The stored results of the patches in the local loops. -/

namespace TreeCorr
open Classical
noncomputable section

section
variable {V C T : Type} [AddCommMonoid V]

/-- Arrays and triples that can be added, and where arrays that count as empty can be left out. -/
structure SkipRel (K : Kit3 V C) (R : V → Multiset T → Prop) : Prop extends AddRel R where
  skip : ∀ {a m}, R a m → ¬ K.nz a → R 0 m

theorem AddRel.list_sum {R : V → Multiset T → Prop} (h : AddRel R) {X : Type} {l : List X} {a : X → V} {m : X → Multiset T}
    (hx : ∀ x ∈ l, R (a x) (m x)) : R (l.map a).sum (l.map m).sum := by
  induction l with
  | nil => exact h.zero
  | cons x t ih =>
    rw [List.map_cons, List.sum_cons, List.map_cons, List.sum_cons]
    exact h.add (hx x (by simp)) (ih fun y hy => hx y (by simp [hy]))

/-- Every entry belongs to some triples, all together to `M`. -/
def ResInv (R : V → Multiset T → Prop) (S : TriCorr V) (M : Multiset T) : Prop :=
  (S.results.map Prod.fst).Nodup ∧ ∃ m : ℕ × ℕ × ℕ → Multiset T, (∀ x ∈ S.results, R x.2.acc (m x.1)) ∧
    ((S.results.map Prod.fst).map m).sum = M

theorem ResInv.sum {R : V → Multiset T → Prop} (h : AddRel R) {S : TriCorr V} {M : Multiset T} (hS : ResInv R S M) :
    R (S.results.map fun x => x.2.acc).sum M := by
  obtain ⟨-, m, h1, h2⟩ := hS
  have := h.list_sum (l := S.results) (a := fun x => x.2.acc) (m := fun x => m x.1) h1
  rwa [show (S.results.map fun x => m x.1) = (S.results.map Prod.fst).map m by rw [List.map_map]; rfl, h2] at this

theorem sum_upd {α : Type} [DecidableEq α] {l : List α} (hl : l.Nodup) {k : α} (hk : k ∈ l) (m : α → Multiset T) (t : Multiset T) :
    (l.map fun x => if x = k then m x + t else m x).sum = (l.map m).sum + t := by
  induction l with
  | nil => simp at hk
  | cons x l ih =>
    rw [List.nodup_cons] at hl
    rw [List.map_cons, List.sum_cons, List.map_cons, List.sum_cons]
    by_cases hx : x = k
    · rw [if_pos hx]
      have : (l.map fun x => if x = k then m x + t else m x) = l.map m :=
        List.map_congr_left fun y hy => if_neg fun e : y = k => hl.1 ((e.trans hx.symm) ▸ hy)
      rw [this, add_right_comm]
    · rw [if_neg hx, ih hl.2 ((List.mem_cons.1 hk).resolve_left fun e => hx e.symm), add_assoc]

theorem lookup_mem {α β : Type} [BEq α] [LawfulBEq α] {l : List (α × β)} {k : α} {v : β} (h : l.lookup k = some v) : (k, v) ∈ l := by
  induction l with
  | nil => simp at h
  | cons x l ih =>
    rw [List.lookup_cons] at h
    by_cases hx : k = x.1
    · rw [show (k == x.1) = true by simpa using hx] at h
      simp only [Option.some.injEq] at h
      simp [hx, ← h]
    · rw [show (k == x.1) = false by simpa using hx] at h
      exact List.mem_cons_of_mem _ (ih h)

theorem ResInv.keep {K : Kit3 V C} {R : V → Multiset T → Prop} (h : SkipRel K R) {S : TriCorr V} {M t : Multiset T} (hS : ResInv R S M)
    {r : Res3 V} (hr : R r.acc t) (key : ℕ × ℕ × ℕ) : ResInv R (K.keep key r S) (M + t) := by
  obtain ⟨hd, m, h1, h2⟩ := hS
  by_cases hk : key ∈ S.results.map Prod.fst
  · -- the entry is there: its triples and the new ones
    have hset : ∀ v : Res3 V, R v.acc (m key + t) → ∀ (s : Res3 V), ResInv R ⟨s, S.results.set key v⟩ (M + t) := by
      intro v hv s
      have ek : ((S.results.set key v).map Prod.fst) = S.results.map Prod.fst := by
        rw [Dict3.set, if_pos hk, List.map_map]
        refine List.map_congr_left fun x _ => ?_
        show (if x.1 = key then (key, v) else x).1 = x.1
        split
        · rename_i e; exact e.symm
        · rfl
      refine ⟨ek ▸ hd, fun k => if k = key then m k + t else m k, ?_, ?_⟩
      · intro x hx
        change x ∈ S.results.set key v at hx
        rw [Dict3.set, if_pos hk, List.mem_map] at hx
        obtain ⟨y, hy, rfl⟩ := hx
        by_cases e : y.1 = key
        · rw [if_pos e]
          simpa using hv
        · rw [if_neg e]
          simpa [e] using h1 y hy
      · show (((S.results.set key v).map Prod.fst).map _).sum = _
        rw [ek, ← h2]
        exact sum_upd hd hk m t
    obtain ⟨r0, e0⟩ : ∃ r0, S.results.get key = some r0 := by
      cases e : S.results.get key with
      | some r0 => exact ⟨r0, rfl⟩
      | none =>
        obtain ⟨x, hx, rfl⟩ := List.mem_map.1 hk
        have := List.lookup_eq_none_iff.1 e x hx
        simp at this
    have hr0 : R r0.acc (m key) := h1 _ (lookup_mem e0)
    have e : K.keep key r S = ⟨K.iadd S.self r, if K.nz r0.acc then S.results.set key (K.iadd r0 r) else S.results.set key r⟩ := by
      simp only [Kit3.keep, e0]
    rw [e]
    split
    · refine hset _ ?_ _
      show R (if K.nz r.acc then r0.acc + r.acc else r0.acc) _
      split
      · exact h.add hr0 hr
      · rename_i hn
        have := h.add hr0 (h.skip hr hn)
        rwa [add_zero] at this
    · rename_i hn
      refine hset _ ?_ _
      have := h.add (h.skip hr0 hn) hr
      rwa [zero_add] at this
  · have e : K.keep key r S = ⟨K.iadd S.self r, S.results ++ [(key, r)]⟩ := by
      simp only [Kit3.keep, Dict3.get_fresh hk, Dict3.set_fresh hk]
    rw [e]
    refine ⟨?_, fun k => if k = key then t else m k, ?_, ?_⟩
    · show ((S.results ++ [(key, r)]).map Prod.fst).Nodup
      rw [List.map_append, List.nodup_append]
      refine ⟨hd, by simp, fun a ha b hb => ?_⟩
      simp only [List.map_cons, List.map_nil, List.mem_singleton] at hb
      rintro rfl
      exact hk (hb ▸ ha)
    · intro x hx
      rcases List.mem_append.1 hx with hx | hx
      · have : x.1 ≠ key := fun e => hk (e ▸ List.mem_map_of_mem hx)
        simpa [this] using h1 x hx
      · obtain rfl := List.mem_singleton.1 hx
        simpa using hr
    · show (((S.results ++ [(key, r)]).map Prod.fst).map _).sum = _
      have : (S.results.map Prod.fst).map (fun k => if k = key then t else m k) = (S.results.map Prod.fst).map m :=
        List.map_congr_left fun k hk' => if_neg fun e : k = key => hk (e ▸ hk')
      rw [List.map_append, List.map_append, List.sum_append, this, h2]
      simp

/-- The object and its stored results belong to the same triples. -/
def BothInv (R : V → Multiset T → Prop) (S : TriCorr V) (M : Multiset T) : Prop := R S.self.acc M ∧ ResInv R S M

theorem BothInv.clear {R : V → Multiset T → Prop} (h : AddRel R) : BothInv R TriCorr.clear 0 :=
  ⟨h.zero, by simp [TriCorr.clear], fun _ => 0, by simp [TriCorr.clear], by simp [TriCorr.clear]⟩

theorem BothInv.whole {R : V → Multiset T → Prop} (h : AddRel R) {S : TriCorr V} {M : Multiset T} (hS : BothInv R S M) :
    Whole (fun a => R a M) S := ⟨hS.1, hS.2.sum h⟩

theorem localPass_rel {K : Kit3 V C} {R : V → Multiset T → Prop} (h : SkipRel K R) {res : C → Res3 V} {m : C → Multiset T}
    {cats : List (ℕ × C)} (hx : ∀ c ∈ cats, R (res c.2).acc (m c.2)) {S : TriCorr V} {m0 : Multiset T} (hS : BothInv R S m0) :
    BothInv R (K.localPass (fun _ _ _ => True) res cats S) (m0 + (cats.map fun c => m c.2).sum) := by
  induction cats generalizing S m0 with
  | nil => simpa [Kit3.localPass] using hS
  | cons c t ih =>
    have e : K.localPass (fun _ _ _ => True) res (c :: t) S =
        K.localPass (fun _ _ _ => True) res t (K.keep (c.1, c.1, c.1) (res c.2) S) := by
      simp [Kit3.localPass]
    rw [e, List.map_cons, List.sum_cons, ← add_assoc]
    have hc := hx c (by simp)
    refine ih (fun c hc => hx c (by simp [hc])) ⟨?_, hS.2.keep h hc _⟩
    show R (if K.nz (res c.2).acc then S.self.acc + (res c.2).acc else S.self.acc) _
    split
    · exact h.add hS.1 hc
    · rename_i hn
      have := h.add hS.1 (h.skip hc hn)
      rwa [add_zero] at this

/-- Different numbers: what is stored are the results of the patches. -/
theorem localPass_results {K : Kit3 V C} {res : C → Res3 V} {cats : List (ℕ × C)} {S : TriCorr V} (hid : (cats.map Prod.fst).Nodup)
    (hS : ∀ c ∈ cats, (c.1, c.1, c.1) ∉ S.results.map Prod.fst) :
    (K.localPass (fun _ _ _ => True) res cats S).results = S.results ++ cats.map fun c => ((c.1, c.1, c.1), res c.2) := by
  induction cats generalizing S with
  | nil => simp [Kit3.localPass]
  | cons c t ih =>
    have e : K.localPass (fun _ _ _ => True) res (c :: t) S =
        K.localPass (fun _ _ _ => True) res t (K.keep (c.1, c.1, c.1) (res c.2) S) := by
      simp [Kit3.localPass]
    have hk : (K.keep (c.1, c.1, c.1) (res c.2) S).results = S.results ++ [((c.1, c.1, c.1), res c.2)] := by
      simp only [Kit3.keep, Dict3.get_fresh (hS c (by simp)), Dict3.set_fresh (hS c (by simp))]
    rw [List.map_cons, List.nodup_cons] at hid
    rw [e, ih hid.2, hk, List.append_assoc]
    · rfl
    · intro c' hc' h
      rw [hk, List.map_append, List.mem_append] at h
      rcases h with h | h
      · exact hS c' (by simp [hc']) h
      · simp only [List.map_cons, List.map_nil, List.mem_singleton, Prod.mk.injEq] at h
        exact hid.1 (List.mem_map.2 ⟨c', hc', h.1⟩)

end

end
end TreeCorr
