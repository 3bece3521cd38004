import Verif.Proofs.LRU
import Mathlib.Data.List.Induction

/-!
C25: the cache returns the value of the user function, evaluates it exactly when the key is not among the most recently
used ones, and `resize` and `clear` forget what they should.
-/

namespace TreeCorr
namespace LRU
variable {K V : Type} [DecidableEq K]

/-- Performs one operation on a cache object: the new object and what the caller sees. -/
def perform (f : K → V) (s : State K V) : Op K → Option (State K V × Option (V × Bool))
  | .call k => (call f s k).bind fun x => some (x.1, some x.2)
  | .resize n => (resize s n).bind fun s => some (s, none)
  | .clear => some (clear s, none)

/-- Performs a history of operations. -/
def performAll (f : K → V) : State K V → List (Op K) → Option (State K V × List (Option (V × Bool)))
  | s, [] => some (s, [])
  | s, o :: os => (perform f s o).bind fun x => (performAll f x.1 os).bind fun y => some (y.1, x.2 :: y.2)

theorem perform_refines {f : K → V} {s : State K V} {m : Memory K} {ds us : List (Ent K V)} (o : Op K)
    (H : Refines f s m ds us) :
    ∃ s' ds' us', perform f s o = some (s', m.out f o) ∧ Refines f s' (m.step o) ds' us' := by
  cases o with
  | call k =>
    by_cases hk : k ∈ m.recent
    · obtain ⟨s', us', h, R⟩ := call_hit H hk
      exact ⟨s', ds, us', by simp [perform, h, Memory.out, hk], R⟩
    · obtain ⟨s', ds', us', h, R⟩ := call_miss H hk
      exact ⟨s', ds', us', by simp [perform, h, Memory.out, hk], R⟩
  | resize n =>
    obtain ⟨s', ds', us', h, R⟩ := resize_refines n H
    exact ⟨s', ds', us', by simp [perform, h, Memory.out], R⟩
  | clear =>
    obtain ⟨ds', R⟩ := clear_refines H
    exact ⟨_, ds', [], rfl, R⟩

theorem performAll_refines {f : K → V} (os : List (Op K)) {s : State K V} {m : Memory K} {ds us : List (Ent K V)}
    (H : Refines f s m ds us) :
    ∃ s' ds' us', performAll f s os = some (s', m.outs f os) ∧ Refines f s' (m.run os) ds' us' := by
  induction os generalizing s m ds us with
  | nil => exact ⟨s, ds, us, rfl, H⟩
  | cons o os ih =>
    obtain ⟨s1, d1, u1, h1, R1⟩ := perform_refines o H
    obtain ⟨s2, d2, u2, h2, R2⟩ := ih R1
    exact ⟨s2, d2, u2, by simp [performAll, h1, h2, Memory.outs], R2⟩

/-- **C25.** For every history of calls, resizes and clears of a cache made with `maxsize ≥ 1`, no exception is raised,
every call returns the value of the function, and it evaluates the function exactly when the key is not
remembered by the least-recently-used memory of the same history.  `size` and `count` are the capacity
and the number of remembered keys, and `values()` are the values at the remembered keys. -/
theorem lru_correct (f : K → V) {n : ℕ} (hn : 1 ≤ n) (os : List (Op K)) :
    ∃ s, performAll f (create n) os = some (s, Memory.outs f ⟨n, []⟩ os) ∧
      s.cache.length = (Memory.run ⟨n, []⟩ os).cap ∧
      s.count = (Memory.run ⟨n, []⟩ os).recent.length ∧
      (values s).Perm ((Memory.run ⟨n, []⟩ os).recent.map f) := by
  obtain ⟨ds, H⟩ := create_refines f hn
  obtain ⟨s', ds', us', h, R⟩ := performAll_refines os H
  refine ⟨s', h, ?_, R.count, ?_⟩
  · rw [R.rep.length, List.length_append, R.cap]
  · unfold values
    refine (R.rep.cache.filterMap _).trans ?_
    rw [List.filterMap_map, List.filterMap_append]
    have h1 : ds'.filterMap ((fun x : Slot K × ℕ => (s'.heap x.2).result) ∘ fun e : Ent K V => (e.key, e.id)) = [] := by
      rw [List.filterMap_eq_nil_iff]
      intro d hd
      have := (R.rep.ents d (by simp [hd])).2
      rw [(R.dummy d hd).2] at this
      exact this
    have h2 : us'.filterMap ((fun x : Slot K × ℕ => (s'.heap x.2).result) ∘ fun e : Ent K V => (e.key, e.id)) =
        (Memory.run ⟨n, []⟩ os).recent.reverse.map f := by
      have e1 : us'.filterMap ((fun x : Slot K × ℕ => (s'.heap x.2).result) ∘ fun e : Ent K V => (e.key, e.id)) =
          us'.filterMap Ent.result :=
        List.filterMap_congr fun e he => (R.rep.ents e (by simp [he])).2
      have e2 : us'.map Ent.result = (Memory.run ⟨n, []⟩ os).recent.reverse.map fun k => some (f k) := by
        have := congrArg (List.map Prod.snd) R.users
        simpa [Function.comp_def] using this
      rw [e1]
      have : us'.filterMap Ent.result = (us'.map Ent.result).filterMap id := by
        rw [List.filterMap_map]; rfl
      rw [this, e2, List.filterMap_map]
      have : (id ∘ fun k : K => some (f k)) = fun k => some (f k) := rfl
      rw [this, List.filterMap_eq_map']
    rw [h1, h2, List.nil_append]
    exact (List.reverse_perm _).map f

omit [DecidableEq K] in
private theorem take_cons_take (k : K) (l : List K) (n : ℕ) : (k :: l.take n).take n = (k :: l).take n := by
  cases n with
  | zero => simp
  | succ n => simp [List.take_take]

private theorem erase_take {l : List K} (nd : l.Nodup) (k : K) (n : ℕ) :
    (k :: (l.take n).erase k).take n = (k :: l.erase k).take n := by
  by_cases h : k ∈ l.take n
  · obtain ⟨a, b, hab⟩ := List.append_of_mem h
    have hl : l = a ++ k :: (b ++ l.drop n) := by
      have := List.take_append_drop n l
      rw [hab] at this
      simpa using this.symm
    have ha : k ∉ a := by
      rw [hl, List.nodup_append] at nd
      exact fun h => nd.2.2 k h k (by simp) rfl
    have e1 : (l.take n).erase k = a ++ b := by
      rw [hab, List.erase_append_right _ ha, List.erase_cons_head]
    have e2 : l.erase k = a ++ b ++ l.drop n := by
      conv_lhs => rw [hl]
      rw [List.erase_append_right _ ha, List.erase_cons_head, List.append_assoc]
    have hlen : (k :: (a ++ b)).length ≤ n := by
      have := congrArg List.length hab
      rw [List.length_take] at this
      simp at this ⊢; omega
    rw [e1, e2]
    by_cases hn : n < l.length
    · have hlen' : (k :: (a ++ b)).length = n := by
        have := congrArg List.length hab
        rw [List.length_take] at this
        simp at this ⊢; omega
      have e3 : k :: (a ++ b ++ l.drop n) = (k :: (a ++ b)) ++ l.drop n := by simp
      rw [e3, List.take_append_of_le_length hlen'.ge]
    · rw [List.drop_eq_nil_of_le (by omega), List.append_nil]
  · rw [List.erase_of_not_mem h]
    by_cases h2 : k ∈ l
    · obtain ⟨a, b, hab⟩ := List.append_of_mem h2
      have ha : k ∉ a := by
        rw [hab, List.nodup_append] at nd
        exact fun h => nd.2.2 k h k (by simp) rfl
      have hna : n ≤ a.length := by
        by_contra hc
        apply h
        rw [hab, List.take_append]
        refine List.mem_append_right _ ?_
        obtain ⟨j, hj⟩ : ∃ j, n - a.length = j + 1 := ⟨n - a.length - 1, by omega⟩
        rw [hj]; simp
      rw [hab, List.erase_append_right _ ha, List.erase_cons_head, List.take_append_of_le_length hna]
      rw [take_cons_take, ← List.cons_append, List.take_append_of_le_length (by simp; omega)]
    · rw [List.erase_of_not_mem h2, take_cons_take]

private theorem dedup_append_singleton (ks : List K) (k : K) : (ks ++ [k]).dedup = ks.dedup.erase k ++ [k] := by
  induction ks with
  | nil => simp
  | cons b ks ih =>
    by_cases hb : b ∈ ks
    · rw [List.cons_append, List.dedup_cons_of_mem (by simp [hb]), List.dedup_cons_of_mem hb, ih]
    · by_cases hbk : b = k
      · subst hbk
        rw [List.cons_append, List.dedup_cons_of_mem (by simp), List.dedup_cons_of_notMem hb, ih,
          List.erase_cons_head, List.erase_of_not_mem (by simpa using hb)]
      · rw [List.cons_append, List.dedup_cons_of_notMem (by simp [hb, hbk]), List.dedup_cons_of_notMem hb,
          ih, List.erase_cons_tail (by simpa using hbk), List.cons_append]

/-- After calls with keys `ks`, a cache of fixed size `n` remembers the `n` most recently used distinct keys. -/
theorem run_calls (n : ℕ) (ks : List K) :
    (Memory.run ⟨n, []⟩ (ks.map Op.call)) = ⟨n, (distinctRecent ks).take n⟩ := by
  induction ks using List.reverseRecOn with
  | nil => simp [Memory.run, distinctRecent]
  | append_singleton ks k ih =>
    rw [List.map_append, Memory.run, List.foldl_append]
    change Memory.step (Memory.run ⟨n, []⟩ (ks.map Op.call)) (Op.call k) = _
    rw [ih]
    show (⟨n, (k :: ((distinctRecent ks).take n).erase k).take n⟩ : Memory K) = _
    rw [erase_take (l := distinctRecent ks) (List.nodup_reverse.2 (List.nodup_dedup ks))]
    congr 2
    unfold distinctRecent
    rw [dedup_append_singleton, List.reverse_append, List.reverse_singleton, List.singleton_append]
    congr 1
    refine ((List.nodup_reverse.2 (List.nodup_dedup ks)).erase_eq_filter k).trans ?_
    rw [(List.nodup_dedup ks).erase_eq_filter, List.filter_reverse]

/-- **C25**, in terms of the history alone: after any calls `ks` of a cache of size `n ≥ 1`, a call with `k` returns
`f k` and evaluates `f` exactly when `k` is not among the `n` most recently used distinct keys. -/
theorem lru_recompute_iff (f : K → V) {n : ℕ} (hn : 1 ≤ n) (ks : List K) (k : K) :
    ∃ s s' outs, performAll f (create n) (ks.map Op.call) = some (s, outs) ∧
      call f s k = some (s', f k, decide (k ∉ (distinctRecent ks).take n)) := by
  obtain ⟨ds, H⟩ := create_refines f hn
  obtain ⟨s', ds', us', h, R⟩ := performAll_refines (ks.map Op.call) H
  rw [run_calls] at R
  by_cases hk : k ∈ (distinctRecent ks).take n
  · obtain ⟨s2, us2, h2, -⟩ := call_hit R hk
    exact ⟨s', s2, _, h, by simpa [hk] using h2⟩
  · obtain ⟨s2, ds2, us2, h2, -⟩ := call_miss R hk
    exact ⟨s', s2, _, h, by simpa [hk] using h2⟩

/-- Just after a call, `last_value` is the value returned, if the capacity is not zero. -/
theorem last_value_correct (f : K → V) {n : ℕ} (hn : 1 ≤ n) (os : List (Op K)) (k : K)
    (hc : 1 ≤ (Memory.run ⟨n, []⟩ os).cap) :
    ∃ s s' outs b, performAll f (create n) os = some (s, outs) ∧ call f s k = some (s', f k, b) ∧
      lastValue s' = some (f k) := by
  obtain ⟨ds, H⟩ := create_refines f hn
  obtain ⟨s1, ds1, us1, h, R⟩ := performAll_refines os H
  obtain ⟨s2, ds2, us2, h2, R2⟩ := perform_refines (Op.call k) R
  simp only [perform, Memory.out] at h2
  cases hcall : call f s1 k with
  | none => rw [hcall] at h2; cases h2
  | some x =>
    rw [hcall] at h2
    simp only [Option.bind_some, Option.some.injEq, Prod.mk.injEq] at h2
    obtain ⟨rfl, h3⟩ := h2
    refine ⟨s1, x.1, _, decide (k ∉ (Memory.run ⟨n, []⟩ os).recent), h, ?_, ?_⟩
    · rw [hcall, ← h3]
    · have hrec : ∃ l, ((Memory.run ⟨n, []⟩ os).step (.call k)).recent = k :: l := by
        refine ⟨((Memory.run ⟨n, []⟩ os).recent.erase k).take ((Memory.run ⟨n, []⟩ os).cap - 1), ?_⟩
        show (k :: _).take (Memory.run ⟨n, []⟩ os).cap = _
        obtain ⟨j, hj⟩ : ∃ j, (Memory.run ⟨n, []⟩ os).cap = j + 1 := ⟨_, (Nat.succ_pred_eq_of_pos hc).symm⟩
        rw [hj]; simp
      obtain ⟨l, hl⟩ := hrec
      have hu := R2.users
      rw [hl, List.reverse_cons, List.map_append] at hu
      obtain ⟨u1, u2, rfl, -, hu2⟩ := List.map_eq_append_iff.1 hu
      obtain ⟨e, u3, rfl, he, hnil⟩ := List.map_eq_cons_iff.1 hu2
      have : u3 = [] := by simpa using hnil
      subst this
      have P := R2.rep.path
      rw [← List.append_assoc, List.map_append, List.map_cons, List.map_nil, path_append] at P
      unfold lastValue
      rw [P.2.2]
      have := (R2.rep.ents e (by simp)).2
      exact this.trans (congrArg Prod.snd he)

/-- A cache made with `maxsize = 0` cannot be called: the root has no successor, so the first call raises an exception.
A cache resized to 0 can be. -/
theorem lru_zero_wrong (f : K → V) (k : K) :
    call f (create 0) k = none ∧
      ∃ s s' : State K V, performAll f (create 1) [.resize 0] = some (s, [none]) ∧ call f s k = some (s', f k, true) := by
  constructor
  · simp [call, create, LRU.insert, setPrev, setKR]
  · obtain ⟨ds, H⟩ := create_refines f (le_refl 1)
    obtain ⟨s', ds', us', h, R⟩ := performAll_refines [.resize 0] H
    obtain ⟨s2, ds2, us2, h2, -⟩ := call_miss (k := k) R (by simp [Memory.run, Memory.step])
    exact ⟨s', s2, h, h2⟩

/-- Three keys in a cache of size 2: the second use of 1 is a hit, the use of 2 after 3 is a miss; after growing nothing is
lost; after shrinking to 1 only the last is kept. -/
example : Memory.outs (fun n : ℕ => n * n) ⟨2, []⟩
    [.call 1, .call 2, .call 1, .call 3, .call 2, .resize 5, .call 3, .resize 1, .call 2, .call 2, .clear, .call 2] =
    [some (1, true), some (4, true), some (1, false), some (9, true), some (4, true), none, some (9, false), none,
     some (4, true), some (4, false), none, some (4, true)] := by
  decide

example : ∃ s s' outs, performAll (fun n : ℕ => n * n) (create 2) ([1, 2, 1, 3].map Op.call) = some (s, outs) ∧
    call (fun n : ℕ => n * n) s 1 = some (s', 1, false) := by
  simpa [distinctRecent] using lru_recompute_iff (fun n : ℕ => n * n) (n := 2) (by norm_num) [1, 2, 1, 3] 1

end LRU
end TreeCorr
