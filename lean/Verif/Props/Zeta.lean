import Verif.Model.Zeta
import Verif.Props.Cov3

/-!
C65: the three-point clustering estimator.  C66: its rows in a covariance estimate.

`wt` reads the array `weight` of a bin off the accumulated arrays; `ddd`, `rrr`, `drr`, `rdd` are the processed objects.
-/

namespace TreeCorr
open Classical
noncomputable section
variable {V C ι : Type} [AddCommMonoid V] {K : Kit3 V C} {G : V → Prop} {wt : V → ι → ℝ}

/-! ### C65: the estimator -/

/-- **C65, formula.** With `n(X) = weight / tot`: `zeta = (n(DDD) − n(RDD) + n(DRR) − n(RRR)) / n(RRR)` if both `drr` and `rdd` are given and
`(n(DDD) − n(RRR)) / n(RRR)` if neither is. -/
theorem zeta_formula (ddd rrr : Res3 V) (rand : Option (Res3 V × Res3 V)) (k : ι) (hd : ddd.tot ≠ 0) (hr : rrr.tot ≠ 0)
    (h : ∀ r, rand = some r → r.1.tot ≠ 0 ∧ r.2.tot ≠ 0) (hk : wt rrr.acc k ≠ 0) :
    ∃ z, nnnZeta wt false ddd rrr (rand.map Prod.fst) (rand.map Prod.snd) = .ok z ∧
      z k = some (match rand with
        | none => (wt ddd.acc k / ddd.tot - wt rrr.acc k / rrr.tot) / (wt rrr.acc k / rrr.tot)
        | some (drr, rdd) => (wt ddd.acc k / ddd.tot - wt rdd.acc k / rdd.tot + wt drr.acc k / drr.tot - wt rrr.acc k / rrr.tot)
            / (wt rrr.acc k / rrr.tot)) := by
  cases rand with
  | none =>
    refine ⟨_, by simp only [nnnZeta, if_neg hr, Option.map_none, bothOrNeither, Except.bind]; exact if_neg (by simp), ?_⟩
    simp only [if_neg hk, npDiv]
    rw [if_neg (mul_ne_zero hk (div_ne_zero hd hr))]
    simp only [zetaNum, Option.map_none]
    congr 1
    field_simp
  | some r =>
    obtain ⟨drr, rdd⟩ := r
    obtain ⟨h1, h2⟩ := h _ rfl
    simp only at h1 h2
    refine ⟨_, by
      simp only [nnnZeta, if_neg hr, Option.map_some, bothOrNeither, Except.bind]
      rw [if_neg (by simp), if_neg (by simp [h1, h2])], ?_⟩
    simp only [if_neg hk, npDiv]
    rw [if_neg (mul_ne_zero hk (div_ne_zero hd hr))]
    simp only [zetaNum, Option.map_some]
    congr 1
    field_simp

/-- **C65, arguments.** `calculateZeta` gives an answer exactly if the binning is not LogMultipole, both or neither of `drr` and `rdd`
are given, and none of the objects given has a total of 0. -/
theorem zeta_answers (multipole : Bool) (ddd rrr : Res3 V) (drr rdd : Option (Res3 V)) :
    (∃ z, nnnZeta wt multipole ddd rrr drr rdd = .ok z) ↔
      multipole = false ∧ (drr.isSome = rdd.isSome) ∧ rrr.tot ≠ 0 ∧ (∀ r, drr = some r → r.tot ≠ 0) ∧ (∀ r, rdd = some r → r.tot ≠ 0) := by
  unfold nnnZeta
  by_cases hr : rrr.tot = 0
  · simp [hr]
  · rw [if_neg hr]
    cases drr with
    | none =>
      cases rdd with
      | none => cases multipole <;> simp [bothOrNeither, Except.bind, hr]
      | some b => simp [bothOrNeither, Except.bind]
    | some a =>
      cases rdd with
      | none => simp [bothOrNeither, Except.bind]
      | some b =>
        cases multipole
        · by_cases h1 : a.tot = 0
          · simp [bothOrNeither, Except.bind, h1]
          · by_cases h2 : b.tot = 0
            · simp [bothOrNeither, Except.bind, h2]
            · simp [bothOrNeither, Except.bind, h1, h2, hr]
        · simp [bothOrNeither, Except.bind]

/-- **C65, scale of the randoms.** Objects with the same `weight / tot` in every bin may replace each other: using more randoms, or
other weights for all of them, of the same density does not change `zeta`. -/
theorem zeta_scale (ddd rrr rrr' : Res3 V) (rand rand' : Option (Res3 V × Res3 V)) (k : ι) (hd : ddd.tot ≠ 0)
    (hr : rrr.tot ≠ 0) (hr' : rrr'.tot ≠ 0) (q : wt rrr.acc k / rrr.tot = wt rrr'.acc k / rrr'.tot) (hk : wt rrr.acc k ≠ 0)
    (h : ∀ r, rand = some r → r.1.tot ≠ 0 ∧ r.2.tot ≠ 0) (h' : ∀ r, rand' = some r → r.1.tot ≠ 0 ∧ r.2.tot ≠ 0)
    (hs : rand.map (fun r => (wt r.1.acc k / r.1.tot, wt r.2.acc k / r.2.tot))
      = rand'.map fun r => (wt r.1.acc k / r.1.tot, wt r.2.acc k / r.2.tot)) :
    ∃ z z', nnnZeta wt false ddd rrr (rand.map Prod.fst) (rand.map Prod.snd) = .ok z ∧
      nnnZeta wt false ddd rrr' (rand'.map Prod.fst) (rand'.map Prod.snd) = .ok z' ∧ z k = z' k := by
  have hk' : wt rrr'.acc k ≠ 0 := by
    intro e
    rw [e, zero_div, div_eq_zero_iff] at q
    rcases q with q | q
    exacts [hk q, hr q]
  obtain ⟨z, e1, e2⟩ := zeta_formula ddd rrr rand k hd hr h hk
  obtain ⟨z', e1', e2'⟩ := zeta_formula ddd rrr' rand' k hd hr' h' hk'
  refine ⟨z, z', e1, e1', e2.trans (Eq.trans ?_ e2'.symm)⟩
  cases rand with
  | none =>
    cases rand' with
    | none => simp only [q]
    | some r => simp at hs
  | some r =>
    cases rand' with
    | none => simp at hs
    | some r' =>
      obtain ⟨a, b⟩ := r
      obtain ⟨a', b'⟩ := r'
      simp only [Option.map_some, Option.some.injEq, Prod.mk.injEq] at hs
      simp only [q, hs.1, hs.2]

/-- **C65, no clustering.** Where the data are as dense as the randoms `zeta` is 0. -/
theorem zeta_zero (ddd rrr : Res3 V) (rand : Option (Res3 V × Res3 V)) (k : ι) (hd : ddd.tot ≠ 0) (hr : rrr.tot ≠ 0)
    (h : ∀ r, rand = some r → r.1.tot ≠ 0 ∧ r.2.tot ≠ 0) (hk : wt rrr.acc k ≠ 0)
    (q0 : wt ddd.acc k / ddd.tot = wt rrr.acc k / rrr.tot)
    (q1 : ∀ r, rand = some r → wt r.1.acc k / r.1.tot = wt r.2.acc k / r.2.tot) :
    ∃ z, nnnZeta wt false ddd rrr (rand.map Prod.fst) (rand.map Prod.snd) = .ok z ∧ z k = some 0 := by
  obtain ⟨z, e1, e2⟩ := zeta_formula ddd rrr rand k hd hr h hk
  refine ⟨z, e1, e2.trans ?_⟩
  cases rand with
  | none => simp [q0]
  | some r =>
    obtain ⟨a, b⟩ := r
    have := q1 _ rfl
    simp only at this
    simp only [q0, this]
    congr 1
    ring_nf

/-- **C65, bins without random triangles.** There `zeta` is the numerator itself, in units of triangle weight. -/
theorem zeta_no_rrr (ddd rrr : Res3 V) (k : ι) (hr : rrr.tot ≠ 0) (hk : wt rrr.acc k = 0) :
    ∃ z, nnnZeta wt false ddd rrr none none = .ok z ∧ z k = some (wt ddd.acc k) := by
  refine ⟨_, by simp only [nnnZeta, if_neg hr, bothOrNeither, Except.bind]; exact if_neg (by simp), ?_⟩
  simp [hk, npDiv, zetaNum]

/-- **C65, negation.** With three triangles in a bin where the randoms have none `zeta` is 3, and for data of zero total weight it is
not finite.  (One bin; the arrays are just its `weight`.) -/
theorem zeta_bins_wrong :
    (∃ z, nnnZeta (V := ℝ) (ι := Unit) (fun v _ => v) false ⟨3, 10⟩ ⟨0, 10⟩ none none = .ok z ∧ z () = some 3) ∧
    ∃ z, nnnZeta (V := ℝ) (ι := Unit) (fun v _ => v) false ⟨0, 0⟩ ⟨1, 10⟩ none none = .ok z ∧ z () = none := by
  constructor
  · exact zeta_no_rrr _ _ _ (by norm_num) rfl
  · refine ⟨_, by simp only [nnnZeta, bothOrNeither, Except.bind]; rw [if_neg (by norm_num)]; exact if_neg (by simp), ?_⟩
    simp [npDiv]

example : ∃ z, nnnZeta (V := ℝ) (ι := Unit) (fun v _ => v) false ⟨3, 10⟩ ⟨4, 20⟩ (some ⟨5, 20⟩) (some ⟨6, 40⟩) = .ok z ∧
    z () = some 1 := by
  obtain ⟨z, h1, h2⟩ := zeta_formula (V := ℝ) (ι := Unit) (wt := fun v _ => v) ⟨3, 10⟩ ⟨4, 20⟩ (some (⟨5, 20⟩, ⟨6, 40⟩)) ()
    (by norm_num) (by norm_num) (by rintro r h; obtain rfl := Option.some.inj h; norm_num) (by norm_num)
  refine ⟨z, h1, h2.trans ?_⟩
  norm_num

/-! ### C66: rows of a covariance estimate -/

/-- The sum of the stored results, each as often as `w` says. -/
def Dict3.wsum (d : Dict3 V) (w : Triple → ℕ) : Res3 V := (d.map fun x => w x.1 • x.2).sum

/-- With finite nonzero totals a row's `zeta` is `calculateZeta` of the sums. -/
theorem rowZeta_eq (ddd rrr : Res3 V) (rand : Option (Res3 V × Res3 V)) (hd : ddd.tot ≠ 0) (hr : rrr.tot ≠ 0)
    (h : ∀ r, rand = some r → r.1.tot ≠ 0 ∧ r.2.tot ≠ 0) :
    nnnZeta wt false ddd rrr (rand.map Prod.fst) (rand.map Prod.snd) = .ok (rowZeta wt ddd (some ddd.tot) rrr rand) := by
  have e : npDiv ddd.tot rrr.tot = some (ddd.tot / rrr.tot) := if_neg hr
  have hden : ∀ k, wt rrr.acc k * (ddd.tot / rrr.tot) = 0 ↔ wt rrr.acc k = 0 := by
    intro k; simp [hd, hr]
  cases rand with
  | none =>
    simp only [nnnZeta, if_neg hr, Option.map_none, bothOrNeither, Except.bind]
    rw [if_neg (by simp), if_neg (by simp)]
    congr 1
    funext k
    simp [rowZeta, e, hd, hr]
  | some r =>
    obtain ⟨a, b⟩ := r
    obtain ⟨h1, h2⟩ := h _ rfl
    simp only at h1 h2
    have e1 : npDiv ddd.tot a.tot = some (ddd.tot / a.tot) := if_neg h1
    have e2 : npDiv ddd.tot b.tot = some (ddd.tot / b.tot) := if_neg h2
    simp only [nnnZeta, if_neg hr, Option.map_some, bothOrNeither, Except.bind]
    rw [if_neg (by simp), if_neg (by simp [h1, h2])]
    congr 1
    funext k
    simp [rowZeta, e, e1, e2, hd, hr]

theorem sum_okTriples (hK : K.Good G) {d : Dict3 V} {q : Patched3 V} (hq : Stored K G q.results) {l : List Triple} (w : Triple → ℕ)
    (hl : ∀ t, l.count t = if t ∈ d.map Prod.fst then w t else 0) (hsub : ∀ t ∈ q.results.map Prod.fst, t ∈ d.map Prod.fst) :
    (fetch3 q.results (q.okTriples l)).map K.sumOthers = some (q.results.wsum w) := by
  obtain ⟨rs, h1, h2⟩ := weighted_row hK hq w (l := q.okTriples l) (by
    intro t
    unfold Patched3.okTriples okTriple
    by_cases ht : t ∈ q.results.map Prod.fst
    · rw [List.count_filter (by simpa using ht), hl, if_pos (hsub t ht), if_pos ht]
    · rw [if_neg ht, List.count_eq_zero]
      intro hm
      exact ht (of_decide_eq_true (List.mem_filter.1 hm).2))
  rw [h1, Option.map_some, h2]
  rfl

/-- **C66, general.** A row that uses every stored triple `t` of the data `w t` times has as `zeta` what `calculateZeta` gives for the sums in
which each stored result of the data and of each random object is taken `w t` times, provided the totals are not 0, the
randoms are in the same patches and every triple of theirs is in `results` (which `calculateZeta` sees to, `afterZeta_covers`). -/
theorem row_is_calculateZeta (hK : K.Good G) (E : ZetaEnv V) {l : List Triple} (w : Triple → ℕ) (hE : Stored K G E.results)
    (hl : ∀ t, l.count t = if t ∈ E.results.map Prod.fst then w t else 0)
    (hrrr : Stored K G E.rrr.results ∧ E.rrr.results ≠ [] ∧ ∀ t ∈ E.rrr.results.map Prod.fst, t ∈ E.results.map Prod.fst)
    (hrand : ∀ a b, E.rand = some (a, b) → Stored K G a.results ∧ Stored K G b.results ∧ a.n2 ≠ 1 ∧ b.n1 ≠ 1 ∧
      (∀ t ∈ a.results.map Prod.fst, t ∈ E.results.map Prod.fst) ∧ ∀ t ∈ b.results.map Prod.fst, t ∈ E.results.map Prod.fst)
    (t0 : (E.results.wsum w).tot ≠ 0) (t1 : (E.rrr.results.wsum w).tot ≠ 0)
    (t2 : ∀ a b, E.rand = some (a, b) → (a.results.wsum w).tot ≠ 0 ∧ (b.results.wsum w).tot ≠ 0) :
    ∃ z, zetaFromTriples wt K E l = some z ∧
      nnnZeta wt false (E.results.wsum w) (E.rrr.results.wsum w) (E.rand.map fun r => r.1.results.wsum w)
        (E.rand.map fun r => r.2.results.wsum w) = .ok z := by
  obtain ⟨rs, r1, r2⟩ := weighted_row hK hE w hl
  have e0 : (fetch3 E.results l).map K.sumOthers = some (E.results.wsum w) := by rw [r1, Option.map_some, r2]; rfl
  have e1 : E.sumRrr K l = some (E.rrr.results.wsum w) := by
    rw [ZetaEnv.sumRrr, if_neg hrrr.2.1]
    exact sum_okTriples hK hrrr.1 w hl hrrr.2.2
  have ed : E.dddTot (E.results.wsum w) l = some (some (E.results.wsum w).tot) := by
    rw [ZetaEnv.dddTot, if_neg hrrr.2.1]
  unfold zetaFromTriples
  rw [e0, Option.bind_some, e1, Option.bind_some, ed, Option.bind_some]
  cases h : E.rand with
  | none =>
    refine ⟨rowZeta wt (E.results.wsum w) (some (E.results.wsum w).tot) (E.rrr.results.wsum w) none, ?_, ?_⟩
    · simp only [ZetaEnv.sumRand, h, Option.map_some]
    · exact rowZeta_eq _ _ none t0 t1 (by simp)
  | some r =>
    obtain ⟨a, b⟩ := r
    obtain ⟨ha, hb, na, nb, sa, sb⟩ := hrand a b h
    obtain ⟨ta, tb⟩ := t2 a b h
    refine ⟨rowZeta wt (E.results.wsum w) (some (E.results.wsum w).tot) (E.rrr.results.wsum w)
      (some (a.results.wsum w, b.results.wsum w)), ?_, ?_⟩
    · have ea : (fetch3 a.results (drrTriples a l)).map K.sumOthers = some (a.results.wsum w) := by
        rw [drrTriples, if_neg na]
        exact sum_okTriples hK ha w hl sa
      have eb : (fetch3 b.results (rddTriples b l)).map K.sumOthers = some (b.results.wsum w) := by
        rw [rddTriples, if_neg fun h => nb h.1]
        exact sum_okTriples hK hb w hl sb
      simp only [ZetaEnv.sumRand, h, ea, eb, Option.bind_some, Option.map_some]
    · exact rowZeta_eq _ _ (some (a.results.wsum w, b.results.wsum w)) t0 t1 (by
        rintro r hr; obtain rfl := Option.some.inj hr; exact ⟨ta, tb⟩)

theorem Dict3.wsum_append (d e : Dict3 V) (w : Triple → ℕ) : Dict3.wsum (d ++ e) w = d.wsum w + Dict3.wsum e w := by
  simp [Dict3.wsum]

theorem addMissing3_spec (hK : K.Good G) (keys : List Triple) : ∀ (d : Dict3 V), Stored K G d →
    Stored K G (d.addMissing keys) ∧ (∀ w, (d.addMissing keys).wsum w = d.wsum w) ∧
      ∀ t, t ∈ (d.addMissing keys).map Prod.fst ↔ t ∈ d.map Prod.fst ∨ t ∈ keys := by
  induction keys with
  | nil => intro d hd; exact ⟨hd, fun _ => rfl, by simp [Dict3.addMissing]⟩
  | cons k t ih =>
    intro d hd
    have e : d.addMissing (k :: t) = Dict3.addMissing (if k ∈ d.map Prod.fst then d else d.set k Res3.zero) t := rfl
    rw [e]
    by_cases hk : k ∈ d.map Prod.fst
    · rw [if_pos hk]
      obtain ⟨a1, a2, a3⟩ := ih d hd
      refine ⟨a1, a2, fun u => ?_⟩
      rw [a3, List.mem_cons]
      constructor
      · rintro (h | h)
        exacts [.inl h, .inr (.inr h)]
      · rintro (h | rfl | h)
        exacts [.inl h, .inl hk, .inr h]
    · rw [if_neg hk, Dict3.set_fresh hk]
      obtain ⟨a1, a2, a3⟩ := ih (d ++ [(k, Res3.zero)]) (by
        refine ⟨?_, ?_, ?_⟩
        · rw [List.map_append, List.nodup_append]
          refine ⟨hd.keys, by simp, ?_⟩
          rintro a ha b hb rfl
          simp at hb
          exact hk (hb ▸ ha)
        · intro x hx
          rcases List.mem_append.1 hx with h | h
          · exact hd.good x h
          · simp at h
            rw [h]
            exact hK.zero
        · intro hn x hx
          rcases List.mem_append.1 hx with h | h
          · exact hd.plain hn x h
          · simp at h
            rw [h]
            rfl)
      refine ⟨a1, fun w => ?_, fun u => ?_⟩
      · rw [a2, Dict3.wsum_append]
        have : Dict3.wsum [(k, (Res3.zero : Res3 V))] w = 0 := by
          simp [Dict3.wsum, ← Res3.zero_def]
        rw [this, add_zero]
      · rw [a3]
        simp only [List.map_append, List.mem_append, List.map_cons, List.map_nil, List.mem_singleton, List.mem_cons]
        tauto

/-- `calculateZeta` adds the missing triples to `results` without changing any sum. -/
theorem afterZeta_covers (hK : K.Good G) {d : Dict3 V} (hd : Stored K G d) (rrr : Patched3 V) (rand : Option (Patched3 V × Patched3 V)) :
    Stored K G (afterZeta d rrr rand) ∧ (∀ w, (afterZeta d rrr rand).wsum w = d.wsum w) ∧
    (rrr.n1 ≠ 1 → ∀ t ∈ rrr.results.map Prod.fst, t ∈ (afterZeta d rrr rand).map Prod.fst) ∧
    (∀ a b, rand = some (a, b) → a.n2 ≠ 1 → ∀ t ∈ a.results.map Prod.fst, t ∈ (afterZeta d rrr rand).map Prod.fst) ∧
    ∀ a b, rand = some (a, b) → b.n1 ≠ 1 → ∀ t ∈ b.results.map Prod.fst, t ∈ (afterZeta d rrr rand).map Prod.fst := by
  have step : ∀ (d : Dict3 V) (c : Prop) [Decidable c] (keys : List Triple), Stored K G d →
      Stored K G (if c then d.addMissing keys else d) ∧
      (∀ w, (if c then d.addMissing keys else d).wsum w = d.wsum w) ∧
      (∀ k ∈ d.map Prod.fst, k ∈ (if c then d.addMissing keys else d).map Prod.fst) ∧
      (c → ∀ k ∈ keys, k ∈ (if c then d.addMissing keys else d).map Prod.fst) := by
    intro d c _ keys h
    obtain ⟨a1, a2, a3⟩ := addMissing3_spec hK keys d h
    by_cases hc : c
    · rw [if_pos hc]
      exact ⟨a1, a2, fun k hk => (a3 k).2 (Or.inl hk), fun _ k hk => (a3 k).2 (Or.inr hk)⟩
    · rw [if_neg hc]
      exact ⟨h, fun _ => rfl, fun k hk => hk, fun h' => absurd h' hc⟩
  obtain ⟨a1, b1, c1, f1⟩ := step d (rrr.n1 ≠ 1) (rrr.results.map Prod.fst) hd
  cases rand with
  | none => exact ⟨a1, b1, f1, by simp, by simp⟩
  | some r =>
    obtain ⟨a, b⟩ := r
    obtain ⟨a2, b2, c2, f2⟩ := step _ (a.n2 ≠ 1) (a.results.map Prod.fst) a1
    obtain ⟨a3, b3, c3, f3⟩ := step _ (b.n1 ≠ 1) (b.results.map Prod.fst) a2
    refine ⟨a3, fun w => ((b3 w).trans (b2 w)).trans (b1 w), fun h k hk => c3 _ (c2 _ (f1 h k hk)), ?_, ?_⟩
    · rintro a' b' e
      obtain ⟨rfl, rfl⟩ := Prod.mk.inj (Option.some.inj e)
      exact fun h k hk => c3 _ (f2 h k hk)
    · rintro a' b' e
      obtain ⟨rfl, rfl⟩ := Prod.mk.inj (Option.some.inj e)
      exact f3

/-- Once or not at all. -/
def onceIf (p : Triple → Prop) (t : Triple) : ℕ := if p t then 1 else 0

theorem auto3_without (hK : K.Good G) (cats : List (ℕ × C)) (hid : (cats.map Prod.fst).Nodup) (S : TriCorr V)
    (hn : cats.length ≠ 1) (i : ℕ) :
    (K.processAuto true cats S).results.wsum (onceIf (keepsTriple cats.length cats.length cats.length i))
      = (K.processAuto true (leaveOut i cats) S).self := by
  have hd : Divided cats.length cats.length cats.length cats.length := ⟨hn, .inr rfl, .inr rfl, .inr rfl, fun h => hn h.1⟩
  have hs := (run_stored hK true hid hid hid S).1
  obtain ⟨l, rs, e1, e2, e3⟩ := jackknife3_auto_recomputed hK cats hid S hn i
  obtain ⟨l', f1, f2⟩ := jackknife3_uses hd hs.keys i
  obtain rfl := Option.some.inj (e1.symm.trans f1)
  obtain ⟨rs', g1, g2⟩ := weighted_row hK hs (onceIf (keepsTriple cats.length cats.length cats.length i)) (l := l) (by
    intro t
    rw [f2, onceIf]
    by_cases a : t ∈ List.map Prod.fst (K.processAuto true cats S).results <;> simp [a])
  obtain rfl := Option.some.inj (e2.symm.trans g1)
  rw [← e3, g2]
  rfl

theorem cross12_without (hK : K.Good G) (o : Bool) {ids : List ℕ} (hid : ids.Nodup) (hn : ids.length ≠ 1)
    {cats1 cats2 : List (ℕ × C)} (h1 : InPatches ids cats1) (h2 : InPatches ids cats2) (hd : cats1.length ≠ 1 ∨ cats2.length ≠ 1)
    (S : TriCorr V) (i : ℕ) :
    (K.processCross12 true o cats1 cats2 S).results.wsum (onceIf (keepsTriple cats1.length cats2.length cats2.length i))
      = (K.processCross12 true o (leaveOut i cats1) (leaveOut i cats2) S).self := by
  have hdiv : Divided ids.length cats1.length cats2.length cats2.length :=
    ⟨hn, h1.length, h2.length, h2.length, fun h => by omega⟩
  have hs := (run_stored hK o (h1.nodup hid) (h2.nodup hid) (h2.nodup hid) S).2.1
  obtain ⟨l, rs, e1, e2, e3⟩ := jackknife3_cross12_recomputed hK o hid hn h1 h2 hd S i
  obtain ⟨l', f1, f2⟩ := jackknife3_uses hdiv hs.keys i
  obtain rfl := Option.some.inj (e1.symm.trans f1)
  obtain ⟨rs', g1, g2⟩ := weighted_row hK hs (onceIf (keepsTriple cats1.length cats2.length cats2.length i)) (l := l) (by
    intro t
    rw [f2, onceIf]
    by_cases a : t ∈ List.map Prod.fst (K.processCross12 true o cats1 cats2 S).results <;> simp [a])
  obtain rfl := Option.some.inj (e2.symm.trans g1)
  rw [← e3, g2]
  rfl

theorem auto3_results_ne (hK : K.Good G) (cats : List (ℕ × C)) (hid : (cats.map Prod.fst).Nodup) (S : TriCorr V) (hne : cats ≠ []) :
    (K.processAuto true cats S).results ≠ [] := by
  rw [processAuto3_jobs hK hid]
  cases cats with
  | nil => exact absurd rfl hne
  | cons c t =>
    rw [autoJobs3, List.flatMap_cons, autoRowJobs3, List.cons_append, List.flatMap_cons]
    simp [Job3.stored, job111]

/-- Data and randoms in the same patches: the objects `calculateZeta` is called with, and what it leaves for the rows. -/
def dividedEnv (K : Kit3 V C) (o : Bool) (cats rcats : List (ℕ × C)) (useRand : Bool) (S : TriCorr V) : ZetaEnv V :=
  let n := cats.length
  let rrr : Patched3 V := ⟨(K.processAuto true rcats S).results, n, n⟩
  let rand : Option (Patched3 V × Patched3 V) := if useRand then
    some (⟨(K.processCross12 true o cats rcats S).results, n, n⟩, ⟨(K.processCross12 true o rcats cats S).results, n, n⟩) else none
  ⟨afterZeta (K.processAuto true cats S).results rrr rand, rrr, (K.processAuto true rcats S).self, rand⟩

/-- **C66, rows in general.** Data `cats` and randoms `rcats` in the same patches.  A row that uses each stored triple `t` `w t` times has
as `zeta` what `calculateZeta` gives for the results of the four runs, each taken `w t` times. -/
theorem divided_row (hK : K.Good G) (o : Bool) (cats rcats : List (ℕ × C)) (hids : cats.map Prod.fst = rcats.map Prod.fst)
    (hid : (cats.map Prod.fst).Nodup) (hn : 1 < cats.length) (S : TriCorr V) (useRand : Bool) (w : Triple → ℕ) {l : List Triple}
    (hl : ∀ t, l.count t = if t ∈ (dividedEnv K o cats rcats useRand S).results.map Prod.fst then w t else 0)
    (t0 : ((K.processAuto true cats S).results.wsum w).tot ≠ 0) (t1 : ((K.processAuto true rcats S).results.wsum w).tot ≠ 0)
    (t2 : useRand = true → ((K.processCross12 true o cats rcats S).results.wsum w).tot ≠ 0 ∧
      ((K.processCross12 true o rcats cats S).results.wsum w).tot ≠ 0) :
    ∃ z, zetaFromTriples wt K (dividedEnv K o cats rcats useRand S) l = some z ∧
      nnnZeta wt false ((K.processAuto true cats S).results.wsum w) ((K.processAuto true rcats S).results.wsum w)
        (if useRand then some ((K.processCross12 true o cats rcats S).results.wsum w) else none)
        (if useRand then some ((K.processCross12 true o rcats cats S).results.wsum w) else none) = .ok z := by
  have hidr : (rcats.map Prod.fst).Nodup := hids ▸ hid
  have hlen : cats.length = rcats.length := by simpa using congrArg List.length hids
  have hn1 : cats.length ≠ 1 := by omega
  have hne : rcats ≠ [] := by rintro rfl; rw [List.length_nil] at hlen; omega
  have sD := (run_stored hK o hid hidr hidr S).1
  have sR := (run_stored hK o hidr hid hid S).1
  have sX := (run_stored hK o hid hidr hidr S).2.1
  have sY := (run_stored hK o hidr hid hid S).2.1
  obtain ⟨c1, c2, c3, c4, c5⟩ := afterZeta_covers hK sD (dividedEnv K o cats rcats useRand S).rrr (dividedEnv K o cats rcats useRand S).rand
  have hres : (dividedEnv K o cats rcats useRand S).results.wsum w = (K.processAuto true cats S).results.wsum w := c2 w
  obtain ⟨z, h1, h2⟩ := row_is_calculateZeta (wt := wt) hK (dividedEnv K o cats rcats useRand S) w c1 hl
    ⟨sR, auto3_results_ne hK _ hidr S hne, c3 hn1⟩
    (by
      intro a b h
      have h' := h
      cases useRand
      · cases h
      · obtain ⟨rfl, rfl⟩ := Prod.mk.inj (Option.some.inj h)
        exact ⟨sX, sY, hn1, hn1, c4 _ _ h' hn1, c5 _ _ h' hn1⟩)
    (by rw [hres]; exact t0) t1
    (by
      intro a b h
      cases useRand
      · cases h
      · obtain ⟨rfl, rfl⟩ := Prod.mk.inj (Option.some.inj h)
        exact t2 rfl)
  refine ⟨z, h1, ?_⟩
  rw [← h2, hres]
  cases useRand <;> rfl

/-- **C66, jackknife.** Data `cats` and randoms `rcats` in the same patches; DDD and RRR processed as auto-correlations, DRR and RDD as
cross-correlations, then `calculateZeta` with RRR and, if wanted, DRR and RDD.  Row `i` of the jackknife design matrix is
`calculateZeta` of what processing data and randoms without patch `i` gives. -/
theorem jackknife_zeta (hK : K.Good G) (o : Bool) (cats rcats : List (ℕ × C)) (hids : cats.map Prod.fst = rcats.map Prod.fst)
    (hid : (cats.map Prod.fst).Nodup) (hn : 1 < cats.length) (S : TriCorr V) (useRand : Bool) (i : ℕ) :
    let E := dividedEnv K o cats rcats useRand S
    let cats' := leaveOut i cats
    let rcats' := leaveOut i rcats
    let DDD := (K.processAuto true cats' S).self
    let RRR := (K.processAuto true rcats' S).self
    let DRR := (K.processCross12 true o cats' rcats' S).self
    let RDD := (K.processCross12 true o rcats' cats' S).self
    DDD.tot ≠ 0 → RRR.tot ≠ 0 → (useRand = true → DRR.tot ≠ 0 ∧ RDD.tot ≠ 0) →
    ∃ l z, jackknifeTriples cats.length cats.length cats.length (E.results.map Prod.fst) i = some l ∧
      zetaFromTriples wt K E l = some z ∧
      nnnZeta wt false DDD RRR (if useRand then some DRR else none) (if useRand then some RDD else none) = .ok z := by
  intro E cats' rcats' DDD RRR DRR RDD hD hR hX
  have hidr : (rcats.map Prod.fst).Nodup := hids ▸ hid
  have hlen : cats.length = rcats.length := by simpa using congrArg List.length hids
  have hn1 : cats.length ≠ 1 := by omega
  have sD := (run_stored hK o hid hidr hidr S).1
  have hdiv : Divided cats.length cats.length cats.length cats.length := ⟨hn1, .inr rfl, .inr rfl, .inr rfl, fun h => hn1 h.1⟩
  obtain ⟨l, f1, f2⟩ := jackknife3_uses hdiv (afterZeta_covers hK sD E.rrr E.rand).1.keys i
  have p1 : InPatches (cats.map Prod.fst) cats := .inl rfl
  have p2 : InPatches (cats.map Prod.fst) rcats := .inl hids.symm
  have eD := auto3_without hK cats hid S hn1 i
  have eR := auto3_without hK rcats hidr S (by omega) i
  have eX := cross12_without hK o hid (by simpa using hn1) p1 p2 (.inl hn1) S i
  have eY := cross12_without hK o hid (by simpa using hn1) p2 p1 (.inr hn1) S i
  rw [← hlen] at eR eX eY
  obtain ⟨z, h1, h2⟩ := divided_row (wt := wt) hK o cats rcats hids hid hn S useRand
    (onceIf (keepsTriple cats.length cats.length cats.length i)) (l := l) (by
      intro t
      rw [f2, onceIf]
      by_cases a : t ∈ E.results.map Prod.fst
      · rw [if_pos a]; simp [a, E, dividedEnv] at *; simp [a]
      · rw [if_neg a]; simp [E, dividedEnv] at *; simp [a])
    (by rw [eD]; exact hD) (by rw [eR]; exact hR) (by rw [eX, eY]; exact hX)
  refine ⟨l, z, f1, h1, ?_⟩
  rw [eD, eR, eX, eY] at h2
  exact h2

/-! #### Randoms without patches -/

theorem stored_nn (hnn : K.nn = true) (js : List (Job3 V)) : js.flatMap (Job3.stored K) = js.map fun J => (J.key, J.val K) := by
  rw [map_flatMap_one]
  apply List.flatMap_congr
  intro J _
  simp [Job3.stored, hnn]

theorem auto3_keys (hK : K.Good G) (hnn : K.nn = true) (cats : List (ℕ × C)) (hid : (cats.map Prod.fst).Nodup) (S : TriCorr V) (t : Triple) :
    t ∈ (K.processAuto true cats S).results.map Prod.fst ↔
      (t.1 ∈ cats.map Prod.fst ∧ t.2.1 ∈ cats.map Prod.fst ∧ t.2.2 ∈ cats.map Prod.fst) ∧ t.1 ≤ t.2.1 ∧ t.2.1 ≤ t.2.2 := by
  rw [processAuto3_jobs hK hid, stored_nn hnn, List.map_map]
  constructor
  · intro h
    obtain ⟨J, hJ, rfl⟩ := List.mem_map.1 h
    refine ⟨?_, autoJobs3_sorted cats J hJ⟩
    obtain ⟨c1, m1, h2⟩ := List.mem_flatMap.1 hJ
    have i1 := List.mem_map_of_mem (f := Prod.fst) m1
    rcases List.mem_cons.1 h2 with rfl | h2
    · exact ⟨i1, i1, i1⟩
    · obtain ⟨c2, m2, h2⟩ := List.mem_flatMap.1 h2
      have i2 := List.mem_map_of_mem (f := Prod.fst) (List.mem_reverse.1 (List.mem_filter.1 m2).1)
      rcases List.mem_cons.1 h2 with rfl | h2
      · exact ⟨i1, i2, i2⟩
      · rcases List.mem_cons.1 h2 with rfl | h2
        · exact ⟨i1, i1, i2⟩
        · obtain ⟨c3, m3, rfl⟩ := List.mem_map.1 h2
          exact ⟨i1, i2, List.mem_map_of_mem (List.mem_filter.1 m3).1⟩
  · obtain ⟨a, b, c⟩ := t
    rintro ⟨⟨h1, h2, h3⟩, h12, h23⟩
    obtain ⟨c1, m1, rfl⟩ := List.mem_map.1 h1
    obtain ⟨c2, m2, rfl⟩ := List.mem_map.1 h2
    obtain ⟨c3, m3, rfl⟩ := List.mem_map.1 h3
    simp only at h12 h23
    have key : ∃ J ∈ autoRowJobs3 K cats c1, J.key = (c1.1, c2.1, c3.1) := by
      rcases h12.lt_or_eq with l1 | e1
      · have m2' : c2 ∈ cats.reverse.filter fun c => c1.1 < c.1 := by simp [m2, l1]
        rcases h23.lt_or_eq with l2 | e2
        · refine ⟨job123 K false .any c1 c2 c3, List.mem_cons_of_mem _ (List.mem_flatMap.2 ⟨c2, m2', ?_⟩), rfl⟩
          exact List.mem_cons_of_mem _ (List.mem_cons_of_mem _ (List.mem_map.2 ⟨c3, by simp [m3, l2], rfl⟩))
        · refine ⟨_, List.mem_cons_of_mem _ (List.mem_flatMap.2 ⟨c2, m2', List.mem_cons_self⟩), ?_⟩
          simp [job12, e2]
      · rcases h23.lt_or_eq with l2 | e2
        · have m3' : c3 ∈ cats.reverse.filter fun c => c1.1 < c.1 := by simp [m3]; omega
          refine ⟨_, List.mem_cons_of_mem _ (List.mem_flatMap.2 ⟨c3, m3', List.mem_cons_of_mem _ List.mem_cons_self⟩), ?_⟩
          simp [job12, e1]
        · exact ⟨_, List.mem_cons_self, by simp [job111, e1, e2]⟩
    obtain ⟨J, hJ, e⟩ := key
    exact List.mem_map.2 ⟨J, List.mem_flatMap.2 ⟨c1, m1, hJ⟩, e⟩

theorem cross12_keys (hK : K.Good G) (hnn : K.nn = true) (o : Bool) (cats1 cats2 : List (ℕ × C)) (h1 : (cats1.map Prod.fst).Nodup)
    (h2 : (cats2.map Prod.fst).Nodup) (S : TriCorr V) (t : Triple) :
    t ∈ (K.processCross12 true o cats1 cats2 S).results.map Prod.fst ↔
      (t.1 ∈ cats1.map Prod.fst ∧ t.2.1 ∈ cats2.map Prod.fst ∧ t.2.2 ∈ cats2.map Prod.fst) ∧ t.2.1 ≤ t.2.2 := by
  rw [processCross12_jobs hK o h1 h2, stored_nn hnn, List.map_map]
  constructor
  · intro h
    obtain ⟨J, hJ, rfl⟩ := List.mem_map.1 h
    obtain ⟨c1, m1, hJ⟩ := List.mem_flatMap.1 hJ
    obtain ⟨c2, m2, hJ⟩ := List.mem_flatMap.1 hJ
    have i1 := List.mem_map_of_mem (f := Prod.fst) m1
    have i2 := List.mem_map_of_mem (f := Prod.fst) m2
    rcases List.mem_cons.1 hJ with rfl | hJ
    · exact ⟨⟨i1, i2, i2⟩, le_rfl⟩
    · obtain ⟨c3, m3, rfl⟩ := List.mem_map.1 hJ
      obtain ⟨m3, l3⟩ := List.mem_filter.1 m3
      exact ⟨⟨i1, i2, List.mem_map_of_mem (List.mem_reverse.1 m3)⟩, (of_decide_eq_true l3).le⟩
  · obtain ⟨a, b, c⟩ := t
    rintro ⟨⟨h1, h2, h3⟩, h23⟩
    obtain ⟨c1, m1, rfl⟩ := List.mem_map.1 h1
    obtain ⟨c2, m2, rfl⟩ := List.mem_map.1 h2
    obtain ⟨c3, m3, rfl⟩ := List.mem_map.1 h3
    simp only at h23
    have key : ∃ J ∈ cross12Row K o cats1.length cats2.length cats2 c1 c2, J.key = (c1.1, c2.1, c3.1) := by
      rcases h23.lt_or_eq with l2 | e2
      · exact ⟨job123 K false (ord12 o) c1 c2 c3, List.mem_cons_of_mem _ (List.mem_map.2 ⟨c3, by simp [m3, l2], rfl⟩), rfl⟩
      · exact ⟨_, List.mem_cons_self, by simp [job12, e2]⟩
    obtain ⟨J, hJ, e⟩ := key
    exact List.mem_map.2 ⟨J, List.mem_flatMap.2 ⟨c1, m1, List.mem_flatMap.2 ⟨c2, m2, hJ⟩⟩, e⟩

/-- Whether all three patches are the same. -/
def onePatch (t : Triple) : Prop := t.1 = t.2.1 ∧ t.2.1 = t.2.2

instance : DecidablePred onePatch := fun t => inferInstanceAs (Decidable (t.1 = t.2.1 ∧ t.2.1 = t.2.2))

theorem autoJobs3_onePatch (cats : List (ℕ × C)) :
    (autoJobs3 K cats).filter (fun J => decide (onePatch J.key)) = cats.map (job111 K) := by
  unfold autoJobs3
  rw [map_flatMap_one, List.filter_flatMap]
  apply List.flatMap_congr
  intro c1 _
  rw [autoRowJobs3, List.filter_cons_of_pos (by simp [job111, onePatch])]
  congr 1
  rw [List.filter_eq_nil_iff]
  intro J hJ
  obtain ⟨c2, m2, hJ⟩ := List.mem_flatMap.1 hJ
  have lt : c1.1 < c2.1 := by simpa using (List.mem_filter.1 m2).2
  rcases List.mem_cons.1 hJ with rfl | hJ
  · simp [job12, onePatch]; omega
  · rcases List.mem_cons.1 hJ with rfl | hJ
    · simp [job12, onePatch]; omega
    · obtain ⟨c3, _, rfl⟩ := List.mem_map.1 hJ
      exact fun h => absurd (of_decide_eq_true h).1 (ne_of_lt lt)

theorem auto3_onePatch (hK : K.Good G) (hnn : K.nn = true) (cats : List (ℕ × C)) (hid : (cats.map Prod.fst).Nodup) (S : TriCorr V) :
    (K.processAuto true cats S).results.filter (fun x => decide (onePatch x.1))
      = cats.map fun c => ((c.1, c.1, c.1), K.autoRes c.2) := by
  rw [processAuto3_jobs hK hid, stored_nn hnn, List.filter_map]
  show ((autoJobs3 K cats).filter fun J => decide (onePatch J.key)).map _ = _
  rw [autoJobs3_onePatch, List.map_map]
  apply List.map_congr_left
  intro c _
  simp [job111, Job3.val]

theorem sumCbrt_auto (hnn : K.nn = true) (cats : List (ℕ × C)) (hw : ∀ c ∈ cats, 0 ≤ K.sumw c.2) :
    sumCbrt (cats.map fun c => K.autoRes c.2) = some ((1 / 6 : ℝ) ^ (1 / 3 : ℝ) * (cats.map fun c => K.sumw c.2).sum) := by
  induction cats with
  | nil => simp [sumCbrt]
  | cons c t ih =>
    have ih := ih fun c hc => hw c (by simp [hc])
    have h0 := hw c (by simp)
    have e : npCbrt (K.autoRes c.2).tot = some ((1 / 6 : ℝ) ^ (1 / 3 : ℝ) * K.sumw c.2) := by
      have e1 : (K.autoRes c.2).tot = 1 / 6 * K.sumw c.2 ^ 3 := by simp [Kit3.autoRes, hnn]
      rw [e1, npCbrt, if_neg (not_lt.2 (by positivity)), Real.mul_rpow (by norm_num) (by positivity), ← Real.rpow_natCast,
        ← Real.rpow_mul h0]
      norm_num
    unfold sumCbrt at ih ⊢
    obtain ⟨l, h1, h2⟩ := Option.map_eq_some_iff.1 ih
    rw [List.map_cons, List.mapM_cons, e, h1]
    simp [h2, mul_add]

theorem count_iff {l : List Triple} (hl : l.Nodup) {keys : List Triple} {p : Triple → Prop} (h : ∀ t, t ∈ l ↔ t ∈ keys ∧ p t) (t : Triple) :
    l.count t = if t ∈ keys then onceIf p t else 0 := by
  rw [hl.count]
  by_cases a : t ∈ keys <;> by_cases b : p t <;> simp [h, a, b, onceIf]

/-- The objects `calculateZeta` is called with if the data are in patches and the randoms `r` are not, and what it leaves for the rows;
`R` is the processed auto-correlation of the randoms. -/
def undividedEnv (K : Kit3 V C) (o : Bool) (cats : List (ℕ × C)) (r : C) (R : Res3 V) (S : TriCorr V) : ZetaEnv V :=
  let n := cats.length
  let rrr : Patched3 V := ⟨[], 1, 1⟩
  let rand := some ((⟨(K.processCross12 true o cats [(0, r)] S).results, n, 1⟩ : Patched3 V),
    (⟨(K.processCross12 true o [(0, r)] cats S).results, 1, n⟩ : Patched3 V))
  ⟨afterZeta (K.processAuto true cats S).results rrr rand, rrr, R, rand⟩

theorem undividedEnv_results (o : Bool) (cats : List (ℕ × C)) (r : C) (R : Res3 V) (S : TriCorr V) :
    (undividedEnv K o cats r R S).results = (K.processAuto true cats S).results := by
  simp [undividedEnv, afterZeta]

/-- **C66, randoms without patches.** Data `cats` in patches, randoms `r` undivided.  Row `i` of the jackknife design matrix uses the data
without patch `i` in DDD, DRR and RDD, all of RRR, and as total of the data the full total times the fraction of the weight of the
data that remains. -/
theorem jackknife_zeta_undivided (hK : K.Good G) (hnn : K.nn = true) (o : Bool) (cats : List (ℕ × C)) (r : C) (R : Res3 V)
    (hid : (cats.map Prod.fst).Nodup) (hn : 1 < cats.length) (S : TriCorr V) (hw : ∀ c ∈ cats, 0 ≤ K.sumw c.2)
    (hW : (cats.map fun c => K.sumw c.2).sum ≠ 0) (i : ℕ) :
    let E := undividedEnv K o cats r R S
    let cats' := leaveOut i cats
    let f := (cats'.map fun c => K.sumw c.2).sum / (cats.map fun c => K.sumw c.2).sum
    ∃ l, jackknifeTriples cats.length cats.length cats.length (E.results.map Prod.fst) i = some l ∧
      zetaFromTriples wt K E l = some (rowZeta wt (K.processAuto true cats' S).self (some ((K.processAuto true cats S).self.tot * f)) R
        (some ((K.processCross12 true o cats' [(0, r)] S).self, (K.processCross12 true o [(0, r)] cats' S).self))) := by
  intro E cats' f
  have hE : E.results = (K.processAuto true cats S).results := undividedEnv_results o cats r R S
  set D := (K.processAuto true cats S).results with hD
  have hn1 : cats.length ≠ 1 := by omega
  have hr : (([(0, r)] : List (ℕ × C)).map Prod.fst).Nodup := by simp
  have sD := (run_stored hK o hid hid hid S).1
  have sX := (run_stored hK o hid hr hr S).2.1
  have sY := (run_stored hK o hr hid hid S).2.1
  have hdiv : Divided cats.length cats.length cats.length cats.length := ⟨hn1, .inr rfl, .inr rfl, .inr rfl, fun h => hn1 h.1⟩
  have f1 := jackknifeTriples_eq hdiv (D.map Prod.fst) i
  set l := (D.map Prod.fst).filter (fun t => decide (keepsTriple cats.length cats.length cats.length i t)) with hl
  have ml : ∀ t, t ∈ l ↔ ((t.1 ∈ cats.map Prod.fst ∧ t.2.1 ∈ cats.map Prod.fst ∧ t.2.2 ∈ cats.map Prod.fst) ∧
      t.1 ≤ t.2.1 ∧ t.2.1 ≤ t.2.2) ∧ t.1 ≠ i ∧ t.2.1 ≠ i ∧ t.2.2 ≠ i := by
    intro t
    rw [hl, List.mem_filter, hD, auto3_keys hK hnn cats hid]
    simp [keepsTriple, hn1]
  have nl : l.Nodup := sD.keys.filter _
  have pr : InPatches (cats.map Prod.fst) [(0, r)] := .inr ⟨r, rfl⟩
  have pc : InPatches (cats.map Prod.fst) cats := .inl rfl
  have lr : leaveOut i [(0, r)] = [(0, r)] := by simp [leaveOut]
  refine ⟨l, by rw [hE]; exact f1, ?_⟩
  -- the data
  have e0 : (fetch3 E.results l).map K.sumOthers = some (K.processAuto true cats' S).self := by
    obtain ⟨l', rs, g1, g2, g3⟩ := jackknife3_auto_recomputed hK cats hid S hn1 i
    obtain rfl := Option.some.inj (g1.symm.trans f1)
    rw [hE, g2, Option.map_some, g3]
  -- the relative area
  have ef : E.dddTot (K.processAuto true cats' S).self l = some (some ((K.processAuto true cats S).self.tot * f)) := by
    have t1 : (D.map fun x => x.2.tot).sum = (K.processAuto true cats S).self.tot := by
      have e1 : D.map (fun x => x.2.tot) = (D.map Prod.snd).map Res3.tot := by rw [List.map_map]; rfl
      rw [e1, ← Res3.sum_tot, hD, processAuto3_jobs hK hid]
      show ((((autoJobs3 K cats).flatMap (Job3.stored K)).map Prod.snd).sum).tot = _
      rw [stored_total3 hK _ (autoJobs3_good hK cats)]
    have t2 : D.filter (fun x => decide (x.1.1 = x.1.2.1 ∧ x.1.2.1 = x.1.2.2)) = cats.map fun c => ((c.1, c.1, c.1), K.autoRes c.2) :=
      auto3_onePatch hK hnn cats hid S
    have t3 : fetch3 D (l.filter fun t => decide (t.1 = t.2.1 ∧ t.2.1 = t.2.2)) = some (cats'.map fun c => K.autoRes c.2) := by
      have e1 : l.filter (fun t => decide (t.1 = t.2.1 ∧ t.2.1 = t.2.2))
          = (D.map Prod.fst).filter fun t => decide (t.1 ≠ i) && decide (onePatch t) := by
        rw [hl, List.filter_filter]
        apply List.filter_congr
        intro t _
        rw [Bool.eq_iff_iff]
        rw [Bool.and_eq_true, Bool.and_eq_true, decide_eq_true_iff, decide_eq_true_iff, decide_eq_true_iff, decide_eq_true_iff]
        simp only [keepsTriple, hn1, false_or, onePatch]
        constructor
        · rintro ⟨h1, h2⟩; exact ⟨h2.1, h1⟩
        · rintro ⟨h1, h2⟩; exact ⟨h2, h1, by omega, by omega⟩
      rw [e1, fetch3_filter _ sD.keys]
      congr 1
      have e2 : D.filter (fun x => decide (x.1.1 ≠ i) && decide (onePatch x.1))
          = (D.filter fun x => decide (onePatch x.1)).filter fun x => decide (x.1.1 ≠ i) := by
        rw [List.filter_filter]
      rw [e2, auto3_onePatch hK hnn cats hid S, List.filter_map, List.map_map]
      show (cats.filter fun c => decide (c.1 ≠ i)).map _ = _
      have e3 : cats' = cats.filter fun c => decide (c.1 ≠ i) := by
        show leaveOut i cats = _
        rw [leaveOut, if_neg hn1]
      rw [e3]
      rfl
    have hw' : ∀ c ∈ cats', 0 ≤ K.sumw c.2 := by
      intro c hc
      have : c ∈ leaveOut i cats := hc
      rw [leaveOut, if_neg hn1] at this
      exact hw c (List.mem_filter.1 this).1
    have ea : areaFrac3 D l = some (some f) := by
      have e3 : (cats.map fun c => (((c.1, c.1, c.1) : Triple), K.autoRes c.2)).map Prod.snd = cats.map fun c => K.autoRes c.2 := by
        rw [List.map_map]; rfl
      rw [areaFrac3, t3, Option.map_some, sumCbrt_auto hnn cats' hw', t2, e3, sumCbrt_auto hnn cats hw]
      have pos : ((1 / 6 : ℝ) ^ (1 / 3 : ℝ)) ≠ 0 := (Real.rpow_pos_of_pos (by norm_num) _).ne'
      show some (npDiv _ _) = _
      rw [npDiv, if_neg (mul_ne_zero pos hW), mul_div_mul_left _ _ pos]
    have er : E.rrr.results = [] := rfl
    rw [ZetaEnv.dddTot, if_pos er, hE, ea, t1]
    rfl
  -- DRR
  have ex : (fetch3 (K.processCross12 true o cats [(0, r)] S).results
      (drrTriples ⟨(K.processCross12 true o cats [(0, r)] S).results, cats.length, 1⟩ l)).map K.sumOthers
      = some (K.processCross12 true o cats' [(0, r)] S).self := by
    rw [drrTriples, if_pos rfl]
    obtain ⟨rs, g1, g2⟩ := weighted_row hK sX (onceIf (keepsTriple cats.length 1 1 i))
      (l := (l.filter fun t : Triple => decide (t.1 = t.2.1 ∧ t.2.1 = t.2.2)).map fun t : Triple => ((t.1, 0, 0) : Triple)) (count_iff
        (by
          apply List.Nodup.map_on _ (nl.filter _)
          rintro ⟨a, b, c⟩ ha ⟨a', b', c'⟩ ha' e
          have h1 := of_decide_eq_true (List.mem_filter.1 ha).2
          have h2 := of_decide_eq_true (List.mem_filter.1 ha').2
          simp only [Prod.mk.injEq] at e h1 h2 ⊢
          omega)
        (by
          rintro ⟨a, b, c⟩
          rw [cross12_keys hK hnn o cats [(0, r)] hid hr]
          simp only [List.mem_map, List.mem_filter, ml, decide_eq_true_eq, keepsTriple, hn1, false_or, true_or, and_true]
          constructor
          · rintro ⟨⟨a', b', c'⟩, ⟨⟨⟨⟨h1, -, -⟩, -⟩, h2, -⟩, -⟩, e⟩
            simp only [Prod.mk.injEq] at e
            obtain ⟨rfl, rfl, rfl⟩ := e
            exact ⟨⟨⟨h1, by simp, by simp⟩, le_rfl⟩, h2⟩
          · rintro ⟨⟨⟨h1, h2, h3⟩, -⟩, h4⟩
            simp at h2 h3
            exact ⟨(a, a, a), ⟨⟨⟨⟨h1, h1, h1⟩, le_rfl, le_rfl⟩, h4, h4, h4⟩, rfl, rfl⟩, by simp [← h2, ← h3]⟩))
    have := cross12_without hK o hid (by simpa using hn1) pc pr (.inl hn1) S i
    rw [lr] at this
    rw [g1, Option.map_some, g2, ← this]
    rfl
  -- RDD
  have ey : (fetch3 (K.processCross12 true o [(0, r)] cats S).results
      (rddTriples ⟨(K.processCross12 true o [(0, r)] cats S).results, 1, cats.length⟩ l)).map K.sumOthers
      = some (K.processCross12 true o [(0, r)] cats' S).self := by
    have mk := cross12_keys hK hnn o [(0, r)] cats hr hid S
    have memConv : ∀ t, t ∈ (l.filter fun t => decide (t.1 = t.2.1 ∨ t.1 = t.2.2)).map (fun t => ((0, t.2.1, t.2.2) : Triple)) ↔
        t ∈ (K.processCross12 true o [(0, r)] cats S).results.map Prod.fst ∧ keepsTriple 1 cats.length cats.length i t := by
      rintro ⟨a, b, c⟩
      rw [mk]
      simp only [List.mem_map, List.mem_filter, ml, decide_eq_true_eq, keepsTriple, hn1, false_or, true_or, true_and]
      constructor
      · rintro ⟨⟨a', b', c'⟩, ⟨⟨⟨⟨-, h1, h1'⟩, -, h3⟩, -, h2, h2'⟩, -⟩, e⟩
        simp only [Prod.mk.injEq] at e
        obtain ⟨rfl, rfl, rfl⟩ := e
        exact ⟨⟨⟨by simp, h1, h1'⟩, h3⟩, h2, h2'⟩
      · rintro ⟨⟨⟨h1, h2, h3⟩, h4⟩, h5, h6⟩
        simp at h1
        exact ⟨(b, b, c), ⟨⟨⟨⟨h2, h2, h3⟩, le_rfl, h4⟩, h5, h5, h6⟩, .inl rfl⟩, by simp [h1]⟩
    have key : ∀ l', l'.Nodup → (∀ t, t ∈ l' ↔ t ∈ (K.processCross12 true o [(0, r)] cats S).results.map Prod.fst ∧
          keepsTriple 1 cats.length cats.length i t) →
        (fetch3 (K.processCross12 true o [(0, r)] cats S).results l').map K.sumOthers
          = some (K.processCross12 true o [(0, r)] cats' S).self := by
      intro l' n' m'
      obtain ⟨rs, g1, g2⟩ := weighted_row hK sY (onceIf (keepsTriple 1 cats.length cats.length i)) (count_iff n' m')
      have := cross12_without hK o hid (by simpa using hn1) pr pc (.inr hn1) S i
      rw [lr] at this
      rw [g1, Option.map_some, g2, ← this]
      rfl
    apply key
    · unfold rddTriples
      split
      · apply List.Nodup.map_on _ (nl.filter _)
        rintro ⟨a, b, c⟩ ha ⟨a', b', c'⟩ ha' e
        have h1 := of_decide_eq_true (List.mem_filter.1 ha).2
        have h2 := of_decide_eq_true (List.mem_filter.1 ha').2
        have s1 := ((ml _).1 (List.mem_filter.1 ha).1).1.2
        have s2 := ((ml _).1 (List.mem_filter.1 ha').1).1.2
        simp only [Prod.mk.injEq] at e h1 h2 s1 s2 ⊢
        omega
      · exact nl.filter _
    · intro t
      unfold rddTriples
      split
      · exact memConv t
      · rename_i h
        have h0 : ∀ t ∈ l, t.1 = 0 := by
          by_contra hc
          exact h ⟨rfl, hc⟩
        rw [← memConv t]
        obtain ⟨a, b, c⟩ := t
        simp only [Patched3.okTriples, okTriple, List.mem_filter, List.mem_map, decide_eq_true_eq]
        constructor
        · rintro ⟨m, -⟩
          obtain ⟨⟨⟨h1, h2, h3⟩, h4, h5⟩, h6, h7, h8⟩ := (ml _).1 m
          simp only at h1 h2 h3 h4 h5 h6 h7 h8
          have z1 := h0 (b, b, b) ((ml _).2 ⟨⟨⟨h2, h2, h2⟩, le_rfl, le_rfl⟩, h7, h7, h7⟩)
          have z0 := h0 _ m
          simp only at z1 z0
          exact ⟨(a, b, c), ⟨m, .inl (by simp only; omega)⟩, by simp only [Prod.mk.injEq, and_true]; omega⟩
        · rintro ⟨⟨a', b', c'⟩, ⟨m, -⟩, e⟩
          simp only [Prod.mk.injEq] at e
          obtain ⟨rfl, rfl, rfl⟩ := e
          have z0 := h0 _ m
          simp only at z0
          rw [z0] at m
          refine ⟨m, ?_⟩
          obtain ⟨⟨⟨h1, h2, h3⟩, h4, h5⟩, -⟩ := (ml _).1 m
          have := (mk (0, b', c')).2 ⟨⟨by simp, h2, h3⟩, h5⟩
          simpa using this
  unfold zetaFromTriples
  have e1 : E.sumRrr K l = some R := by
    rw [ZetaEnv.sumRrr, if_pos (show E.rrr.results = [] from rfl)]
    rfl
  have e2 : E.sumRand K l = some (some ((K.processCross12 true o cats' [(0, r)] S).self, (K.processCross12 true o [(0, r)] cats' S).self)) := by
    show ((fetch3 _ (drrTriples _ l)).map K.sumOthers).bind _ = _
    rw [ex, Option.bind_some]
    show ((fetch3 _ (rddTriples _ l)).map K.sumOthers).map _ = _
    rw [ey, Option.map_some]
  rw [e0, Option.bind_some, e1, Option.bind_some, ef, Option.bind_some, e2, Option.map_some]

/-- **C66, what the factors are.** In row `i` with undivided randoms, if `f` is the fraction of the data's weight that remains, DRR of the
remaining data keeps the factor `tot(DDD) / tot(DRR)` of the full run and RRR is reduced by `f`, but RDD of the remaining data, which
shrinks with the number of pairs of data, gets the factor of the full run divided by `f`. -/
theorem undivided_factors (hK : K.Good G) (hnn : K.nn = true) (o : Bool) (cats : List (ℕ × C)) (r : C) (R : Res3 V)
    (hid : (cats.map Prod.fst).Nodup) (hn : 1 < cats.length) (S : TriCorr V)
    (hsame : ∀ c1 ∈ cats, ∀ c2 ∈ cats, c1.1 ≠ c2.1 → ¬ K.same c1.2 c2.2)
    (hz1 : ∀ c ∈ cats, ¬ K.triv c.2 r r) (hz2 : ∀ c ∈ cats, ¬ K.triv r c.2 c.2) (i : ℕ) (k : ι) :
    let cats' := leaveOut i cats
    let W := (cats.map fun c => K.sumw c.2).sum
    let f := (cats'.map fun c => K.sumw c.2).sum / W
    let T := (K.processAuto true cats S).self.tot
    let DDD' := (K.processAuto true cats' S).self
    let DRR := (K.processCross12 true o cats [(0, r)] S).self
    let DRR' := (K.processCross12 true o cats' [(0, r)] S).self
    let RDD := (K.processCross12 true o [(0, r)] cats S).self
    let RDD' := (K.processCross12 true o [(0, r)] cats' S).self
    W ≠ 0 → f ≠ 0 → K.sumw r ≠ 0 → R.tot ≠ 0 → wt R.acc k ≠ 0 →
    rowZeta wt DDD' (some (T * f)) R (some (DRR', RDD')) k
      = some ((wt DDD'.acc k - wt RDD'.acc k * (T / RDD.tot) / f + wt DRR'.acc k * (T / DRR.tot) - f * (wt R.acc k * (T / R.tot)))
          / (f * (wt R.acc k * (T / R.tot)))) := by
  intro cats' W f T DDD' DRR DRR' RDD RDD' hW hf hr hR hk
  have hn1 : cats.length ≠ 1 := by omega
  have hid' : (cats'.map Prod.fst).Nodup := leaveOut_nodup i hid
  have sub : ∀ c ∈ cats', c ∈ cats := by
    intro c hc
    have : c ∈ leaveOut i cats := hc
    rw [leaveOut, if_neg hn1] at this
    exact (List.mem_filter.1 this).1
  have hrd : (([(0, r)] : List (ℕ × C)).map Prod.fst).Nodup := by simp
  have eT : T = 1 / 6 * W ^ 3 := patched3_auto_tot hK hnn cats hid hsame S
  have e1 : DRR.tot = 0.5 * W * K.sumw r ^ 2 := by
    have := patched3_cross12_tot_partial hK hnn o cats [(0, r)] hid hrd (by simp)
      (by intro c1 h1 c2 h2 _; simp at h2; subst h2; exact hz1 c1 h1) S
    simpa using this
  have e1' : DRR'.tot = 0.5 * (f * W) * K.sumw r ^ 2 := by
    have := patched3_cross12_tot_partial hK hnn o cats' [(0, r)] hid' hrd (by simp)
      (by intro c1 h1 c2 h2 _; simp at h2; subst h2; exact hz1 c1 (sub c1 h1)) S
    rw [show f * W = (cats'.map fun c => K.sumw c.2).sum from div_mul_cancel₀ _ hW]
    simpa using this
  have e2 : RDD.tot = 0.5 * K.sumw r * W ^ 2 := by
    have := patched3_cross12_tot_partial hK hnn o [(0, r)] cats hrd hid hsame
      (by intro c1 h1 c2 h2 _; simp at h1; subst h1; exact hz2 c2 h2) S
    simpa using this
  have e2' : RDD'.tot = 0.5 * K.sumw r * (f * W) ^ 2 := by
    have := patched3_cross12_tot_partial hK hnn o [(0, r)] cats' hrd hid' (fun c1 h1 c2 h2 => hsame c1 (sub c1 h1) c2 (sub c2 h2))
      (by intro c1 h1 c2 h2 _; simp at h1; subst h1; exact hz2 c2 (sub c2 h2)) S
    rw [show f * W = (cats'.map fun c => K.sumw c.2).sum from div_mul_cancel₀ _ hW]
    simpa using this
  have hT : T ≠ 0 := by rw [eT]; positivity
  have d1 : npDiv (T * f) R.tot = some (T * f / R.tot) := if_neg hR
  have d2 : npDiv (T * f) DRR'.tot = some (T * f / DRR'.tot) := if_neg (by rw [e1']; positivity)
  have d3 : npDiv (T * f) RDD'.tot = some (T * f / RDD'.tot) := if_neg (by rw [e2']; positivity)
  have hden : wt R.acc k * (T * f / R.tot) ≠ 0 := by positivity
  simp only [rowZeta, d1, d2, d3, Option.bind_eq_bind, Option.bind_some, zetaNum, if_neg hden]
  rw [npDiv, if_neg hden]
  congr 1
  rw [e1', e2', e1, e2]
  clear_value f W T
  field_simp

/-- Three-point counts of catalogues that are made of equal, very distant clumps, one bin: a catalogue is the set of its clumps, each of
weight 1, and only triangles within a clump are counted. -/
def clumpKit : Kit3 ℝ (Finset ℕ) where
  nz := fun a => a ≠ 0
  auto := fun s => s.card / 6
  cross12 := fun _ s t => (s ∩ t).card / 2
  cross := fun _ s t u => (s ∩ t ∩ u).card
  triv := fun _ _ _ => False
  sumw := fun s => s.card
  same := fun s t => s = t
  nn := true

theorem clumpKit_good : clumpKit.Good fun _ => True where
  zero := trivial
  add := fun _ _ => trivial
  eq_zero := fun _ h => not_not.1 h
  nz_zero := fun h => h rfl
  auto := fun _ => trivial
  cross12 := fun _ _ _ => trivial
  cross := fun _ _ _ _ => trivial

/-- Two clumps in two patches. -/
def twoClumps : List (ℕ × Finset ℕ) := [(0, {0}), (1, {1})]

theorem clump_runs (o : Bool) (S : TriCorr ℝ) :
    (clumpKit.processAuto true twoClumps S).self = ⟨1 / 3, 4 / 3⟩ ∧
    (clumpKit.processCross12 true o twoClumps [(0, {0, 1})] S).self = ⟨1, 4⟩ ∧
    (clumpKit.processCross12 true o [(0, {0, 1})] twoClumps S).self = ⟨1, 4⟩ := by
  have hid : (twoClumps.map Prod.fst).Nodup := by simp [twoClumps]
  have hr : (([(0, {0, 1})] : List (ℕ × Finset ℕ)).map Prod.fst).Nodup := by simp
  rw [processAuto3_jobs clumpKit_good hid, processCross12_jobs clumpKit_good o hid hr, processCross12_jobs clumpKit_good o hr hid]
  refine ⟨?_, ?_, ?_⟩
  · apply Res3.ext
    · simp [autoJobs3, autoRowJobs3, autoPairJobs3, twoClumps, Res3.add_acc, Job3.val_acc, job111, job12, clumpKit, Kit3.autoRes, Kit3.cross12Res]
      norm_num
    · simp [autoJobs3, autoRowJobs3, autoPairJobs3, twoClumps, Res3.add_tot, Job3.val, job111, job12, clumpKit, Kit3.autoRes, Kit3.cross12Res]
      norm_num
  · apply Res3.ext
    · simp [cross12Jobs, cross12Row, twoClumps, Res3.add_acc, Job3.val_acc, job12, clumpKit, Kit3.cross12Res]
      norm_num
    · simp [cross12Jobs, cross12Row, twoClumps, Res3.add_tot, Job3.val, job12, clumpKit, Kit3.cross12Res]
      norm_num
  · apply Res3.ext
    · simp [cross12Jobs, cross12Row, twoClumps, Res3.add_acc, Job3.val_acc, job12, job123, clumpKit, Kit3.cross12Res, Kit3.crossRes]
      norm_num
    · simp [cross12Jobs, cross12Row, twoClumps, Res3.add_tot, Job3.val, job12, job123, clumpKit, Kit3.cross12Res, Kit3.crossRes]
      norm_num

/-- **C66, negation.** Data and randoms are the same two distant clumps, the data in two patches, the randoms in one.  `zeta` is 0, and it is 0
for the first clump alone with the randoms there, but the row of the jackknife that leaves out the second patch has `zeta = −1`. -/
theorem undivided_rdd_wrong (o : Bool) (S : TriCorr ℝ) :
    let wt : ℝ → Unit → ℝ := fun v _ => v
    let R : Res3 ℝ := clumpKit.autoRes {0, 1}
    (∃ z, nnnZeta wt false (clumpKit.processAuto true twoClumps S).self R
        (some (clumpKit.processCross12 true o twoClumps [(0, {0, 1})] S).self)
        (some (clumpKit.processCross12 true o [(0, {0, 1})] twoClumps S).self) = .ok z ∧ z () = some 0) ∧
    (∃ z, nnnZeta wt false (clumpKit.autoRes {0}) (clumpKit.autoRes {0}) (some (clumpKit.cross12Res o {0} {0}))
        (some (clumpKit.cross12Res o {0} {0})) = .ok z ∧ z () = some 0) ∧
    ∃ l z, jackknifeTriples 2 2 2 ((undividedEnv clumpKit o twoClumps {0, 1} R S).results.map Prod.fst) 1 = some l ∧
      zetaFromTriples wt clumpKit (undividedEnv clumpKit o twoClumps {0, 1} R S) l = some z ∧ z () = some (-1) := by
  intro wt R
  obtain ⟨r1, r2, r3⟩ := clump_runs o S
  have hR : R = ⟨1 / 3, 4 / 3⟩ := by
    apply Res3.ext
    · simp [R, Kit3.autoRes, clumpKit]; norm_num
    · simp [R, Kit3.autoRes, clumpKit]; norm_num
  have hA : clumpKit.autoRes {0} = ⟨1 / 6, 1 / 6⟩ := by
    apply Res3.ext <;> simp [Kit3.autoRes, clumpKit]
  have hB : clumpKit.cross12Res o {0} {0} = ⟨1 / 2, 1 / 2⟩ := by
    apply Res3.ext
    · simp [Kit3.cross12Res, clumpKit]
    · simp [Kit3.cross12Res, clumpKit]; norm_num
  refine ⟨?_, ?_, ?_⟩
  · rw [r1, r2, r3, hR]
    exact zeta_zero (wt := wt) (⟨1 / 3, 4 / 3⟩ : Res3 ℝ) ⟨1 / 3, 4 / 3⟩ (some (⟨1, 4⟩, ⟨1, 4⟩)) () (by norm_num) (by norm_num)
      (by rintro r h; obtain rfl := Option.some.inj h; norm_num) (by norm_num [wt]) rfl
      (by rintro r h; obtain rfl := Option.some.inj h; rfl)
  · rw [hA, hB]
    exact zeta_zero (wt := wt) (⟨1 / 6, 1 / 6⟩ : Res3 ℝ) ⟨1 / 6, 1 / 6⟩ (some (⟨1 / 2, 1 / 2⟩, ⟨1 / 2, 1 / 2⟩)) () (by norm_num) (by norm_num)
      (by rintro r h; obtain rfl := Option.some.inj h; norm_num) (by norm_num [wt]) rfl
      (by rintro r h; obtain rfl := Option.some.inj h; rfl)
  · have hid : (twoClumps.map Prod.fst).Nodup := by simp [twoClumps]
    have hs : (twoClumps.map fun c => clumpKit.sumw c.2).sum = 2 := by simp [twoClumps, clumpKit]; norm_num
    obtain ⟨l, h1, h2⟩ := jackknife_zeta_undivided (wt := wt) clumpKit_good rfl o twoClumps {0, 1} R hid (by simp [twoClumps]) S
      (by intro c _; simp [clumpKit]) (by rw [hs]; norm_num) 1
    refine ⟨l, _, h1, h2, ?_⟩
    have hl : leaveOut 1 twoClumps = [(0, {0})] := by simp [leaveOut, twoClumps]
    have hs' : ((leaveOut 1 twoClumps).map fun c => clumpKit.sumw c.2).sum = 1 := by rw [hl]; simp [clumpKit]
    have hu := undivided_factors (wt := wt) clumpKit_good rfl o twoClumps {0, 1} R hid (by simp [twoClumps]) S
      (by simp [twoClumps, clumpKit]) (by simp [clumpKit]) (by simp [clumpKit]) 1 () (by rw [hs]; norm_num)
      (by rw [hs, hs']; norm_num) (by simp [clumpKit]) (by rw [hR]; norm_num) (by rw [hR]; norm_num [wt])
    rw [hu, hs, hs', r1, r2, r3, hR, hl]
    have q1 : (clumpKit.processAuto true [(0, {0})] S).self.acc = 1 / 6 := by
      rw [processAuto3_jobs clumpKit_good (by simp)]
      simp [autoJobs3, autoRowJobs3, Job3.val_acc, job111, clumpKit, Kit3.autoRes]
    have q2 : (clumpKit.processCross12 true o [(0, {0})] [(0, {0, 1})] S).self.acc = 1 / 2 := by
      rw [processCross12_jobs clumpKit_good o (by simp) (by simp)]
      simp [cross12Jobs, cross12Row, Job3.val_acc, job12, clumpKit, Kit3.cross12Res]
    have q3 : (clumpKit.processCross12 true o [(0, {0, 1})] [(0, {0})] S).self.acc = 1 / 2 := by
      rw [processCross12_jobs clumpKit_good o (by simp) (by simp)]
      simp [cross12Jobs, cross12Row, Job3.val_acc, job12, clumpKit, Kit3.cross12Res]
    simp only [wt, q1, q2, q3]
    norm_num

/-- **C66, bootstrap, marked bootstrap and sample rows** with randoms in the same patches: `calculateZeta` of the four runs, each stored
triple taken as often as C64 says it is drawn, which is the same for data and randoms. -/
theorem drawn_zeta (hK : K.Good G) (o : Bool) (cats rcats : List (ℕ × C)) (hids : cats.map Prod.fst = rcats.map Prod.fst)
    (hid : (cats.map Prod.fst).Nodup) (hn : 1 < cats.length) (S : TriCorr V) (useRand : Bool)
    (hk : let n := cats.length; KeysOf n n n ((dividedEnv K o cats rcats useRand S).results.map Prod.fst)) (i : ℕ) (index : List ℕ) :
    let n := cats.length
    let E := dividedEnv K o cats rcats useRand S
    let D := (K.processAuto true cats S).results
    let R := (K.processAuto true rcats S).results
    let X := (K.processCross12 true o cats rcats S).results
    let Y := (K.processCross12 true o rcats cats S).results
    let fine : (Triple → ℕ) → Prop := fun w => (D.wsum w).tot ≠ 0 ∧ (R.wsum w).tot ≠ 0 ∧
      (useRand = true → (X.wsum w).tot ≠ 0 ∧ (Y.wsum w).tot ≠ 0)
    let isRow : Option (List Triple) → (Triple → ℕ) → Prop := fun row w => ∃ l z, row = some l ∧ zetaFromTriples wt K E l = some z ∧
      nnnZeta wt false (D.wsum w) (R.wsum w) (if useRand then some (X.wsum w) else none)
        (if useRand then some (Y.wsum w) else none) = .ok z
    let wb : Triple → ℕ := fun t => ∏ a ∈ patchesOf n n n t, index.count a
    let wm : Triple → ℕ := fun t => index.count t.1
    let ws : Triple → ℕ := fun t => if t.1 = i then 1 else 0
    (fine wb → isRow (bootstrapTriples n n n (E.results.map Prod.fst) index) wb) ∧
    (fine wm → isRow (markedTriples n n n (E.results.map Prod.fst) index) wm) ∧
    (fine ws → isRow (sampleTriples n n n (E.results.map Prod.fst) i) ws) := by
  intro n E D R X Y fine isRow wb wm ws
  have hidr : (rcats.map Prod.fst).Nodup := hids ▸ hid
  have hn1 : n ≠ 1 := by show cats.length ≠ 1; omega
  have sD := (run_stored hK o hid hidr hidr S).1
  have nodup : (E.results.map Prod.fst).Nodup := (afterZeta_covers hK sD E.rrr E.rand).1.keys
  have hdiv : Divided n n n n := ⟨hn1, .inr rfl, .inr rfl, .inr rfl, fun h => hn1 h.1⟩
  have main : ∀ (row : Option (List Triple)) (w : Triple → ℕ),
      (∃ l, row = some l ∧ ∀ t, l.count t = if t ∈ E.results.map Prod.fst then w t else 0) → fine w → isRow row w := by
    rintro row w ⟨l, rfl, hl⟩ ⟨t0, t1, t2⟩
    obtain ⟨z, h1, h2⟩ := divided_row (wt := wt) hK o cats rcats hids hid hn S useRand w hl t0 t1 t2
    exact ⟨l, z, rfl, h1, h2⟩
  have fp : ∀ t, firstPatch n n t = t.1 := fun t => if_pos hn1
  refine ⟨main _ _ ?_, main _ _ ?_, main _ _ ?_⟩
  · exact bootstrap3_uses hdiv hk index
  · obtain ⟨l, h1, h2⟩ := marked3_uses hdiv hk index
    refine ⟨l, h1, fun t => ?_⟩
    rw [h2, fp]
  · obtain ⟨l, h1, h2⟩ := sample3_uses hdiv nodup i
    refine ⟨l, h1, fun t => ?_⟩
    rw [h2, fp]
    by_cases a : t ∈ E.results.map Prod.fst <;> by_cases b : t.1 = i <;> simp [a, b, ws]

/-- **C66, negation.** With undivided randoms the rows of the `sample` method are not chosen alike: of two patches, row 0 uses all
of RDD, row 1 only the pairs of data within patch 1. -/
theorem sample_rdd_wrong : ∃ keys keysY : List Triple, ∀ (Y : Patched3 ℝ), Y.n1 = 1 → Y.results.map Prod.fst = keysY →
    (∀ S, (clumpKit.processAuto true twoClumps S).results.map Prod.fst = keys) ∧
    (∀ o S, (clumpKit.processCross12 true o [(0, {0, 1})] twoClumps S).results.map Prod.fst = keysY) ∧
    (∃ l, sampleTriples 2 2 2 keys 0 = some l ∧ (rddTriples Y l).Perm keysY) ∧
    ∃ l, sampleTriples 2 2 2 keys 1 = some l ∧ rddTriples Y l = [(0, 1, 1)] := by
  refine ⟨[(0, 0, 0), (0, 1, 1), (0, 0, 1), (1, 1, 1)], [(0, 0, 0), (0, 0, 1), (0, 1, 1)], ?_⟩
  intro Y hY hk
  have hid : (twoClumps.map Prod.fst).Nodup := by simp [twoClumps]
  refine ⟨fun S => ?_, fun o S => ?_, ?_, ?_⟩
  · rw [processAuto3_jobs clumpKit_good hid, stored_nn rfl]
    simp [autoJobs3, autoRowJobs3, autoPairJobs3, twoClumps, job111, job12]
  · rw [processCross12_jobs clumpKit_good o (by simp) hid, stored_nn rfl]
    simp [cross12Jobs, cross12Row, twoClumps, job123, job12]
  · refine ⟨[(0, 0, 0), (0, 1, 1), (0, 0, 1)], by simp [sampleTriples], ?_⟩
    rw [rddTriples, if_neg (by simp), Patched3.okTriples, hk]
    simp [okTriple]
    exact List.Perm.swap _ _ _
  · refine ⟨[(1, 1, 1)], by simp [sampleTriples], ?_⟩
    rw [rddTriples, if_pos (by simp [hY])]
    simp

/-- **C46, negation.** The same for pairs: row 0 uses all of RD, row 1 only the pairs with the data in patch 1. -/
theorem sample_rd_wrong (Y : Patched) (h1 : Y.n1 = 1) (hk : Y.results.keyList = [(0, 0), (0, 1)]) :
    (∃ l, samplePairs 2 2 [(0, 0), (0, 1), (1, 1)] 0 = some l ∧ rdPairs Y l = [(0, 0), (0, 1)]) ∧
    ∃ l, samplePairs 2 2 [(0, 0), (0, 1), (1, 1)] 1 = some l ∧ rdPairs Y l = [(0, 1)] := by
  refine ⟨⟨[(0, 0), (0, 1)], by simp [samplePairs], ?_⟩, ⟨[(1, 1)], by simp [samplePairs], ?_⟩⟩
  · rw [rdPairs, if_neg (by simp), Patched.okPairs, hk]
    simp [okPair]
  · rw [rdPairs, if_pos (by simp [h1])]
    simp

/-! ### Cases -/

/-- The clumps as data and as randoms in two patches meet the hypotheses of `jackknife_zeta`, leaving out patch 1. -/
example (S : TriCorr ℝ) : ∃ l z, jackknifeTriples 2 2 2 ((dividedEnv clumpKit true twoClumps twoClumps true S).results.map Prod.fst) 1 = some l ∧
    zetaFromTriples (fun v (_ : Unit) => v) clumpKit (dividedEnv clumpKit true twoClumps twoClumps true S) l = some z := by
  have hl : leaveOut 1 twoClumps = [(0, {0})] := by simp [leaveOut, twoClumps]
  have hA : (clumpKit.processAuto true (leaveOut 1 twoClumps) S).self.tot ≠ 0 := by
    rw [hl, processAuto3_jobs clumpKit_good (by simp)]
    simp [autoJobs3, autoRowJobs3, Job3.val, job111, clumpKit, Kit3.autoRes]
  have hB : (clumpKit.processCross12 true true (leaveOut 1 twoClumps) (leaveOut 1 twoClumps) S).self.tot ≠ 0 := by
    rw [hl, processCross12_jobs clumpKit_good true (by simp) (by simp)]
    simp [cross12Jobs, cross12Row, Job3.val, job12, clumpKit, Kit3.cross12Res]
    norm_num
  obtain ⟨l, z, h1, h2, -⟩ := jackknife_zeta (wt := fun v (_ : Unit) => v) clumpKit_good true twoClumps twoClumps rfl (by simp [twoClumps])
    (by simp [twoClumps]) S true 1 hA hA (fun _ => ⟨hB, hB⟩)
  exact ⟨l, z, h1, h2⟩

end
end TreeCorr
