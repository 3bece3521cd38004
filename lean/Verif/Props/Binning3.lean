import Verif.Model.Binning3
import Verif.Props.Binning
import Verif.Spec.Triangles

/-!
C62: the limits of a three-point correlation.  The constructor either raises an exception or gives consistent bins that keep what the user
gave.
-/

namespace TreeCorr
open Classical
set_option linter.unusedSimpArgs false
noncomputable section

/-- The user gave no bin size that is not positive. -/
def BinConfig3.SizesPos (c : BinConfig3) : Prop :=
  (∀ s, c.sep.binsize.get = some s → 0 < s) ∧ (∀ s, c.u.size.get = some s → 0 < s) ∧
  (∀ s, c.v.size.get = some s → 0 < s) ∧ (∀ s, c.phi.size.get = some s → 0 < s)

/-- The bins are consistent, from `lo` to `hi`, within `lowest..highest`. -/
structure LinBins.Good (lowest highest : ℝ) (L : LinBins) : Prop where
  lowest : lowest ≤ L.lo
  lt : L.lo < L.hi
  highest : L.hi ≤ highest
  n : 0 < L.n
  size : 0 < L.size
  hi : L.hi = L.lo + L.n * L.size

/-- What the user gave is kept, in units of `unit`; `dflt` is the default size.  Without `n`, the number of bins is the least for which bins
of the given size cover the range (but for `1e-10`); with `n` and a size, the bins have this size unless they were made to fit into
`lowest..highest`; without one of the two, a limit that was not given is `lowest` or `highest`. -/
structure LinKeeps (lowest highest unit dflt : ℝ) (c : LinConfig) (L : LinBins) : Prop where
  lo : ∀ v, c.lo.get = some v → L.lo = v * unit
  hi : ∀ v, c.hi.get = some v → L.hi = v * unit
  n : ∀ n, c.n.get = some n → L.n = n
  least : c.n.get = none →
    let s := (c.size.get).getD dflt
    (L.n - 1) * s < L.hi - L.lo - 1e-10 ∧ L.hi - L.lo - 1e-10 ≤ L.n * s
  size : ∀ s, c.size.get = some s → c.n.get.isSome → L.size ≤ s ∧ (L.size = s ∨ L.lo = lowest ∨ L.hi = highest)
  lo_default : c.lo.get = none → (c.n.get = none ∨ c.size.get = none) → L.lo = lowest
  hi_default : c.hi.get = none → (c.n.get = none ∨ c.size.get = none) → L.hi = highest

/-! ### Steps -/

theorem float_ok {a : Arg ℝ} {d x : ℝ} : a.float d = .ok x ↔ (a = .absent ∧ x = d) ∨ a = .val x := by
  cases a <;> simp [Arg.float, eq_comm]

theorem linFinish_ok {lo hi : ℝ} {n : ℤ} {L : LinBins} :
    linFinish lo hi n = .ok L ↔ n ≠ 0 ∧ 0 ≤ n ∧ L = ⟨lo, hi, n, (hi - lo) / n⟩ := by
  unfold linFinish
  rw [except_bind_ok]
  constructor
  · rintro ⟨s, hs, h⟩
    obtain ⟨h0, rfl⟩ := pyDiv_ok.1 hs
    split at h
    · cases h
    · rename_i hn
      simp only [Except.ok.injEq] at h
      exact ⟨by exact_mod_cast h0, not_lt.1 hn, h.symm⟩
  · rintro ⟨h0, hn, rfl⟩
    exact ⟨_, pyDiv_ok.2 ⟨by exact_mod_cast h0, rfl⟩, by rw [if_neg (not_lt.2 hn)]⟩

theorem linBins_good {lowest highest lo hi : ℝ} {n : ℤ} (h1 : lowest ≤ lo) (h2 : lo < hi) (h3 : hi ≤ highest) (hn : n ≠ 0) (hn' : 0 ≤ n) :
    LinBins.Good lowest highest ⟨lo, hi, n, (hi - lo) / n⟩ := by
  have hp : 0 < n := lt_of_le_of_ne hn' (Ne.symm hn)
  have hr : (0 : ℝ) < n := by exact_mod_cast hp
  refine ⟨h1, h2, h3, hp, div_pos (by linarith) hr, ?_⟩
  show hi = lo + n * ((hi - lo) / n)
  field_simp
  ring

theorem ceil_least {x s : ℝ} (hs : 0 < s) : ((⌈x / s⌉ : ℝ) - 1) * s < x ∧ x ≤ ⌈x / s⌉ * s := by
  have h1 := Int.le_ceil (x / s)
  have h2 := Int.ceil_lt_add_one (x / s)
  constructor
  · rw [← lt_div_iff₀ hs]; linarith
  · rwa [← div_le_iff₀ hs]

/-- The bins in separation. -/
theorem sepBins_ok {c : BinConfig} {B : Bins} {bs : ℝ} (hs : ∀ s, c.binsize.get = some s → 0 < s) (h : sepBins c = .ok (B, bs)) :
    Keeps c B ∧ c.given = 3 ∧ 0 < B.minsep ∧ 0 < B.binsize ∧ 0 ≤ B.nbins ∧
    B.maxsep = B.minsep * Real.exp (B.nbins * B.binsize) ∧ 0 < bs ∧
    (∀ s, c.binsize.get = some s → bs = s) ∧ (c.binsize.get = none → bs = B.binsize) := by
  unfold sepBins at h
  obtain ⟨r, hr, h⟩ := except_bind_ok.1 h
  obtain ⟨B', hB, h⟩ := except_bind_ok.1 h
  split at h
  · cases h
  rename_i hn
  obtain ⟨l, hl, h⟩ := except_bind_ok.1 h
  have hp := parseBins_ok hr
  have hBB : B' = B := by cases r <;> simp_all
  subst hBB
  have hl' := (pyLog_ok.1 hl).1
  have key : 0 < B'.binsize ∧ 0 < bs ∧ (∀ s, c.binsize.get = some s → bs = s) ∧ (c.binsize.get = none → bs = B'.binsize) := by
    cases r with
    | noNbins mn mx b =>
      obtain ⟨p1, p2, p3, p4, p5⟩ := hp
      simp only [Except.ok.injEq, Prod.mk.injEq, true_and] at h
      subst h
      obtain ⟨q, hq, hB⟩ := except_bind_ok.1 hB
      obtain ⟨L, hL, hB⟩ := except_bind_ok.1 hB
      obtain ⟨t, ht, hB⟩ := except_bind_ok.1 hB
      obtain ⟨s, hs', hB⟩ := except_bind_ok.1 hB
      simp only [pure, Except.pure, Except.ok.injEq] at hB
      subst hB
      obtain ⟨_, rfl⟩ := pyDiv_ok.1 hq
      obtain ⟨hq0, rfl⟩ := pyLog_ok.1 hL
      obtain ⟨hbs, rfl⟩ := pyDiv_ok.1 ht
      obtain ⟨hn, rfl⟩ := pyDiv_ok.1 hs'
      simp only at hl' ⊢
      have hLpos : 0 < Real.log (mx / mn) := Real.log_pos (by rw [lt_div_iff₀ hl']; linarith)
      have hb := hs _ p4
      refine ⟨(ceil_size hLpos hb).2.1, hb, ?_, ?_⟩
      · intro s h'; rw [p4] at h'; exact Option.some.inj h'
      · intro h'; rw [p4] at h'; cases h'
    | noSize mn mx n =>
      obtain ⟨p1, p2, p3, p4, p5⟩ := hp
      simp only [Except.ok.injEq, Prod.mk.injEq, true_and] at h
      subst h
      obtain ⟨q, hq, hB⟩ := except_bind_ok.1 hB
      obtain ⟨L, hL, hB⟩ := except_bind_ok.1 hB
      obtain ⟨s, hs', hB⟩ := except_bind_ok.1 hB
      simp only [pure, Except.pure, Except.ok.injEq] at hB
      subst hB
      obtain ⟨_, rfl⟩ := pyDiv_ok.1 hq
      obtain ⟨hq0, rfl⟩ := pyLog_ok.1 hL
      obtain ⟨hn', rfl⟩ := pyDiv_ok.1 hs'
      simp only at hl' hn ⊢
      have hLpos : 0 < Real.log (mx / mn) := Real.log_pos (by rw [lt_div_iff₀ hl']; linarith)
      have hnp : (0 : ℝ) < n := lt_of_le_of_ne (by exact_mod_cast not_lt.1 hn) (Ne.symm hn')
      refine ⟨div_pos hLpos hnp, div_pos hLpos hnp, ?_, fun _ => trivial⟩
      intro s h'; rw [p4] at h'; cases h'
    | noMax mn n b =>
      obtain ⟨p1, p2, p3, p4⟩ := hp
      simp only [Except.ok.injEq, Prod.mk.injEq, true_and] at h
      subst h
      simp only [logStage, pure, Except.pure, Except.ok.injEq] at hB
      subst hB
      refine ⟨hs _ p4, hs _ p4, ?_, fun _ => rfl⟩
      intro s h'; rw [p4] at h'; exact Option.some.inj h'
    | noMin mx n b =>
      obtain ⟨p0, p1, p2, p3, p4⟩ := hp
      simp only [Except.ok.injEq, Prod.mk.injEq, true_and] at h
      subst h
      simp only [logStage, pure, Except.pure, Except.ok.injEq] at hB
      subst hB
      refine ⟨hs _ p4, hs _ p4, ?_, fun _ => rfl⟩
      intro s h'; rw [p4] at h'; exact Option.some.inj h'
  obtain ⟨k1, k2, k3, k4⟩ := key
  have hm : makeBins .log c = .ok B' := by
    unfold makeBins
    rw [hr]
    show logBins r = _
    unfold logBins
    rw [hB]
    show logFinish B' = _
    unfold logFinish
    rw [if_neg hn, hl]
    show (pyDiv 0.1 B'.binsize >>= fun _ => pure B') = _
    rw [pyDiv, if_neg k1.ne']
    rfl
  obtain ⟨a1, a2, a3, a4, a5, a6, _⟩ := log_bins_consistent c B' hm
  exact ⟨a1, a2, a3, k1, a4, a6, k2, k3, k4⟩

/-- A limit: the default, or what the user gave. -/
def LimitIs (a : Arg ℝ) (unit d x : ℝ) : Prop := (a = .absent ∧ x = d) ∨ ∃ v, a = .val v ∧ x = v * unit

theorem LimitIs.some {a : Arg ℝ} {unit d x v : ℝ} (h : LimitIs a unit d x) (hv : a.get = some v) : x = v * unit := by
  rcases h with ⟨rfl, _⟩ | ⟨w, rfl, rfl⟩
  · cases hv
  · simp only [Arg.get, Option.some.injEq] at hv; rw [hv]

theorem LimitIs.none {a : Arg ℝ} {unit d x : ℝ} (h : LimitIs a unit d x) (hv : a.get = none) : x = d := by
  rcases h with ⟨rfl, h⟩ | ⟨w, rfl, rfl⟩
  · exact h
  · cases hv

theorem LimitIs.present {a : Arg ℝ} {unit d x : ℝ} (h : LimitIs a unit d x) : a.present = true ↔ a.get.isSome := by
  rcases h with ⟨rfl, _⟩ | ⟨w, rfl, rfl⟩ <;> simp [Arg.present, Arg.get]

section
variable {lowest highest unit bs lo hi s : ℝ} {c : LinConfig} {L : LinBins}

theorem keeps_noN (hlo : LimitIs c.lo unit lowest lo) (hhi : LimitIs c.hi unit highest hi) (hs : (c.size = .absent ∧ s = bs) ∨ c.size = .val s)
    (hs0 : 0 < s) (hn : c.n = .absent) (h1 : lowest ≤ lo) (h2 : lo < hi) (h3 : hi ≤ highest)
    (h : (pyDiv (hi - lo - 1e-10) s >>= fun t => linFinish lo hi ⌈t⌉) = .ok L) :
    L.Good lowest highest ∧ LinKeeps lowest highest unit bs c L := by
  obtain ⟨t, ht, h⟩ := except_bind_ok.1 h
  obtain ⟨_, rfl⟩ := pyDiv_ok.1 ht
  obtain ⟨h0, h1', rfl⟩ := linFinish_ok.1 h
  have hg : c.n.get = none := by rw [hn]; rfl
  refine ⟨linBins_good h1 h2 h3 h0 h1', ⟨fun v hv => hlo.some hv, fun v hv => hhi.some hv, ?_, fun _ => ?_, ?_, fun hv _ => hlo.none hv,
    fun hv _ => hhi.none hv⟩⟩
  · intro n hn'; rw [hg] at hn'; cases hn'
  · have hse : c.size.get.getD bs = s := by rcases hs with ⟨e, rfl⟩ | e <;> simp [e, Arg.get]
    simp only [hse]
    exact ceil_least hs0
  · intro s' _ hn'; rw [hg] at hn'; cases hn'

theorem keeps_noSize {n : ℤ} (hlo : LimitIs c.lo unit lowest lo) (hhi : LimitIs c.hi unit highest hi) (hs : c.size = .absent)
    (hn : c.n = .val n) (h1 : lowest ≤ lo) (h2 : lo < hi) (h3 : hi ≤ highest) (h : linFinish lo hi n = .ok L) :
    L.Good lowest highest ∧ LinKeeps lowest highest unit bs c L := by
  obtain ⟨h0, h1', rfl⟩ := linFinish_ok.1 h
  have hg : c.n.get = some n := by rw [hn]; rfl
  refine ⟨linBins_good h1 h2 h3 h0 h1', ⟨fun v hv => hlo.some hv, fun v hv => hhi.some hv, ?_, ?_, ?_, fun hv _ => hlo.none hv,
    fun hv _ => hhi.none hv⟩⟩
  · intro n' hn'; rw [hg] at hn'; exact Option.some.inj hn'
  · intro hn'; rw [hg] at hn'; cases hn'
  · intro s' hs'; rw [hs] at hs'; cases hs'

theorem keeps_both {n : ℤ} {lo' hi' : ℝ} (hlo : LimitIs c.lo unit lowest lo) (hhi : LimitIs c.hi unit highest hi) (hs : c.size = .val s)
    (hn : c.n = .val n) (h1 : lowest ≤ lo') (h2 : lo' < hi') (h3 : hi' ≤ highest) (h4 : c.lo.get.isSome → lo' = lo)
    (h5 : c.hi.get.isSome → hi' = hi) (h6 : hi' - lo' ≤ n * s) (h7 : hi' - lo' = n * s ∨ lo' = lowest ∨ hi' = highest)
    (h : linFinish lo' hi' n = .ok L) :
    L.Good lowest highest ∧ LinKeeps lowest highest unit bs c L := by
  obtain ⟨h0, h1', rfl⟩ := linFinish_ok.1 h
  have hg : c.n.get = some n := by rw [hn]; rfl
  have hg' : c.size.get = some s := by rw [hs]; rfl
  have hnp : (0 : ℝ) < n := by exact_mod_cast lt_of_le_of_ne h1' (Ne.symm h0)
  refine ⟨linBins_good h1 h2 h3 h0 h1', ⟨?_, ?_, ?_, ?_, ?_, ?_, ?_⟩⟩
  · intro v hv; exact (h4 (by rw [hv]; rfl)).trans (hlo.some hv)
  · intro v hv; exact (h5 (by rw [hv]; rfl)).trans (hhi.some hv)
  · intro n' hn'; rw [hg] at hn'; exact Option.some.inj hn'
  · intro hn'; rw [hg] at hn'; cases hn'
  · intro s' hs' _
    rw [hg'] at hs'
    obtain rfl := Option.some.inj hs'
    refine ⟨by rw [div_le_iff₀ hnp]; linarith, h7.imp (fun e => ?_) id⟩
    show (hi' - lo') / n = s
    rw [e]; field_simp
  · rintro _ (h' | h')
    · rw [hg] at h'; cases h'
    · rw [hg'] at h'; cases h'
  · rintro _ (h' | h')
    · rw [hg] at h'; cases h'
    · rw [hg'] at h'; cases h'

end

theorem limit_of_float {a : Arg ℝ} {unit d d' x : ℝ} (hd : d' * unit = d) (h : a.float d' = .ok x) : LimitIs a unit d (x * unit) := by
  rcases float_ok.1 h with ⟨e, rfl⟩ | e
  · exact .inl ⟨e, hd⟩
  · exact .inr ⟨x, e, rfl⟩

/-- `u`: accepted means good, and what was given is kept. -/
theorem uBins_ok {c : LinConfig} {bs : ℝ} {L : LinBins} (hbs : 0 < bs) (hs : ∀ s, c.size.get = some s → 0 < s)
    (h : uBins c bs = .ok L) : L.Good 0 1 ∧ LinKeeps 0 1 1 bs c L := by
  unfold uBins at h
  obtain ⟨lo, hlo, h⟩ := except_bind_ok.1 h
  obtain ⟨hi, hhi, h⟩ := except_bind_ok.1 h
  split at h
  · cases h
  rename_i hr
  push Not at hr
  split at h
  · cases h
  rename_i hlt
  replace hlt := not_le.1 hlt
  obtain ⟨s, hs', h⟩ := except_bind_ok.1 h
  have hlo' : LimitIs c.lo 1 0 lo := by simpa using limit_of_float (unit := 1) (by simp) hlo
  have hhi' : LimitIs c.hi 1 1 hi := by simpa using limit_of_float (unit := 1) (by simp) hhi
  rw [float_ok] at hs'
  have hspos : 0 < s := by
    rcases hs' with ⟨_, rfl⟩ | h'
    · exact hbs
    · exact hs s (by rw [h']; rfl)
  cases hn : c.n with
  | none => rw [hn] at h; cases h
  | absent =>
    rw [hn] at h
    exact keeps_noN hlo' hhi' hs' hspos hn hr.1 hlt hr.2 h
  | val n =>
    rw [hn] at h
    simp only at h
    split at h
    · cases h
    rename_i hthree
    rcases hs' with ⟨e, _⟩ | e
    · rw [if_neg (by simp [e, Arg.present])] at h
      exact keeps_noSize hlo' hhi' e hn hr.1 hlt hr.2 h
    · rw [if_pos (by simp [e, Arg.present])] at h
      have hnp : (0 : ℝ) < n := by
        obtain ⟨h0, h1, _⟩ := linFinish_ok.1 h
        exact_mod_cast lt_of_le_of_ne h1 (Ne.symm h0)
      have hns : 0 < n * s := by positivity
      have hthree' : ¬ (c.hi.get.isSome ∧ c.lo.get.isSome) := by
        rw [← hlo'.present, ← hhi'.present]
        simpa [e, Arg.present] using hthree
      by_cases hl : c.lo.get.isSome
      · have hh : ¬ c.hi.get.isSome := fun h' => hthree' ⟨h', hl⟩
        rw [if_pos (hlo'.present.2 hl), if_neg (by rw [hhi'.present]; exact hh)] at h
        have h1 : hi = 1 := hhi'.none (by simpa using hh)
        refine keeps_both hlo' hhi' e hn hr.1 (lt_min (by linarith) (by linarith)) (min_le_right _ _) (fun _ => rfl)
          (fun h' => absurd h' hh) (by have := min_le_left (lo + n * s) 1; linarith) ?_ h
        rcases min_choice (lo + n * s) 1 with e | e <;> rw [e] <;> simp
      · have h0 : lo = 0 := hlo'.none (by simpa using hl)
        rw [if_neg (by rw [hlo'.present]; exact hl)] at h
        by_cases hh : c.hi.get.isSome
        · rw [if_pos (hhi'.present.2 hh)] at h
          refine keeps_both hlo' hhi' e hn (le_max_right _ _) (max_lt (by linarith) (by linarith)) hr.2 (fun h' => absurd h' hl)
            (fun _ => rfl) (by have := le_max_left (hi - n * s) 0; linarith) ?_ h
          rcases max_choice (hi - n * s) 0 with e | e <;> rw [e] <;> simp
        · rw [if_neg (by rw [hhi'.present]; exact hh)] at h
          have h1 : hi = 1 := hhi'.none (by simpa using hh)
          have e1 : min (max (hi - n * s) 0 + n * s) 1 = 1 := by
            rw [min_eq_right]; have := le_max_left (hi - n * s) 0; linarith
          rw [e1] at h
          refine keeps_both hlo' hhi' e hn (le_max_right _ _) (max_lt (by linarith) (by linarith)) le_rfl (fun h' => absurd h' hl)
            (fun h' => absurd h' hh) (by have := le_max_left (hi - n * s) 0; linarith) (by simp) h

/-- `v`, unless `max_v`, `vbin_size` and `nvbins` are given with more bins than fit between 0 and `max_v`. -/
theorem vBins_ok {c : LinConfig} {bs : ℝ} {L : LinBins} (hbs : 0 < bs) (hs : ∀ s, c.size.get = some s → 0 < s)
    (hfit : ∀ x s (n : ℤ), c.hi.get = some x → c.size.get = some s → c.n.get = some n → n * s ≤ x)
    (h : vBins c bs = .ok L) : L.Good 0 1 ∧ LinKeeps 0 1 1 bs c L := by
  unfold vBins at h
  obtain ⟨lo, hlo, h⟩ := except_bind_ok.1 h
  obtain ⟨hi, hhi, h⟩ := except_bind_ok.1 h
  split at h
  · cases h
  rename_i hr
  push Not at hr
  split at h
  · cases h
  rename_i hlt
  replace hlt := not_le.1 hlt
  obtain ⟨s, hs', h⟩ := except_bind_ok.1 h
  have hlo' : LimitIs c.lo 1 0 lo := by simpa using limit_of_float (unit := 1) (by simp) hlo
  have hhi' : LimitIs c.hi 1 1 hi := by simpa using limit_of_float (unit := 1) (by simp) hhi
  rw [float_ok] at hs'
  have hspos : 0 < s := by
    rcases hs' with ⟨_, rfl⟩ | h'
    · exact hbs
    · exact hs s (by rw [h']; rfl)
  cases hn : c.n with
  | none => rw [hn] at h; cases h
  | absent =>
    rw [hn] at h
    exact keeps_noN hlo' hhi' hs' hspos hn hr.1 hlt hr.2 h
  | val n =>
    rw [hn] at h
    simp only at h
    split at h
    · cases h
    rename_i hthree
    rcases hs' with ⟨e, _⟩ | e
    · rw [if_neg (by simp [e, Arg.present])] at h
      exact keeps_noSize hlo' hhi' e hn hr.1 hlt hr.2 h
    · rw [if_pos (by simp [e, Arg.present])] at h
      have hthree' : ¬ (c.hi.get.isSome ∧ c.lo.get.isSome) := by
        rw [← hlo'.present, ← hhi'.present]
        simpa [e, Arg.present] using hthree
      have hnp : (0 : ℝ) < n := by
        split at h <;> obtain ⟨h0, h1, _⟩ := linFinish_ok.1 h <;> exact_mod_cast lt_of_le_of_ne h1 (Ne.symm h0)
      have hns : 0 < n * s := by positivity
      by_cases hh : c.hi.get.isSome
      · have hl : ¬ c.lo.get.isSome := fun h' => hthree' ⟨hh, h'⟩
        have h0 : lo = 0 := hlo'.none (by simpa using hl)
        rw [if_pos (hhi'.present.2 hh)] at h
        obtain ⟨x, hx⟩ := Option.isSome_iff_exists.1 hh
        have hx' : hi = x := by simpa using hhi'.some hx
        have := hfit x s n hx (by rw [e]; rfl) (by rw [hn]; rfl)
        rw [max_eq_left (by linarith)] at h
        exact keeps_both hlo' hhi' e hn (by linarith) (by linarith) hr.2 (fun h' => absurd h' hl) (fun _ => rfl) (by linarith)
          (.inl (by ring)) h
      · rw [if_neg (by rw [hhi'.present]; exact hh)] at h
        have h1 : hi = 1 := hhi'.none (by simpa using hh)
        refine keeps_both hlo' hhi' e hn hr.1 (lt_min (by linarith) (by linarith)) (min_le_right _ _) (fun _ => rfl)
          (fun h' => absurd h' hh) (by have := min_le_left (lo + n * s) 1; linarith) ?_ h
        rcases min_choice (lo + n * s) 1 with e | e <;> rw [e] <;> simp

/-- `phi`, in radians. -/
theorem phiBins_ok {c : LinConfig} {units bs : ℝ} {L : LinBins} (hu : units ≠ 0) (hbs : 0 < bs) (hs : ∀ s, c.size.get = some s → 0 < s)
    (h : phiBins c units bs = .ok L) : L.Good 0 Real.pi ∧ LinKeeps 0 Real.pi units bs c L := by
  unfold phiBins at h
  obtain ⟨lo, hlo, h⟩ := except_bind_ok.1 h
  obtain ⟨hi, hhi, h⟩ := except_bind_ok.1 h
  simp only at h
  split at h
  · cases h
  rename_i hr
  push Not at hr
  split at h
  · cases h
  rename_i hlt
  replace hlt := not_le.1 hlt
  obtain ⟨s, hs', h⟩ := except_bind_ok.1 h
  have hlo' : LimitIs c.lo units 0 (lo * units) := limit_of_float (by simp) hlo
  have hhi' : LimitIs c.hi units Real.pi (hi * units) := limit_of_float (by field_simp) hhi
  generalize lo * units = lo at *
  generalize hi * units = hi at *
  rw [float_ok] at hs'
  have hspos : 0 < s := by
    rcases hs' with ⟨_, rfl⟩ | h'
    · exact hbs
    · exact hs s (by rw [h']; rfl)
  cases hn : c.n with
  | none => rw [hn] at h; cases h
  | absent =>
    rw [hn] at h
    exact keeps_noN hlo' hhi' hs' hspos hn hr.1 hlt hr.2 h
  | val n =>
    rw [hn] at h
    simp only at h
    split at h
    · cases h
    rename_i hthree
    rcases hs' with ⟨e, _⟩ | e
    · rw [if_neg (by simp [e, Arg.present])] at h
      exact keeps_noSize hlo' hhi' e hn hr.1 hlt hr.2 h
    · rw [if_pos (by simp [e, Arg.present])] at h
      have hthree' : ¬ (c.hi.get.isSome ∧ c.lo.get.isSome) := by
        rw [← hlo'.present, ← hhi'.present]
        simpa [e, Arg.present] using hthree
      have hnp : (0 : ℝ) < n := by
        split at h <;> obtain ⟨h0, h1, _⟩ := linFinish_ok.1 h <;> exact_mod_cast lt_of_le_of_ne h1 (Ne.symm h0)
      have hns : 0 < n * s := by positivity
      by_cases hh : c.hi.get.isSome
      · have hl : ¬ c.lo.get.isSome := fun h' => hthree' ⟨hh, h'⟩
        have h0 : lo = 0 := hlo'.none (by simpa using hl)
        rw [if_pos (hhi'.present.2 hh)] at h
        refine keeps_both hlo' hhi' e hn (le_max_right _ _) (max_lt (by linarith) (by linarith)) hr.2 (fun h' => absurd h' hl)
          (fun _ => rfl) (by have := le_max_left (hi - n * s) 0; linarith) ?_ h
        rcases max_choice (hi - n * s) 0 with e | e <;> rw [e] <;> simp
      · rw [if_neg (by rw [hhi'.present]; exact hh)] at h
        have h1 : hi = Real.pi := hhi'.none (by simpa using hh)
        refine keeps_both hlo' hhi' e hn hr.1 (lt_min (by linarith) (by linarith)) (min_le_right _ _) (fun _ => rfl)
          (fun h' => absurd h' hh) (by have := min_le_left (lo + n * s) Real.pi; linarith) ?_ h
        rcases min_choice (lo + n * s) Real.pi with e | e <;> rw [e] <;> simp

/-- The tolerance is `bin_slop` times the bin size; by default the bin size, but at most 0.1. -/
def SlopIs (c : BinConfig) (size b : ℝ) : Prop :=
  (∀ s, 0 ≤ s → c.binSlop.get = some s → b = size * s) ∧ (c.binSlop.get = none → b = min size 0.1)

theorem slopOf_is (c : BinConfig) (size : ℝ) : SlopIs c size (slopOf c size) := by
  refine ⟨fun s hs h => ?_, fun h => ?_⟩
  · unfold slopOf; rw [h]; simp only; rw [if_neg (not_lt.2 hs)]
  · unfold slopOf; rw [h]; simp only; rw [if_pos (by norm_num)]
    split
    · rw [min_eq_left]; assumption
    · rw [min_eq_right]; linarith

theorem keeps_scaled {c : BinConfig} {B : Bins} {q : ℝ} (hq : q ≠ 0) (h : Keeps c B) :
    Keeps c ⟨B.minsep * q / q, B.maxsep * q / q, B.nbins, B.binsize⟩ := by
  have e1 : B.minsep * q / q = B.minsep := by field_simp
  have e2 : B.maxsep * q / q = B.maxsep := by field_simp
  rw [e1, e2]
  exact ⟨h.1, h.2, h.3, h.4, h.5⟩

/-- **C62, LogRUV.** If the constructor accepts the parameters, then the limits handed to the C++ layer are consistent and within the range
of `u` and `v`, and keep what the user gave.  Full statement: without the hypotheses on the sizes and on the fit of `v`; false, see below. -/
theorem ruv_bins_partial (c : BinConfig3) (dflt : ℝ) (p : Prm3) (hu : 0 < c.sep.sepUnits) (hs : c.SizesPos)
    (hfit : ∀ x s (n : ℤ), c.v.hi.get = some x → c.v.size.get = some s → c.v.n.get = some n → n * s ≤ x)
    (h : makeRuv c dflt = .ok p) :
    RuvParams p ∧ c.sep.given = 3 ∧
    Keeps c.sep ⟨p.minsep / c.sep.sepUnits, p.maxsep / c.sep.sepUnits, p.nbins, p.binsize⟩ ∧
    LinKeeps 0 1 1 (c.sep.binsize.get.getD p.binsize) c.u ⟨p.minu, p.maxu, p.nubins, p.ubinsize⟩ ∧
    LinKeeps 0 1 1 (c.sep.binsize.get.getD p.binsize) c.v ⟨p.minv, p.maxv, p.nvbins, p.vbinsize⟩ ∧
    SlopIs c.sep p.binsize p.b ∧ SlopIs c.sep p.ubinsize p.bu ∧ SlopIs c.sep p.vbinsize p.bv := by
  unfold makeRuv at h
  obtain ⟨⟨B, bs⟩, hB, h⟩ := except_bind_ok.1 h
  simp only at h
  split at h
  · cases h
  obtain ⟨U, hU, h⟩ := except_bind_ok.1 h
  obtain ⟨V, hV, h⟩ := except_bind_ok.1 h
  simp only [Except.ok.injEq] at h
  subst h
  obtain ⟨s1, s2, s3, s4⟩ := hs
  obtain ⟨b1, b2, b3, b4, b5, b6, b7, b8, b9⟩ := sepBins_ok s1 hB
  obtain ⟨gU, kU⟩ := uBins_ok b7 s2 hU
  obtain ⟨gV, kV⟩ := vBins_ok b7 s3 hfit hV
  have hbs : c.sep.binsize.get.getD B.binsize = bs := by
    cases hb : c.sep.binsize.get with
    | none => exact (b9 hb).symm
    | some s => exact (b8 s hb).symm
  refine ⟨⟨by show 0 < _ * _; positivity, b4, b5, ?_, gU.lowest, gU.size, gU.n.le, gU.hi, gU.highest, gV.lowest, gV.size, gV.n.le, gV.hi,
    gV.highest⟩, b2, keeps_scaled hu.ne' b1, ?_, ?_, slopOf_is _ _, slopOf_is _ _, slopOf_is _ _⟩
  · show B.maxsep * _ = B.minsep * _ * _
    rw [b6]; ring
  · simp only [hbs]; exact kU
  · simp only [hbs]; exact kV

/-- **C62, LogSAS.** The same; `min_phi` and `max_phi` are in `phi_units`, the angles handed over and the size of the bins in radians.  Full
statement: without the hypothesis on the sizes, and with `phi_bin_size` in `phi_units`; false, see below. -/
theorem sas_bins_partial (c : BinConfig3) (dflt : ℝ) (p : Prm3) (hu : 0 < c.sep.sepUnits) (hpu : c.phiUnits ≠ 0) (hs : c.SizesPos)
    (h : makeSas c dflt = .ok p) :
    SasParams p ∧ c.sep.given = 3 ∧
    Keeps c.sep ⟨p.minsep / c.sep.sepUnits, p.maxsep / c.sep.sepUnits, p.nbins, p.binsize⟩ ∧
    LinKeeps 0 Real.pi c.phiUnits (c.sep.binsize.get.getD p.binsize) c.phi ⟨p.minu, p.maxu, p.nubins, p.ubinsize⟩ ∧
    SlopIs c.sep p.binsize p.b ∧ SlopIs c.sep p.ubinsize p.bu := by
  unfold makeSas at h
  obtain ⟨⟨B, bs⟩, hB, h⟩ := except_bind_ok.1 h
  simp only at h
  split at h
  · cases h
  obtain ⟨U, hU, h⟩ := except_bind_ok.1 h
  simp only [Except.ok.injEq] at h
  subst h
  obtain ⟨s1, s2, s3, s4⟩ := hs
  obtain ⟨b1, b2, b3, b4, b5, b6, b7, b8, b9⟩ := sepBins_ok s1 hB
  obtain ⟨gU, kU⟩ := phiBins_ok hpu b7 s4 hU
  have hbs : c.sep.binsize.get.getD B.binsize = bs := by
    cases hb : c.sep.binsize.get with
    | none => exact (b9 hb).symm
    | some s => exact (b8 s hb).symm
  refine ⟨⟨by show 0 < _ * _; positivity, b4, b5, ?_, gU.lowest, gU.size, gU.n.le, gU.hi, gU.highest⟩, b2, keeps_scaled hu.ne' b1, ?_,
    slopOf_is _ _, slopOf_is _ _⟩
  · show B.maxsep * _ = B.minsep * _ * _
    rw [b6]; ring
  · simp only [hbs]; exact kU

/-- **C62, LogMultipole.** -/
theorem multipole_bins (c : BinConfig3) (B : Bins) (n : ℤ) (hs : ∀ s, c.sep.binsize.get = some s → 0 < s)
    (h : makeMultipole c = .ok (B, n)) :
    Keeps c.sep B ∧ c.sep.given = 3 ∧ 0 < B.minsep ∧ 0 < B.binsize ∧ 0 ≤ B.nbins ∧
    B.maxsep = B.minsep * Real.exp (B.nbins * B.binsize) ∧ c.maxn.get = some n ∧ 0 ≤ n := by
  unfold makeMultipole at h
  obtain ⟨⟨B', bs⟩, hB, h⟩ := except_bind_ok.1 h
  simp only at h
  split at h
  · cases h
  split at h
  · cases h
  rename_i m hm
  split at h
  · cases h
  rename_i hneg
  simp only [Except.ok.injEq, Prod.mk.injEq] at h
  obtain ⟨rfl, rfl⟩ := h
  obtain ⟨b1, b2, b3, b4, b5, b6, _⟩ := sepBins_ok hs hB
  exact ⟨b1, b2, b3, b4, b5, b6, hm, not_lt.1 hneg⟩

/-- **C62.** Parameters of another `bin_type` are a `TypeError` (unless the separations are already rejected). -/
theorem foreign_parameters_rejected (c : BinConfig3) (dflt : ℝ) :
    (c.phi.any ∨ c.maxn.present → ∀ p, makeRuv c dflt ≠ .ok p) ∧ (c.u.any ∨ c.v.any → ∀ p, makeSas c dflt ≠ .ok p) ∧
    (c.u.any ∨ c.v.any ∨ c.phi.any → ∀ p, makeMultipole c ≠ .ok p) := by
  refine ⟨fun h p e => ?_, fun h p e => ?_, fun h p e => ?_⟩
  · unfold makeRuv at e
    obtain ⟨⟨B, bs⟩, hB, e⟩ := except_bind_ok.1 e
    simp only at e
    rw [if_pos (by simpa using h)] at e
    cases e
  · unfold makeSas at e
    obtain ⟨⟨B, bs⟩, hB, e⟩ := except_bind_ok.1 e
    simp only at e
    rw [if_pos (by simpa using h)] at e
    cases e
  · unfold makeMultipole at e
    obtain ⟨⟨B, bs⟩, hB, e⟩ := except_bind_ok.1 e
    simp only at e
    rw [if_pos (by simpa [or_assoc] using h)] at e
    cases e

/-- **C62.** All four of the parameters for `u`, `v` or `phi` are rejected. -/
theorem four_parameters_rejected (c : LinConfig) (units bs : ℝ) (h1 : c.lo.present) (h2 : c.hi.present) (h3 : c.size.present)
    (h4 : c.n.present) (L : LinBins) : uBins c bs ≠ .ok L ∧ vBins c bs ≠ .ok L ∧ phiBins c units bs ≠ .ok L := by
  refine ⟨fun h => ?_, fun h => ?_, fun h => ?_⟩
  · unfold uBins at h
    obtain ⟨lo, hlo, h⟩ := except_bind_ok.1 h
    obtain ⟨hi, hhi, h⟩ := except_bind_ok.1 h
    split at h
    · cases h
    split at h
    · cases h
    obtain ⟨s, hs', h⟩ := except_bind_ok.1 h
    cases hn : c.n <;> rw [hn] at h h4
    · cases h4
    · cases h
    · simp [h1, h2, h3] at h
  · unfold vBins at h
    obtain ⟨lo, hlo, h⟩ := except_bind_ok.1 h
    obtain ⟨hi, hhi, h⟩ := except_bind_ok.1 h
    split at h
    · cases h
    split at h
    · cases h
    obtain ⟨s, hs', h⟩ := except_bind_ok.1 h
    cases hn : c.n <;> rw [hn] at h h4
    · cases h4
    · cases h
    · simp [h1, h2, h3] at h
  · unfold phiBins at h
    obtain ⟨lo, hlo, h⟩ := except_bind_ok.1 h
    obtain ⟨hi, hhi, h⟩ := except_bind_ok.1 h
    simp only at h
    split at h
    · cases h
    split at h
    · cases h
    obtain ⟨s, hs', h⟩ := except_bind_ok.1 h
    cases hn : c.n <;> rw [hn] at h h4
    · cases h4
    · cases h
    · simp [h1, h2, h3] at h

/-- **C62.** Valid limits with a number of bins are accepted: the theorems above are not about a constructor that raises an exception on
every input. -/
theorem valid_parameters_accepted (c : BinConfig3) (dflt mn size u1 u2 v1 v2 p1 p2 : ℝ) (n nu nv np : ℤ)
    (hsep : c.sep.minsep = .val mn ∧ c.sep.nbins = .val n ∧ c.sep.binsize = .val size ∧ c.sep.maxsep = .absent)
    (h0 : 0 < mn) (hn : 0 ≤ n) :
    (c.u = ⟨.val u1, .val u2, .absent, .val nu⟩ → c.v = ⟨.val v1, .val v2, .absent, .val nv⟩ → c.phi.any = false → c.maxn = .absent →
      0 ≤ u1 → u1 < u2 → u2 ≤ 1 → 0 < nu → 0 ≤ v1 → v1 < v2 → v2 ≤ 1 → 0 < nv → ∃ p, makeRuv c dflt = .ok p) ∧
    (c.phi = ⟨.val p1, .val p2, .absent, .val np⟩ → c.u.any = false → c.v.any = false → 0 < c.phiUnits →
      0 ≤ p1 → p1 < p2 → p2 * c.phiUnits ≤ Real.pi → 0 < np → ∃ p, makeSas c dflt = .ok p) := by
  obtain ⟨a1, a2, a3, a4⟩ := hsep
  have hB : sepBins c.sep = .ok (⟨mn, Real.exp (n * size) * mn, n, size⟩, size) := by
    have hl : pyLog mn = .ok (Real.log mn) := pyLog_ok.2 ⟨h0, rfl⟩
    unfold sepBins parseBins getMinSep
    simp [a1, a2, a3, a4, Arg.get, logStage, bind, Except.bind, pure, Except.pure, hl, not_lt.2 hn]
  refine ⟨fun hu hv hp hm l1 l2 l3 l4 m1 m2 m3 m4 => ?_, fun hp hu hv hpu l1 l2 l3 l4 => ?_⟩
  · have hU : uBins c.u size = linFinish u1 u2 nu := by
      rw [hu]
      simp only [uBins, Arg.float, Arg.present, bind, Except.bind]
      rw [if_neg (by push Not; exact ⟨l1, l3⟩), if_neg (not_le.2 l2), if_neg (by simp), if_neg (by simp)]
    have hV : vBins c.v size = linFinish v1 v2 nv := by
      rw [hv]
      simp only [vBins, Arg.float, Arg.present, bind, Except.bind]
      rw [if_neg (by push Not; exact ⟨m1, m3⟩), if_neg (not_le.2 m2), if_neg (by simp), if_neg (by simp)]
    unfold makeRuv
    rw [hB]
    simp only [bind, Except.bind, hU, hV, hp, hm, Arg.present, linFinish_ok.2 ⟨l4.ne', l4.le, rfl⟩, linFinish_ok.2 ⟨m4.ne', m4.le, rfl⟩]
    exact ⟨_, rfl⟩
  · have hU : phiBins c.phi c.phiUnits size = linFinish (p1 * c.phiUnits) (p2 * c.phiUnits) np := by
      rw [hp]
      simp only [phiBins, Arg.float, Arg.present, bind, Except.bind]
      rw [if_neg (by push Not; exact ⟨by positivity, l3⟩), if_neg (not_le.2 (by gcongr)), if_neg (by simp), if_neg (by simp)]
    unfold makeSas
    rw [hB]
    simp only [bind, Except.bind, hU, hu, hv, linFinish_ok.2 ⟨l4.ne', l4.le, rfl⟩]
    exact ⟨_, rfl⟩

/-! ### Cases -/

/-- Ten bins in separation, of size 0.1, from 1. -/
def exSep : BinConfig := { minsep := .val 1, nbins := .val 10, binsize := .val 0.1 }

theorem exSep_ok : sepBins exSep = .ok (⟨1, Real.exp (10 * 0.1) * 1, 10, 0.1⟩, 0.1) := by
  simp [sepBins, exSep, parseBins, Arg.get, getMinSep, logStage, pyLog, bind, Except.bind, pure, Except.pure,
    show ¬ ((1 : ℝ) ≤ 0) by norm_num]

theorem ceil_unit (lo hi s : ℝ) (n : ℤ) (hs : 0 < s) (h1 : (n - 1) * s < hi - lo - 1e-10) (h2 : hi - lo - 1e-10 ≤ n * s) :
    ⌈(hi - lo - 1e-10) / s⌉ = n := by
  rw [Int.ceil_eq_iff]
  exact ⟨by rw [lt_div_iff₀ hs]; exact h1, by rw [div_le_iff₀ hs]; exact h2⟩

theorem makeRuv_of {c : BinConfig3} {B : Bins} {bs : ℝ} {U V : LinBins} (dflt : ℝ) (h1 : sepBins c.sep = .ok (B, bs))
    (h2 : (c.phi.any || c.maxn.present) = false) (h3 : uBins c.u bs = .ok U) (h4 : vBins c.v bs = .ok V) :
    ∃ p, makeRuv c dflt = .ok p ∧ p.nbins = B.nbins ∧ U = ⟨p.minu, p.maxu, p.nubins, p.ubinsize⟩ ∧
      V = ⟨p.minv, p.maxv, p.nvbins, p.vbinsize⟩ := by
  unfold makeRuv
  rw [h1]
  simp only [bind, Except.bind, h2, h3, h4]
  exact ⟨_, rfl, rfl, rfl, rfl⟩

theorem makeSas_of {c : BinConfig3} {B : Bins} {bs : ℝ} {U : LinBins} (dflt : ℝ) (h1 : sepBins c.sep = .ok (B, bs))
    (h2 : (c.u.any || c.v.any) = false) (h3 : phiBins c.phi c.phiUnits bs = .ok U) :
    ∃ p, makeSas c dflt = .ok p ∧ p.nbins = B.nbins ∧ U = ⟨p.minu, p.maxu, p.nubins, p.ubinsize⟩ := by
  unfold makeSas
  rw [h1]
  simp only [bind, Except.bind, h2, h3]
  exact ⟨_, rfl, rfl, rfl⟩

/-- `min_u = 0.2`, ten bins of `u` and everything else by default. -/
def exRuvConfig : BinConfig3 := { sep := exSep, u := { lo := .val 0.2, n := .val 10 } }

/-- A configuration that is accepted: 10 bins of `u` between 0.2 and 1, and 10 of `v`. -/
example : ∃ p, makeRuv exRuvConfig 0.1 = .ok p ∧ p.minu = 0.2 ∧ p.ubinsize = 0.08 ∧ p.nvbins = 10 ∧ p.vbinsize = 0.1 ∧
    exRuvConfig.SizesPos := by
  have hU : uBins exRuvConfig.u 0.1 = .ok ⟨0.2, 1, 10, (1 - 0.2) / (10 : ℤ)⟩ := by
    norm_num [uBins, exRuvConfig, Arg.float, Arg.present, linFinish, pyDiv, bind, Except.bind]
  have hV : vBins exRuvConfig.v 0.1 = .ok ⟨0, 1, 10, (1 - 0) / (10 : ℤ)⟩ := by
    have e := ceil_unit 0 1 0.1 10 (by norm_num) (by norm_num) (by norm_num)
    have : vBins exRuvConfig.v 0.1 = linFinish 0 1 ⌈((1 : ℝ) - 0 - 1e-10) / 0.1⌉ := by
      norm_num [vBins, exRuvConfig, Arg.float, Arg.present, pyDiv, bind, Except.bind]
    rw [this, e, linFinish_ok]
    norm_num
  obtain ⟨p, hp, _, hu, hv⟩ := makeRuv_of (c := exRuvConfig) 0.1 exSep_ok rfl hU hV
  rw [LinBins.mk.injEq] at hu hv
  refine ⟨p, hp, hu.1.symm, by rw [← hu.2.2.2]; norm_num, hv.2.2.1.symm, by rw [← hv.2.2.2]; norm_num, ?_, ?_, ?_, ?_⟩ <;>
    norm_num [exRuvConfig, exSep, Arg.get] <;> (intro s h; cases h)

/-- `max_v = 0.5`, `vbin_size = 0.1`, `nvbins = 10`. -/
def negVConfig : BinConfig3 := { sep := exSep, v := { hi := .val 0.5, size := .val 0.1, n := .val 10 } }

/-- **C62 fails for `v`:** these parameters are accepted although ten bins do not fit; `min_v` is -0.5, so that half of the bins of `|v|`
are below zero, where no triangle is. -/
theorem ruv_negative_min_v_wrong : ∃ p, makeRuv negVConfig 0.1 = .ok p ∧ negVConfig.SizesPos ∧ p.minv = -0.5 ∧ p.nvbins = 10 ∧
    ¬ RuvParams p ∧ ∀ (x : ℝ) (k : ℤ), 0 ≤ x → InLinBin p.minv p.vbinsize p.nvbins k x → 5 ≤ k := by
  have hU : uBins negVConfig.u 0.1 = .ok ⟨0, 1, 10, (1 - 0) / (10 : ℤ)⟩ := by
    have e := ceil_unit 0 1 0.1 10 (by norm_num) (by norm_num) (by norm_num)
    have : uBins negVConfig.u 0.1 = linFinish 0 1 ⌈((1 : ℝ) - 0 - 1e-10) / 0.1⌉ := by
      norm_num [uBins, negVConfig, Arg.float, Arg.present, pyDiv, bind, Except.bind]
    rw [this, e, linFinish_ok]
    norm_num
  have hV : vBins negVConfig.v 0.1 = .ok ⟨-0.5, 0.5, 10, (0.5 - (-0.5)) / (10 : ℤ)⟩ := by
    norm_num [vBins, negVConfig, Arg.float, Arg.present, linFinish, pyDiv, bind, Except.bind]
  obtain ⟨p, hp, _, hu, hv⟩ := makeRuv_of (c := negVConfig) 0.1 exSep_ok rfl hU hV
  rw [LinBins.mk.injEq] at hu hv
  obtain ⟨v1, v2, v3, v4⟩ := hv
  have hs : p.vbinsize = 0.1 := by rw [← v4]; norm_num
  refine ⟨p, hp, ?_, v1.symm, v3.symm, fun h => ?_, fun x k hx h => ?_⟩
  · refine ⟨?_, ?_, ?_, ?_⟩ <;> norm_num [negVConfig, exSep, Arg.get] <;> (intro s h; cases h)
  · have := h.minv; rw [← v1] at this; norm_num at this
  · obtain ⟨_, _, _, h⟩ := h
    rw [linEdge, ← v1, hs] at h
    have : (4 : ℝ) < k := by push_cast at h; norm_num at h ⊢; linarith
    exact_mod_cast this

/-- `nubins = 5`, `ubin_size = 0.1`, and the same for `v`. -/
def anchorConfig : BinConfig3 :=
  { sep := exSep, u := { size := .val 0.1, n := .val 5 }, v := { size := .val 0.1, n := .val 5 } }

/-- The same two parameters mean different things for `u` and `v`: the bins of `u` end at 1, those of `v` begin at 0. -/
theorem ruv_anchor_differs : ∃ p, makeRuv anchorConfig 0.1 = .ok p ∧ p.minu = 0.5 ∧ p.maxu = 1 ∧ p.minv = 0 ∧ p.maxv = 0.5 := by
  have hU : uBins anchorConfig.u 0.1 = .ok ⟨0.5, 1, 5, (1 - 0.5) / (5 : ℤ)⟩ := by
    norm_num [uBins, anchorConfig, Arg.float, Arg.present, linFinish, pyDiv, bind, Except.bind]
  have hV : vBins anchorConfig.v 0.1 = .ok ⟨0, 0.5, 5, (0.5 - 0) / (5 : ℤ)⟩ := by
    norm_num [vBins, anchorConfig, Arg.float, Arg.present, linFinish, pyDiv, bind, Except.bind]
  obtain ⟨p, hp, _, hu, hv⟩ := makeRuv_of (c := anchorConfig) 0.1 exSep_ok rfl hU hV
  rw [LinBins.mk.injEq] at hu hv
  exact ⟨p, hp, hu.1.symm, hu.2.1.symm, hv.1.symm, hv.2.1.symm⟩

/-- `nubins = 5`, `ubin_size = -0.1`. -/
def negSizeConfig : BinConfig3 := { sep := exSep, u := { size := .val (-0.1), n := .val 5 } }

/-- **C62 fails for sizes that are not positive:** these are accepted, and `min_u` is larger than `max_u`. -/
theorem ruv_negative_size_wrong : ∃ p, makeRuv negSizeConfig 0.1 = .ok p ∧ p.minu = 1.5 ∧ p.maxu = 1 ∧ p.ubinsize = -0.1 ∧ ¬ RuvParams p := by
  have hU : uBins negSizeConfig.u 0.1 = .ok ⟨1.5, 1, 5, (1 - 1.5) / (5 : ℤ)⟩ := by
    norm_num [uBins, negSizeConfig, Arg.float, Arg.present, linFinish, pyDiv, bind, Except.bind]
  have hV : vBins negSizeConfig.v 0.1 = .ok ⟨0, 1, 10, (1 - 0) / (10 : ℤ)⟩ := by
    have e := ceil_unit 0 1 0.1 10 (by norm_num) (by norm_num) (by norm_num)
    have : vBins negSizeConfig.v 0.1 = linFinish 0 1 ⌈((1 : ℝ) - 0 - 1e-10) / 0.1⌉ := by
      norm_num [vBins, negSizeConfig, Arg.float, Arg.present, pyDiv, bind, Except.bind]
    rw [this, e, linFinish_ok]
    norm_num
  obtain ⟨p, hp, _, hu, hv⟩ := makeRuv_of (c := negSizeConfig) 0.1 exSep_ok rfl hU hV
  rw [LinBins.mk.injEq] at hu
  have hs : p.ubinsize = -0.1 := by rw [← hu.2.2.2]; norm_num
  refine ⟨p, hp, hu.1.symm, hu.2.1.symm, hs, fun h => ?_⟩
  have := h.ubinsize
  rw [hs] at this
  norm_num at this

/-- `phi_units = 'degrees'`, `max_phi = 90`, `nphi_bins = 9`. -/
def exSasConfig : BinConfig3 := { sep := exSep, phi := { hi := .val 90, n := .val 9 }, phiUnits := Real.pi / 180 }

/-- A configuration that is accepted: nine bins of ten degrees. -/
example : ∃ p, makeSas exSasConfig 0.1 = .ok p ∧ p.minu = 0 ∧ p.maxu = Real.pi / 2 ∧ p.nubins = 9 ∧ p.ubinsize = 10 * (Real.pi / 180) ∧
    exSasConfig.SizesPos ∧ exSasConfig.phiUnits ≠ 0 := by
  have hpi := Real.pi_pos
  have hU : phiBins exSasConfig.phi exSasConfig.phiUnits 0.1 = .ok ⟨0, Real.pi / 2, 9, (Real.pi / 2 - 0) / (9 : ℤ)⟩ := by
    have e : (90 : ℝ) * (Real.pi / 180) = Real.pi / 2 := by ring
    have h1 : ¬ (Real.pi < Real.pi / 2) := by linarith
    have h2 : ¬ (Real.pi / 2 ≤ 0) := by linarith
    simp [phiBins, exSasConfig, Arg.float, Arg.present, linFinish, pyDiv, bind, Except.bind, e, h1, h2]
  obtain ⟨p, hp, _, hu⟩ := makeSas_of (c := exSasConfig) 0.1 exSep_ok rfl hU
  rw [LinBins.mk.injEq] at hu
  refine ⟨p, hp, hu.1.symm, hu.2.1.symm, hu.2.2.1.symm, by rw [← hu.2.2.2]; push_cast; ring, ⟨?_, ?_, ?_, ?_⟩, ?_⟩ <;>
    norm_num [exSasConfig, exSep, Arg.get] <;> first | positivity | (intro s h; cases h)

/-- `phi_units = 'degrees'`, `phi_bin_size = 10`. -/
def degConfig : BinConfig3 := { sep := exSep, phi := { size := .val 10 }, phiUnits := Real.pi / 180 }

/-- **C62 fails for `phi_bin_size`:** it is not in `phi_units`.  One asks for bins of ten degrees and gets one bin of 180 degrees. -/
theorem sas_phi_bin_size_wrong : ∃ p, makeSas degConfig 0.1 = .ok p ∧ p.nubins = 1 ∧ p.ubinsize = 180 * degConfig.phiUnits := by
  have hpi := Real.pi_pos
  have hpi4 := Real.pi_le_four
  have hpi2 := Real.two_le_pi
  have hU : phiBins degConfig.phi degConfig.phiUnits 0.1 = .ok ⟨0, Real.pi, 1, (Real.pi - 0) / (1 : ℤ)⟩ := by
    have e := ceil_unit 0 Real.pi 10 1 (by norm_num) (by norm_num; linarith) (by norm_num; linarith)
    have e' : Real.pi / (Real.pi / 180) * (Real.pi / 180) = Real.pi := by field_simp
    have : phiBins degConfig.phi degConfig.phiUnits 0.1 = linFinish 0 Real.pi ⌈(Real.pi - 0 - 1e-10) / 10⌉ := by
      simp only [phiBins, degConfig, Arg.float, bind, Except.bind, e', zero_mul]
      rw [if_neg (by simp), if_neg (by linarith), pyDiv, if_neg (by norm_num)]
    rw [this, e, linFinish_ok]
    norm_num
  obtain ⟨p, hp, _, hu⟩ := makeSas_of (c := degConfig) 0.1 exSep_ok rfl hU
  rw [LinBins.mk.injEq] at hu
  refine ⟨p, hp, hu.2.2.1.symm, ?_⟩
  rw [← hu.2.2.2]
  show _ = 180 * (Real.pi / 180)
  push_cast
  ring

/-- `max_n = 3`. -/
example : ∃ B, makeMultipole { sep := exSep, maxn := .val 3 } = .ok (B, 3) ∧ B.nbins = 10 := by
  refine ⟨⟨1, Real.exp (10 * 0.1) * 1, 10, 0.1⟩, ?_, rfl⟩
  unfold makeMultipole
  rw [exSep_ok]
  rfl

end
end TreeCorr
