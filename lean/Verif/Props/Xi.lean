import Verif.Proofs.Xi
import Verif.Props.Cov

/-!
C22, C41, C46: the design matrix under MPI, the clustering estimators, and the rows of the design matrix of a clustering
estimator.
-/

namespace TreeCorr
open Classical
noncomputable section
variable {C W : Type}

/-! ### C22: the design matrix -/

/-- **C22** for correlations without randoms (KK and the like): any list of objects, any rows, also empty ones, any
function of the statistics, any number of processes. -/
theorem design_mpi_kk [AddCommMonoid W] (objs : List ((Dict × Finset ℤ) × Acc)) (func : List (ℤ → ℝ) → W) {size : ℕ}
    (hs : 0 < size) (plist : List (List (List (ℕ × ℕ)))) (hrow : ∀ row ∈ plist, row.length = objs.length) :
    designMatrixMpi (objs.map fun x => kkObj x.1.1 x.1.2) func size plist (objs.map Prod.snd)
      = designMatrix (objs.map fun x => kkObj x.1.1 x.1.2) func plist (objs.map Prod.snd) := by
  have := design_mpi_tracked (objs.map fun x => (⟨kkObj x.1.1 x.1.2, fun _ => True, x.2⟩ : Tracked Acc (ℤ → ℝ)))
    func hs (by
      intro x hx
      obtain ⟨y, _, rfl⟩ := List.mem_map.1 hx
      trivial) plist (by
      intro row hr
      rw [List.forall₂_iff_get]
      refine ⟨by simp [hrow row hr], fun i h1 h2 => ?_⟩
      simp only [List.get_eq_getElem, List.getElem_map]
      exact kk_settled _ _ _)
  simpa only [List.map_map, Function.comp_def] using this

/-- **C22** for `NNCorrelation` and `NKCorrelation` with randoms, if no row is empty.  Missing: empty rows, for which it
is false (`design_mpi_nn_wrong`, `design_mpi_nk_wrong`). -/
theorem design_mpi_nn_partial [AddCommMonoid W] (objs : List (NNEnv × NNState)) (func : List (ℤ → Option ℝ) → W) {size : ℕ}
    (hs : 0 < size) (plist : List (List (List (ℕ × ℕ)))) (hrow : ∀ row ∈ plist, row.length = objs.length)
    (hne : ∀ row ∈ plist, [] ∉ row) :
    designMatrixMpi (objs.map fun x => nnObj x.1) func size plist (objs.map Prod.snd)
      = designMatrix (objs.map fun x => nnObj x.1) func plist (objs.map Prod.snd) := by
  have := design_mpi_tracked (objs.map fun x => (⟨nnObj x.1, fun s => x.1.rr.results = [] → s.rr = x.2.rr, x.2⟩ :
    Tracked NNState (ℤ → Option ℝ))) func hs (by
      intro x hx
      obtain ⟨y, _, rfl⟩ := List.mem_map.1 hx
      exact fun _ => rfl) plist (by
      intro row hr
      rw [List.forall₂_iff_get]
      refine ⟨by simp [hrow row hr], fun i h1 h2 => ?_⟩
      simp only [List.get_eq_getElem, List.getElem_map]
      refine nn_settled _ _ fun h => hne row hr ?_
      rw [← h]; exact List.getElem_mem _)
  simpa only [List.map_map, Function.comp_def] using this

theorem design_mpi_nk_partial [AddCommMonoid W] (objs : List ((Dict × Patched × Finset ℤ) × NKState))
    (hrk : ∀ x ∈ objs, x.2.hasRk = true) (func : List (ℤ → ℝ) → W) {size : ℕ}
    (hs : 0 < size) (plist : List (List (List (ℕ × ℕ)))) (hrow : ∀ row ∈ plist, row.length = objs.length)
    (hne : ∀ row ∈ plist, [] ∉ row) :
    designMatrixMpi (objs.map fun x => nkObj x.1.1 x.1.2.1 x.1.2.2) func size plist (objs.map Prod.snd)
      = designMatrix (objs.map fun x => nkObj x.1.1 x.1.2.1 x.1.2.2) func plist (objs.map Prod.snd) := by
  have := design_mpi_tracked (objs.map fun x => (⟨nkObj x.1.1 x.1.2.1 x.1.2.2, fun s => s.hasRk = true, x.2⟩ :
    Tracked NKState (ℤ → ℝ))) func hs (by
      intro x hx
      obtain ⟨y, hy, rfl⟩ := List.mem_map.1 hx
      exact hrk y hy) plist (by
      intro row hr
      rw [List.forall₂_iff_get]
      refine ⟨by simp [hrow row hr], fun i h1 h2 => ?_⟩
      simp only [List.get_eq_getElem, List.getElem_map]
      refine nk_settled _ _ _ fun h => hne row hr ?_
      rw [← h]; exact List.getElem_mem _)
  simpa only [List.map_map, Function.comp_def] using this

/-! ### C41: clustering estimators -/

/-- **C41.** Where the totals and the random counts are not 0, `calculateXi` gives `(DD−RR)/RR`, or the Landy–Szalay
combination with whichever of `DR`, `RD` are given, of the counts divided by their totals. -/
theorem xi_formula (dd rr : Res) (dr rd : Option Res) (k : ℤ) (hd : dd.tot ≠ 0) (hr : rr.tot ≠ 0)
    (h1 : ∀ r, dr = some r → r.tot ≠ 0) (h2 : ∀ r, rd = some r → r.tot ≠ 0) (hk : rr.acc.weight k ≠ 0) :
    ∃ xi, calculateXi dd rr dr rd = some xi ∧
      let D := dd.acc.weight k / dd.tot
      let R := rr.acc.weight k / rr.tot
      xi k = some (match dr, rd with
        | none, none => (D - R) / R
        | some x, none => (D - 2 * (x.acc.weight k / x.tot) + R) / R
        | none, some y => (D - 2 * (y.acc.weight k / y.tot) + R) / R
        | some x, some y => (D - x.acc.weight k / x.tot - y.acc.weight k / y.tot + R) / R) := by
  refine ⟨_, if_neg ?_, ?_⟩
  · rintro (h | ⟨r, h, h'⟩ | ⟨r, h, h'⟩)
    exacts [hr h, h1 r h h', h2 r h h']
  · have hden : rr.acc.weight k * (dd.tot / rr.tot) ≠ 0 := mul_ne_zero hk (div_ne_zero hd hr)
    simp only [if_neg hk, npDiv, if_neg hden]
    cases dr with
    | none =>
      cases rd with
      | none => simp only [Option.map_none, xiNum]; congr 1; field_simp
      | some y =>
        have := h2 y rfl
        simp only [Option.map_none, Option.map_some, xiNum]; congr 1; field_simp
    | some x =>
      have hx := h1 x rfl
      cases rd with
      | none => simp only [Option.map_none, Option.map_some, xiNum]; congr 1; field_simp
      | some y =>
        have := h2 y rfl
        simp only [Option.map_some, xiNum]; congr 1; field_simp

/-- Multiplying all weights of the randoms multiplies the counts and the total alike. -/
def Res.scale (c : ℝ) (r : Res) : Res :=
  ⟨{ r.acc with weight := fun k => c * r.acc.weight k }, c * r.tot⟩

/-- **C41.** Rescaling the weights of the randoms (each of the three objects by its own factor) changes nothing. -/
theorem xi_scale (dd rr : Res) (dr rd : Option Res) (a b c : ℝ) (ha : a ≠ 0) (hb : b ≠ 0) (hc : c ≠ 0) :
    calculateXi dd (rr.scale a) (dr.map (Res.scale b)) (rd.map (Res.scale c)) = calculateXi dd rr dr rd := by
  have z : ∀ (f : ℝ) (r : Res), f ≠ 0 → ((r.scale f).tot = 0 ↔ r.tot = 0) := by
    intro f r hf; simp [Res.scale, hf]
  have e : ∀ (f : ℝ) (r : Res) k, f ≠ 0 → (r.scale f).acc.weight k * (dd.tot / (r.scale f).tot)
      = r.acc.weight k * (dd.tot / r.tot) := by
    intro f r k hf
    simp only [Res.scale]
    by_cases h : r.tot = 0
    · simp [h]
    · field_simp
  have cond : ((rr.scale a).tot = 0 ∨ (∃ r, dr.map (Res.scale b) = some r ∧ r.tot = 0) ∨
      (∃ r, rd.map (Res.scale c) = some r ∧ r.tot = 0)) ↔
      (rr.tot = 0 ∨ (∃ r, dr = some r ∧ r.tot = 0) ∨ (∃ r, rd = some r ∧ r.tot = 0)) := by
    rw [z a rr ha]
    cases dr <;> cases rd <;> simp [z b _ hb, z c _ hc]
  unfold calculateXi
  by_cases h : rr.tot = 0 ∨ (∃ r, dr = some r ∧ r.tot = 0) ∨ (∃ r, rd = some r ∧ r.tot = 0)
  · rw [if_pos h, if_pos (cond.2 h)]
  · rw [if_neg h, if_neg fun h' => h (cond.1 h')]
    congr 1
    funext k
    have hw : (rr.scale a).acc.weight k = 0 ↔ rr.acc.weight k = 0 := by simp [Res.scale, ha]
    simp only [e a rr k ha, hw, Option.map_map, Function.comp_def, e b _ k hb, e c _ k hc]

/-- **C41.** Where data and randoms have the same counts relative to their totals, `xi` is 0. -/
theorem xi_zero (dd rr : Res) (dr rd : Option Res) (k : ℤ) (hd : dd.tot ≠ 0) (hr : rr.tot ≠ 0)
    (h1 : ∀ r, dr = some r → r.tot ≠ 0) (h2 : ∀ r, rd = some r → r.tot ≠ 0) (hk : rr.acc.weight k ≠ 0)
    (q0 : dd.acc.weight k / dd.tot = rr.acc.weight k / rr.tot)
    (q1 : ∀ r, dr = some r → r.acc.weight k / r.tot = rr.acc.weight k / rr.tot)
    (q2 : ∀ r, rd = some r → r.acc.weight k / r.tot = rr.acc.weight k / rr.tot) :
    ∃ xi, calculateXi dd rr dr rd = some xi ∧ xi k = some 0 := by
  obtain ⟨xi, hx, h⟩ := xi_formula dd rr dr rd k hd hr h1 h2 hk
  refine ⟨xi, hx, h.trans ?_⟩
  cases dr with
  | none =>
    cases rd with
    | none => simp only [q0]; simp
    | some y => simp only [q0, q2 y rfl]; congr 1; ring_nf
  | some x =>
    cases rd with
    | none => simp only [q0, q1 x rfl]; congr 1; ring_nf
    | some y => simp only [q0, q1 x rfl, q2 y rfl]; congr 1; ring_nf

/-- **C41, bins without random pairs.** There `xi` is not 0 but the numerator itself, in units of pair weight. -/
theorem xi_no_rr (dd rr : Res) (k : ℤ) (hr : rr.tot ≠ 0) (hk : rr.acc.weight k = 0) :
    ∃ xi, calculateXi dd rr none none = some xi ∧ xi k = some (dd.acc.weight k) := by
  refine ⟨_, if_neg (by simp [hr]), ?_⟩
  simp [hk, npDiv, xiNum]

/-- Arrays with one pair of the given weight in bin 0 and nothing else. -/
def oneBin (w : ℝ) : Acc := ⟨addAt 0 0 1, addAt 0 0 w, 0, 0, 0, 0⟩

/-- **C41, negation.** With three pairs in a bin where the randoms have none `xi` is 3, and for data of zero total weight
`xi` is not finite. -/
theorem xi_bins_wrong :
    (∃ xi, calculateXi ⟨oneBin 3, 10⟩ ⟨Acc.zero, 10⟩ none none = some xi ∧ xi 0 = some 3) ∧
    ∃ xi, calculateXi ⟨Acc.zero, 0⟩ ⟨oneBin 1, 10⟩ none none = some xi ∧ xi 0 = none := by
  constructor
  · obtain ⟨xi, h1, h2⟩ := xi_no_rr ⟨oneBin 3, 10⟩ ⟨Acc.zero, 10⟩ 0 (by norm_num) rfl
    exact ⟨xi, h1, h2.trans (by simp [oneBin, addAt])⟩
  · refine ⟨_, if_neg (by simp), ?_⟩
    simp [oneBin, addAt, npDiv]

example : ∃ xi, calculateXi ⟨oneBin 3, 10⟩ ⟨oneBin 4, 20⟩ (some ⟨oneBin 5, 20⟩) none = some xi ∧ xi 0 = some 0 := by
  obtain ⟨xi, h1, h2⟩ := xi_formula ⟨oneBin 3, 10⟩ ⟨oneBin 4, 20⟩ (some ⟨oneBin 5, 20⟩) none 0 (by norm_num) (by norm_num)
    (by simp) (by simp) (by simp [oneBin, addAt])
  refine ⟨xi, h1, h2.trans ?_⟩
  simp [oneBin, addAt]
  norm_num

/-! ### C46: rows of a clustering estimator -/

/-- With finite nonzero totals a row's `xi` is `calculateXi` of the sums. -/
theorem rowXi_eq (dd rr : Res) (dr rd : Option Res) (hd : dd.tot ≠ 0) (hr : rr.tot ≠ 0)
    (h1 : ∀ r, dr = some r → r.tot ≠ 0) (h2 : ∀ r, rd = some r → r.tot ≠ 0) :
    calculateXi dd rr dr rd = some (rowXi dd (some dd.tot) rr dr rd) := by
  refine (if_neg ?_).trans ?_
  · rintro (h | ⟨r, h, h'⟩ | ⟨r, h, h'⟩)
    exacts [hr h, h1 r h h', h2 r h h']
  · congr 1
    funext k
    have hden : rr.acc.weight k * (dd.tot / rr.tot) = 0 ↔ rr.acc.weight k = 0 := by
      simp [hd, hr]
    unfold rowXi
    have e : npDiv dd.tot rr.tot = some (dd.tot / rr.tot) := if_neg hr
    cases dr with
    | none =>
      cases rd with
      | none => simp [e, hd, hr]
      | some y =>
        have e2 : npDiv dd.tot y.tot = some (dd.tot / y.tot) := if_neg (h2 y rfl)
        simp [e, e2, hd, hr]
    | some x =>
      have e1 : npDiv dd.tot x.tot = some (dd.tot / x.tot) := if_neg (h1 x rfl)
      cases rd with
      | none => simp [e, e1, hd, hr]
      | some y =>
        have e2 : npDiv dd.tot y.tot = some (dd.tot / y.tot) := if_neg (h2 y rfl)
        simp [e, e1, e2, hd, hr]

/-- What the results of an object must satisfy: each key once, and (as `Kit.Good`) nothing in bins without pairs. -/
def Dict.Ok (d : Dict) : Prop := (d.map Prod.fst).Nodup ∧ ∀ x ∈ d, x.2.acc.Good

theorem sum_okPairs {d : Dict} (p : ℕ × ℕ → Prop) {q : Patched} (hd : d.Ok) (hq : q.results.Ok)
    (hsub : ∀ k ∈ q.results.map Prod.fst, k ∈ d.map Prod.fst) :
    (fetch q.results (q.okPairs ((d.map Prod.fst).filter fun k => decide (p k)))).map (sumOthers true)
      = some (q.results.sumOf p) := by
  rw [sum_selected _ hq.1 hq.2]
  · congr 1
    apply Dict.sumOf_congr
    intro k hk
    rw [Patched.okPairs, List.mem_filter, List.mem_filter]
    have : okPair q.results.keyList k.1 k.2 = true := decide_eq_true hk
    simp only [this, and_true]
    simp only [decide_eq_true_eq]
    exact ⟨fun h => h.2, fun h => ⟨hsub k hk, h⟩⟩
  · exact (hd.1.filter _).filter _
  · intro k hk
    exact of_decide_eq_true (List.mem_filter.1 hk).2

/-- **C46, general.** A row built from all stored pairs with a property has as `xi` what `calculateXi` gives for the
sums over the pairs with that property, of the data and of each random object, provided the totals are not 0, the
randoms are in the same patches and every pair of theirs is in `results` (which `calculateXi` sees to,
`afterXi_covers`). -/
theorem row_is_calculateXi (E : NNEnv) (s : NNState) (p : ℕ × ℕ → Prop) (hE : E.results.Ok)
    (hrr : E.rr.results.Ok ∧ E.rr.results ≠ [] ∧ ∀ k ∈ E.rr.results.map Prod.fst, k ∈ E.results.map Prod.fst)
    (hdr : ∀ q, E.dr = some q → q.results.Ok ∧ q.n2 ≠ 1 ∧ ∀ k ∈ q.results.map Prod.fst, k ∈ E.results.map Prod.fst)
    (hrd : ∀ q, E.rd = some q → q.results.Ok ∧ q.n1 ≠ 1 ∧ ∀ k ∈ q.results.map Prod.fst, k ∈ E.results.map Prod.fst)
    (t0 : (E.results.sumOf p).tot ≠ 0) (t1 : (E.rr.results.sumOf p).tot ≠ 0)
    (t2 : ∀ q, E.dr = some q → (q.results.sumOf p).tot ≠ 0) (t3 : ∀ q, E.rd = some q → (q.results.sumOf p).tot ≠ 0) :
    ∃ t, nnFromPairs E s ((E.results.map Prod.fst).filter fun k => decide (p k)) = some t ∧
      calculateXi (E.results.sumOf p) (E.rr.results.sumOf p) (E.dr.map fun q => q.results.sumOf p)
        (E.rd.map fun q => q.results.sumOf p) = some t.xi := by
  set pairs := (E.results.map Prod.fst).filter fun k => decide (p k) with hpairs
  have e0 : (fetch E.results pairs).map (sumOthers true) = some (E.results.sumOf p) := by
    rw [sum_selected _ hE.1 hE.2 _ (hE.1.filter _) fun k hk => (List.mem_filter.1 hk).1]
    congr 1
    apply Dict.sumOf_congr
    intro k hk
    rw [List.mem_filter]
    simp only [decide_eq_true_eq]
    exact ⟨fun h => h.2, fun h => ⟨hk, h⟩⟩
  have e1 : E.sumRr s.rr pairs = some (E.rr.results.sumOf p) := by
    rw [NNEnv.sumRr, if_neg hrr.2.1]
    exact sum_okPairs p hE hrr.1 hrr.2.2
  have e2 : ∀ q, E.dr = some q → sumRand drPairs E.dr s.dr pairs = some (q.results.sumOf p) := by
    intro q hq
    obtain ⟨a, b, c⟩ := hdr q hq
    rw [hq, sumRand, drPairs, if_neg b]
    exact sum_okPairs p hE a c
  have e3 : ∀ q, E.rd = some q → sumRand rdPairs E.rd s.rd pairs = some (q.results.sumOf p) := by
    intro q hq
    obtain ⟨a, b, c⟩ := hrd q hq
    rw [hq, sumRand, rdPairs, if_neg fun h => b h.1]
    exact sum_okPairs p hE a c
  have ed : E.ddTot (E.results.sumOf p) pairs = some (E.results.sumOf p).tot := by
    rw [NNEnv.ddTot, if_neg hrr.2.1]
  unfold nnFromPairs
  rw [e0, e1, Option.bind_some, Option.bind_some, ed]
  cases h4 : E.dr with
  | none =>
    cases h5 : E.rd with
    | none =>
      refine ⟨_, rfl, ?_⟩
      rw [rowXi_eq _ _ _ _ t0 t1 (by simp) (by simp)]
      rfl
    | some q =>
      have e3' := e3 q h5
      rw [h5] at e3'
      rw [e3']
      refine ⟨_, rfl, ?_⟩
      rw [rowXi_eq _ _ _ _ t0 t1 (by simp) (by simpa using t3 q h5)]
      rfl
  | some q =>
    have e2' := e2 q h4
    rw [h4] at e2'
    rw [e2']
    cases h5 : E.rd with
    | none =>
      refine ⟨_, rfl, ?_⟩
      rw [rowXi_eq _ _ _ _ t0 t1 (by simpa using t2 q h4) (by simp)]
      rfl
    | some q' =>
      have e3' := e3 q' h5
      rw [h5] at e3'
      rw [e3']
      refine ⟨_, rfl, ?_⟩
      rw [rowXi_eq _ _ _ _ t0 t1 (by simpa using t2 q h4) (by simpa using t3 q' h5)]
      rfl

/-- `calculateXi` adds the missing pairs to `results` without changing any sum. -/
theorem afterXi_covers {d : Dict} (hd : d.Ok) (rr : Patched) (dr rd : Option Patched) :
    (afterXi d rr dr rd).Ok ∧ (∀ p, (afterXi d rr dr rd).sumOf p = d.sumOf p) ∧
    (rr.n1 ≠ 1 → rr.n2 ≠ 1 → ∀ k ∈ rr.results.map Prod.fst, k ∈ (afterXi d rr dr rd).map Prod.fst) ∧
    (∀ q, dr = some q → q.n2 ≠ 1 → ∀ k ∈ q.results.map Prod.fst, k ∈ (afterXi d rr dr rd).map Prod.fst) ∧
    (∀ q, rd = some q → q.n1 ≠ 1 → ∀ k ∈ q.results.map Prod.fst, k ∈ (afterXi d rr dr rd).map Prod.fst) := by
  have step : ∀ (d : Dict) (c : Prop) [Decidable c] (keys : List (ℕ × ℕ)), d.Ok → (if c then d.addMissing keys else d).Ok ∧
      (∀ p, (if c then d.addMissing keys else d).sumOf p = d.sumOf p) ∧
      (∀ k ∈ d.map Prod.fst, k ∈ (if c then d.addMissing keys else d).map Prod.fst) ∧
      (c → ∀ k ∈ keys, k ∈ (if c then d.addMissing keys else d).map Prod.fst) := by
    intro d c _ keys h
    obtain ⟨a1, a2, a3, a4⟩ := addMissing_spec keys d h.1 h.2
    by_cases hc : c
    · rw [if_pos hc]
      exact ⟨⟨a1, a2⟩, a4, fun k hk => (a3 k).2 (Or.inl hk), fun _ k hk => (a3 k).2 (Or.inr hk)⟩
    · rw [if_neg hc]
      exact ⟨h, fun _ => rfl, fun k hk => hk, fun h' => absurd h' hc⟩
  have step2 : ∀ (d : Dict) (side : Patched → ℕ) (q : Option Patched), d.Ok → (d.addFrom side q).Ok ∧
      (∀ p, (d.addFrom side q).sumOf p = d.sumOf p) ∧
      (∀ k ∈ d.map Prod.fst, k ∈ (d.addFrom side q).map Prod.fst) ∧
      (∀ q', q = some q' → side q' ≠ 1 → ∀ k ∈ q'.results.map Prod.fst, k ∈ (d.addFrom side q).map Prod.fst) := by
    intro d side q h
    cases q with
    | none => exact ⟨h, fun _ => rfl, fun k hk => hk, by simp⟩
    | some q =>
      obtain ⟨x1, x2, x3, x4⟩ := step d (side q ≠ 1) q.results.keyList h
      refine ⟨x1, x2, x3, ?_⟩
      rintro q' hq hn
      obtain rfl := Option.some.inj hq
      exact x4 hn
  unfold afterXi
  obtain ⟨a1, b1, c1, f1⟩ := step d (rr.n1 ≠ 1 ∧ rr.n2 ≠ 1) rr.results.keyList hd
  obtain ⟨a2, b2, c2, f2⟩ := step2 _ Patched.n2 dr a1
  obtain ⟨a3, b3, c3, f3⟩ := step2 _ Patched.n1 rd a2
  exact ⟨a3, fun p => by rw [b3, b2, b1], fun h1 h2 k hk => c3 _ (c2 _ (f1 ⟨h1, h2⟩ k hk)),
    fun q hq hn k hk => c3 _ (f2 q hq hn k hk), f3⟩

/-- Sums over the stored results of a run are sums over its jobs. -/
theorem sumOf_jobs {K : Kit C} (js : List (Job C)) (p : ℕ × ℕ → Prop) :
    Dict.sumOf (js.flatMap (Job.stored K)) p = ((js.filter fun J => decide (p J.key)).map (Job.val K)).sum := by
  unfold Dict.sumOf
  rw [stored_filter, stored_total]

theorem jobs_ok {K : Kit C} (hK : K.Good) (js : List (Job C)) (h : (js.map Job.key).Nodup) :
    Dict.Ok (js.flatMap (Job.stored K)) :=
  ⟨stored_keys_nodup K js h, fun x hx => (stored_good hK js x.2 (List.mem_map_of_mem hx)).1⟩

/-- `results` of a run over patches. -/
theorem auto_results {K : Kit C} (hK : K.Good) (cats : List (ℕ × C)) (hid : (cats.map Prod.fst).Nodup) (S : Corr) :
    (K.processAuto true cats S).results.Ok ∧
    (∀ i, (K.processAuto true cats S).results.sumOf (fun k => k.1 ≠ i ∧ k.2 ≠ i)
      = (K.processAuto true (cats.filter fun c => decide (c.1 ≠ i)) S).self) ∧
    (cats ≠ [] → (K.processAuto true cats S).results ≠ []) := by
  refine ⟨?_, fun i => ?_, fun hne => ?_⟩
  · rw [processAuto_jobs hK hid]; exact jobs_ok hK _ (autoJobs_nodup hid)
  · rw [processAuto_jobs hK hid, processAuto_jobs hK (hid.sublist (List.filter_sublist.map _)), sumOf_jobs,
      autoJobs_filter' cats i _ (fun c => decide (c.1 ≠ i)) (by simp) (by simp)]
  · rw [processAuto_jobs hK hid]
    cases cats with
    | nil => exact absurd rfl hne
    | cons c t => simp [autoJobs, autoRowJobs, Job.stored]

theorem cross_results {K : Kit C} (hK : K.Good) (cats1 cats2 : List (ℕ × C)) (hids : cats1.map Prod.fst = cats2.map Prod.fst)
    (hid : (cats1.map Prod.fst).Nodup) (hn : cats1.length ≠ 1) (S : Corr) :
    (K.processCross true cats1 cats2 S).results.Ok ∧
    ∀ i, (K.processCross true cats1 cats2 S).results.sumOf (fun k => k.1 ≠ i ∧ k.2 ≠ i)
      = (K.processCross true (cats1.filter fun c => decide (c.1 ≠ i)) (cats2.filter fun c => decide (c.1 ≠ i)) S).self := by
  have hid2 : (cats2.map Prod.fst).Nodup := hids ▸ hid
  refine ⟨?_, fun i => ?_⟩
  · rw [processCross_jobs hK hid hid2]; exact jobs_ok hK _ (crossJobs_nodup hid hid2)
  · rw [processCross_jobs hK hid hid2, processCross_jobs hK (hid.sublist (List.filter_sublist.map _))
      (hid2.sublist (List.filter_sublist.map _)), sumOf_jobs]
    rcases crossJobs_both hids i with h | h
    · refine Eq.trans ?_ (congrArg (fun l => (l.map (Job.val K)).sum) h).symm
      rw [crossJobs_filter' cats1.length cats2.length cats1 cats2 (fun a => a ≠ i) (fun a => a ≠ i) _
        (fun c => decide (c.1 ≠ i)) (fun c => decide (c.1 ≠ i)) (by simp) (by simp) (by simp)]
    · exact absurd h hn

/-- **C46, jackknife (C20 for clustering).** Data `cats` and randoms `rcats` in the same patches; DD and RR processed as
auto-correlations, DR and RD as cross-correlations, then `calculateXi` with RR and whichever of DR, RD are given.
Row `i` of the jackknife design matrix is `calculateXi` of what processing data and randoms without patch `i`
gives. -/
theorem jackknife_xi {KD KR KX KY : Kit C} (gD : KD.Good) (gR : KR.Good) (gX : KX.Good) (gY : KY.Good)
    (cats rcats : List (ℕ × C)) (hids : cats.map Prod.fst = rcats.map Prod.fst) (hid : (cats.map Prod.fst).Nodup)
    (hn : 1 < cats.length) (S : Corr) (useDr useRd : Bool) (i : ℕ) (s : NNState) (rw : ℝ) :
    let n := cats.length
    let rr : Patched := ⟨(KR.processAuto true rcats S).results, n, n⟩
    let dr : Option Patched := if useDr then some ⟨(KX.processCross true cats rcats S).results, n, n⟩ else none
    let rd : Option Patched := if useRd then some ⟨(KY.processCross true rcats cats S).results, n, n⟩ else none
    let E : NNEnv := ⟨afterXi (KD.processAuto true cats S).results rr dr rd, rr, dr, rd, rw⟩
    let cats' := cats.filter fun c => decide (c.1 ≠ i)
    let rcats' := rcats.filter fun c => decide (c.1 ≠ i)
    let DD := (KD.processAuto true cats' S).self
    let RR := (KR.processAuto true rcats' S).self
    let DR := (KX.processCross true cats' rcats' S).self
    let RD := (KY.processCross true rcats' cats' S).self
    DD.tot ≠ 0 → RR.tot ≠ 0 → (useDr = true → DR.tot ≠ 0) → (useRd = true → RD.tot ≠ 0) →
    ∃ pairs t, jackknifePairs n n E.results.keyList i = some pairs ∧ nnFromPairs E s pairs = some t ∧
      calculateXi DD RR (if useDr then some DR else none) (if useRd then some RD else none) = some t.xi := by
  intro n rr dr rd E cats' rcats' DD RR DR RD hDD hRR hDR hRD
  have hidr : (rcats.map Prod.fst).Nodup := hids ▸ hid
  have hlen : cats.length = rcats.length := by simpa using congrArg List.length hids
  have hn1 : n ≠ 1 := by omega
  obtain ⟨d1, d2, -⟩ := auto_results gD cats hid S
  obtain ⟨r1, r2, r3⟩ := auto_results gR rcats hidr S
  obtain ⟨x1, x2⟩ := cross_results gX cats rcats hids hid (by omega) S
  obtain ⟨y1, y2⟩ := cross_results gY rcats cats hids.symm hidr (by omega) S
  obtain ⟨c1, c2, c3, c4, c5⟩ := afterXi_covers d1 rr dr rd
  obtain ⟨t, h1, h2⟩ := row_is_calculateXi E s (fun k => k.1 ≠ i ∧ k.2 ≠ i) c1
    ⟨r1, r3 (by rintro rfl; rw [List.length_nil] at hlen; omega), c3 hn1 hn1⟩
    (by
      intro q hq
      have hq' := hq
      simp only [E, dr] at hq
      split at hq
      · obtain rfl := Option.some.inj hq
        exact ⟨x1, hn1, c4 _ hq' hn1⟩
      · cases hq)
    (by
      intro q hq
      have hq' := hq
      simp only [E, rd] at hq
      split at hq
      · obtain rfl := Option.some.inj hq
        exact ⟨y1, hn1, c5 _ hq' hn1⟩
      · cases hq)
    (by rw [c2, d2]; exact hDD) (by simp only [E, rr]; rw [r2]; exact hRR)
    (by
      intro q hq
      simp only [E, dr] at hq
      split at hq
      · rename_i hu
        obtain rfl := Option.some.inj hq
        rw [x2]; exact hDR hu
      · cases hq)
    (by
      intro q hq
      simp only [E, rd] at hq
      split at hq
      · rename_i hu
        obtain rfl := Option.some.inj hq
        rw [y2]; exact hRD hu
      · cases hq)
  refine ⟨_, t, ?_, h1, ?_⟩
  · simp [jackknifePairs, hn1, Dict.keyList]
  · rw [← h2, c2, d2]
    simp only [E, rr, dr, rd, r2]
    cases useDr <;> cases useRd <;> simp [x2, y2, DD, RR, DR, RD, cats', rcats']

/-- The two patches of C16–C18 as data and as randoms meet the hypotheses of `jackknife_xi`: leaving out patch 0. -/
example (s : NNState) : ∃ (E : NNEnv) (pairs : List (ℕ × ℕ)) (t : NNState), jackknifePairs 2 2 E.results.keyList 0 = some pairs ∧
    nnFromPairs E s pairs = some t ∧
    calculateXi ((exKit true).processAuto true (twoPatches.filter fun c => decide (c.1 ≠ 0)) Corr.clear).self
      ((exKit true).processAuto true (twoPatches.filter fun c => decide (c.1 ≠ 0)) Corr.clear).self none none = some t.xi := by
  have hK : (exKit true).Good := treeKit_good (sortAlg _ 0) exFp (logBin _) (plainMetric _) exLog true (d := 2)
  have hid : (twoPatches.map Prod.fst).Nodup := by simp [twoPatches]
  have ht : ((exKit true).processAuto true (twoPatches.filter fun c => decide (c.1 ≠ 0)) Corr.clear).self.tot ≠ 0 := by
    rw [patched_auto_tot hK rfl _ (hid.sublist (List.filter_sublist.map _))]
    norm_num [exKit, twoPatches, treeKit, ob]
  obtain ⟨pairs, t, h1, h2, h3⟩ := jackknife_xi hK hK hK hK twoPatches twoPatches rfl hid (by simp [twoPatches]) Corr.clear
    false false 0 s 1 ht ht (by simp) (by simp)
  exact ⟨_, pairs, t, h1, h2, h3⟩

/-! ### C22: what goes wrong with empty rows -/

theorem oneBin_good (w : ℝ) : (oneBin w).Good := by
  intro k
  by_cases hk : k = 0
  · subst hk; simp [oneBin, addAt]
  · simp [oneBin, addAt, hk]

theorem sumOthers_one (nn : Bool) (w t : ℝ) (ht : nn = false → t = 0) :
    sumOthers nn [⟨oneBin w, t⟩] = ⟨oneBin w, t⟩ := by
  rw [sumOthers_eq nn _ (by simpa using oneBin_good w) (by simpa using ht)]
  simp

/-- Three patches of which patch 1 has no rows: results for the pairs (0,0) and (2,2). -/
def gapDict (a b t : ℝ) : Dict := [((0, 0), ⟨oneBin a, t⟩), ((2, 2), ⟨oneBin b, t⟩)]

theorem gap_fetch (a b t : ℝ) : fetch (gapDict a b t) [(0, 0)] = some [⟨oneBin a, t⟩] ∧
    fetch (gapDict a b t) [(2, 2)] = some [⟨oneBin b, t⟩] := by
  have b1 : (((2, 2) : ℕ × ℕ) == (0, 0)) = false := rfl
  constructor <;> simp [fetch, gapDict, Dict.get, List.lookup, b1]

/-- DD has 4 pairs within patch 0 and 2 within patch 2, RR one in each. -/
def gapEnv : NNEnv := ⟨gapDict 4 2 1, ⟨gapDict 1 1 1, 3, 3⟩, none, none, 1⟩

theorem gap_row0 (s : NNState) : ∃ t, nnFromPairs gapEnv s [(0, 0)] = some t ∧ t.xi 0 = some 3 := by
  have e : gapEnv.rr.okPairs [(0, 0)] = [(0, 0)] := by
    simp [gapEnv, Patched.okPairs, okPair, gapDict, Dict.keyList]
  have hne : gapEnv.rr.results ≠ [] := by simp [gapEnv, gapDict]
  unfold nnFromPairs
  simp only [NNEnv.sumRr, if_neg hne, e, NNEnv.ddTot]
  simp only [gapEnv, (gap_fetch _ _ _).1, Option.map_some, Option.bind_some, sumRand,
    sumOthers_one true _ _ (by simp)]
  refine ⟨_, rfl, ?_⟩
  simp [rowXi, npDiv, oneBin, addAt, xiNum]
  norm_num

theorem gap_row2 (s : NNState) : ∃ t, nnFromPairs gapEnv s [(2, 2)] = some t ∧ t.xi 0 = some 1 := by
  have e : gapEnv.rr.okPairs [(2, 2)] = [(2, 2)] := by
    simp [gapEnv, Patched.okPairs, okPair, gapDict, Dict.keyList]
  have hne : gapEnv.rr.results ≠ [] := by simp [gapEnv, gapDict]
  unfold nnFromPairs
  simp only [NNEnv.sumRr, if_neg hne, e, NNEnv.ddTot]
  simp only [gapEnv, (gap_fetch _ _ _).2, Option.map_some, Option.bind_some, sumRand,
    sumOthers_one true _ _ (by simp)]
  refine ⟨_, rfl, ?_⟩
  simp [rowXi, npDiv, oneBin, addAt, xiNum]
  norm_num

/-- The rows of `sample`: the second one is empty. -/
def gapRows : List (List (List (ℕ × ℕ))) := [[[(0, 0)]], [[]], [[(2, 2)]]]

theorem gapRows_sample (a b t : ℝ) :
    (List.range 3).mapM (samplePairs 3 3 (gapDict a b t).keyList) = some (gapRows.map fun r => r.headD []) := by
  simp [gapRows, samplePairs, gapDict, Dict.keyList, List.range_succ]

/-- The statistic in bin 0. -/
def bin0 (vs : List (ℤ → Option ℝ)) : ℝ := ((vs.headD fun _ => none) 0).getD 0

/-- **C22, negation for `NNCorrelation`.** Sample rows of three patches of which patch 1 is empty.  `xi` is 3 for
patch 0, 1 for patch 2, and 2 altogether.  In one process the empty row repeats the row before it, 3; with two
processes it holds the overall 2. -/
theorem design_mpi_nn_wrong (s : NNState) (hs : s.xi 0 = some 2) :
    designMatrix [nnObj gapEnv] bin0 gapRows [s] = some [(3, 1), (3, 1), (1, 1)] ∧
    designMatrixMpi [nnObj gapEnv] bin0 2 gapRows [s] = some [(3, 1), (2, 1), (1, 1)] := by
  have st0 : ∀ s, ∃ t, (nnObj gapEnv).step s [(0, 0)] = some t ∧ t.xi 0 = some 3 := by
    intro s; rw [CovObj.step, if_neg (by simp)]; exact gap_row0 s
  have st1 : ∀ s, ∃ t, (nnObj gapEnv).step s [] = some t ∧ t.xi 0 = s.xi 0 := by
    intro s; rw [CovObj.step, if_pos rfl]; exact ⟨_, rfl, rfl⟩
  have st2 : ∀ s, ∃ t, (nnObj gapEnv).step s [(2, 2)] = some t ∧ t.xi 0 = some 1 := by
    intro s; rw [CovObj.step, if_neg (by simp)]; exact gap_row2 s
  have f : ∀ t : NNState, ∀ x, t.xi 0 = some x → bin0 (List.zipWith CovObj.stat [nnObj gapEnv] [t]) = x := by
    intro t x h; simp [bin0, nnObj, h]
  have w : ∀ t : NNState, (List.zipWith CovObj.weight [nnObj gapEnv] [t]).sum = 1 := by
    intro t; simp [nnObj, gapEnv]
  obtain ⟨t0, h0, x0⟩ := st0 s
  obtain ⟨t1, h1, x1⟩ := st1 t0
  obtain ⟨t2, h2, x2⟩ := st2 t1
  obtain ⟨u1, k1, y1⟩ := st1 s
  obtain ⟨u2, k2, y2⟩ := st2 t0
  constructor
  · simp only [designMatrix, gapRows, designRows, stepAll, Nat.mod_one, if_true, h0, h1, h2, Option.bind_eq_bind,
      Option.bind_some, Option.pure_def, f _ _ x0, f _ _ (x1.trans x0), f _ _ x2, w]
  · have r : List.range 2 = [0, 1] := rfl
    have f' : ∀ t : NNState, ∀ x, t.xi 0 = some x → bin0 [(nnObj gapEnv).stat t] = x := f
    have w' : ∀ t : NNState, (nnObj gapEnv).weight t = 1 := fun _ => rfl
    simp [designMatrixMpi, r, gapRows, designRows, stepAll, h0, k1, k2, f' _ _ x0, f' _ _ (y1.trans hs), f' _ _ y2, w',
      allreduce]

/-- `xi` of the whole in `design_mpi_nn_wrong` is 2. -/
example : ∃ xi, calculateXi (gapEnv.results.map Prod.snd).sum (gapEnv.rr.results.map Prod.snd).sum none none = some xi ∧
    xi 0 = some 2 := by
  have h1 : (gapEnv.rr.results.map Prod.snd).sum.tot = 2 := by norm_num [gapEnv, gapDict, Res.add_tot]
  have h2 : (gapEnv.results.map Prod.snd).sum.tot = 2 := by norm_num [gapEnv, gapDict, Res.add_tot]
  refine ⟨_, if_neg (by simp [h1]), ?_⟩
  simp only [h1, h2]
  simp [gapEnv, gapDict, oneBin, addAt, Res.add_acc, Acc.add_def, Acc.add, npDiv, xiNum]
  norm_num

/-- Arrays with one pair of weight 1 and the given product in bin 0. -/
def oneNk (v : ℝ) : Acc := ⟨addAt 0 0 1, addAt 0 0 1, 0, 0, addAt 0 0 v, 0⟩

theorem oneNk_good (v : ℝ) : (oneNk v).Good := by
  intro k
  by_cases hk : k = 0
  · subst hk; simp [oneNk, addAt]
  · simp [oneNk, addAt, hk]

/-- Results for the pairs (0,0) and (2,2) of three patches of which patch 1 has no lenses. -/
def gapNk (a b : ℝ) : Dict := [((0, 0), ⟨oneNk a, 0⟩), ((2, 2), ⟨oneNk b, 0⟩)]

theorem gapNk_fetch (a b : ℝ) : fetch (gapNk a b) [(0, 0)] = some [⟨oneNk a, 0⟩] ∧
    fetch (gapNk a b) [(2, 2)] = some [⟨oneNk b, 0⟩] := by
  have b1 : (((2, 2) : ℕ × ℕ) == (0, 0)) = false := rfl
  constructor <;> simp [fetch, gapNk, Dict.get, List.lookup, b1]

theorem sumOthers_oneNk (v : ℝ) : sumOthers false [⟨oneNk v, 0⟩] = ⟨oneNk v, 0⟩ := by
  rw [sumOthers_eq false _ (by simpa using oneNk_good v) (by simp)]
  simp

/-- The mean in bin 0. -/
def mean0 (vs : List (ℤ → ℝ)) : ℝ := (vs.headD fun _ => 0) 0

/-- **C22, negation for `NKCorrelation` with `rk`.** The mean around the lenses is 5 in patch 0 and 7 in patch 2, that
around random points 1 and 2, so the compensated means are 4 and 5.  In one process the empty row of patch 1
makes the object forget `rk`, and the row of patch 2 holds the uncompensated 7; with three processes it holds
5. -/
theorem design_mpi_nk_wrong (s : NKState) (hs : s.hasRk = true) :
    designMatrix [nkObj (gapNk 5 7) ⟨gapNk 1 2, 3, 3⟩ {0}] mean0 gapRows [s] = some [(4, 1), (0, 0), (7, 1)] ∧
    designMatrixMpi [nkObj (gapNk 5 7) ⟨gapNk 1 2, 3, 3⟩ {0}] mean0 3 gapRows [s] = some [(4, 1), (0, 0), (5, 1)] := by
  set O := nkObj (gapNk 5 7) ⟨gapNk 1 2, 3, 3⟩ {0} with hO
  have p0 : rkPairs ⟨gapNk 1 2, 3, 3⟩ [(0, 0)] = [(0, 0)] := by
    simp [rkPairs, Patched.okPairs, okPair, gapNk, Dict.keyList]
  have p2 : rkPairs ⟨gapNk 1 2, 3, 3⟩ [(2, 2)] = [(2, 2)] := by
    simp [rkPairs, Patched.okPairs, okPair, gapNk, Dict.keyList]
  have m : ∀ v, meanOf (oneNk v) (oneNk v).nk 0 = v := by intro v; simp [meanOf, oneNk, addAt]
  have ww : ∀ v, (oneNk v).weight 0 = 1 := by intro v; simp [oneNk, addAt]
  have st0 : ∃ t, O.step s [(0, 0)] = some t ∧ mean0 [O.stat t] = 4 ∧ O.weight t = 1 := by
    rw [CovObj.step, if_neg (by simp)]
    simp only [hO, nkObj, nkFromPairs, (gapNk_fetch _ _).1, hs, p0, if_true, Option.bind_eq_bind, Option.bind_some,
      sumOthers_oneNk]
    refine ⟨_, rfl, ?_, ?_⟩
    · simp [mean0, m]; norm_num
    · simp [ww]
  have st1 : ∀ s, ∃ t, O.step s [] = some t ∧ t.hasRk = false ∧ mean0 [O.stat t] = 0 ∧ O.weight t = 0 := by
    intro s
    rw [CovObj.step, if_pos rfl]
    refine ⟨_, rfl, rfl, ?_, ?_⟩ <;> simp [hO, nkObj, mean0, Acc.zero]
  have st2 : ∀ s, s.hasRk = false → ∃ t, O.step s [(2, 2)] = some t ∧ mean0 [O.stat t] = 7 ∧ O.weight t = 1 := by
    intro s h
    rw [CovObj.step, if_neg (by simp)]
    simp only [hO, nkObj, nkFromPairs, (gapNk_fetch _ _).2, h, Option.bind_eq_bind, Option.bind_some,
      sumOthers_oneNk]
    refine ⟨_, rfl, ?_, ?_⟩
    · simp [mean0, m]
    · simp [ww]
  have st2' : ∃ t, O.step s [(2, 2)] = some t ∧ mean0 [O.stat t] = 5 ∧ O.weight t = 1 := by
    rw [CovObj.step, if_neg (by simp)]
    simp only [hO, nkObj, nkFromPairs, (gapNk_fetch _ _).2, hs, p2, if_true, Option.bind_eq_bind, Option.bind_some,
      sumOthers_oneNk]
    refine ⟨_, rfl, ?_, ?_⟩
    · simp [mean0, m]; norm_num
    · simp [ww]
  obtain ⟨t0, h0, x0, w0⟩ := st0
  obtain ⟨t1, h1, r1, x1, w1⟩ := st1 t0
  obtain ⟨t2, h2, x2, w2⟩ := st2 t1 r1
  obtain ⟨u1, k1, -, y1, v1⟩ := st1 s
  obtain ⟨u2, k2, y2, v2⟩ := st2'
  constructor
  · simp [designMatrix, gapRows, designRows, stepAll, h0, h1, h2, x0, x1, x2, w0, w1, w2]
  · have r : List.range 3 = [0, 1, 2] := rfl
    simp [designMatrixMpi, r, gapRows, designRows, stepAll, h0, k1, k2, x0, y1, y2, w0, v1, v2, allreduce]

end
end TreeCorr
