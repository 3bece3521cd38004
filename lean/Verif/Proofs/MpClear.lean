import Verif.Proofs.MpNested

/-! With slop, rows clear of the edges of the bins are seen where they are. -/

namespace TreeCorr
open Classical
variable {P : Type} [PseudoMetricSpace P] {p : Params}

theorem inLogBin_of_log (hp : LogParams p) {k : ℤ} {d : ℝ} (h0 : 0 ≤ k) (h1 : k < p.nbins) (hd : 0 < d)
    (h2 : Real.log p.minsep + k * p.binsize ≤ Real.log d) (h3 : Real.log d < Real.log p.minsep + (k + 1) * p.binsize) :
    InLogBin p.minsep p.binsize p.nbins k d := by
  have e : ∀ x : ℝ, p.minsep * Real.exp x = Real.exp (Real.log p.minsep + x) := fun x => by
    rw [Real.exp_add, Real.exp_log hp.minsep]
  refine ⟨h0, h1, ?_, ?_⟩
  · unfold logEdge; rw [e]; exact (Real.le_log_iff_exp_le hd).1 h2
  · unfold logEdge; rw [e]; push_cast; exact (Real.log_lt_iff_lt_exp hd).1 h3

theorem clear_near (hp : LogParams p) {o : Obj P} {m : Seen P} (h : SeenNear p 0 o m) (hc : ClearLog p (dist o.pos m.row.pos)) (j : ℤ) :
    InLogBin p.minsep p.binsize p.nbins j m.sep ↔ InLogBin p.minsep p.binsize p.nbins j (dist o.pos m.row.pos) := by
  obtain ⟨k', hk', n0, n1, d', hd', hp', lo, hi⟩ := h.bin
  have hdd : d' = dist o.pos m.row.pos := by
    rw [mul_zero] at hd'
    linarith [abs_nonpos_iff.1 hd']
  subst hdd
  have hbs := hp.binsize
  have hb := hp.b
  rcases hc with ⟨k, c0, c1, c2, c3, c4⟩ | hc | hc
  · have e : k = k' := by
      have l1 : (k : ℝ) < k' + 1 := by
        by_contra hh
        rw [not_lt] at hh
        nlinarith
      have l2 : (k' : ℝ) < k + 1 := by
        by_contra hh
        rw [not_lt] at hh
        nlinarith
      have l1 : k < k' + 1 := by exact_mod_cast l1
      have l2 : k' < k + 1 := by exact_mod_cast l2
      omega
    subst e
    have hin := inLogBin_of_log hp c0 c1 c2 (by linarith) (by nlinarith [sq_nonneg p.b])
    constructor
    · intro hj; rw [inLogBin_unique hp hj hk']; exact hin
    · intro hj; rw [inLogBin_unique hp hj hin]; exact hk'
  · exfalso
    have := Real.log_lt_log hp' hc
    rw [Real.log_mul hp.minsep.ne' (Real.exp_pos _).ne', Real.log_exp] at this
    have n0' : (0 : ℝ) ≤ k' := by exact_mod_cast n0
    nlinarith
  · exfalso
    have hmx : 0 < p.maxsep := by rw [hp.maxsep]; exact mul_pos hp.minsep (Real.exp_pos _)
    have := Real.log_le_log (mul_pos hmx (Real.exp_pos _)) hc
    rw [Real.log_mul hmx.ne' (Real.exp_pos _).ne', Real.log_exp, hp.log_maxsep] at this
    have n1' : (k' : ℝ) + 1 ≤ p.nbins := by exact_mod_cast n1
    nlinarith

theorem clear_far (hp : LogParams p) {d : ℝ} (h : OutsideLog p (2 * 0) d) (hc : ClearLog p d) (j : ℤ) :
    ¬ InLogBin p.minsep p.binsize p.nbins j d := by
  rintro ⟨j0, j1, e1, e2⟩
  obtain ⟨d', hd', hh⟩ := h
  have hdd : d' = d := by
    rw [mul_zero] at hd'
    linarith [abs_nonpos_iff.1 hd']
  subst hdd
  have hbs := hp.binsize
  have hb := hp.b
  have hmx : 0 < p.maxsep := by rw [hp.maxsep]; exact mul_pos hp.minsep (Real.exp_pos _)
  have hpos : 0 < d' := lt_of_lt_of_le (mul_pos hp.minsep (Real.exp_pos _)) e1
  rcases hc with ⟨k, c0, c1, c2, c3, c4⟩ | hc | hc
  · rcases hh with hh | hh
    · have := Real.log_le_log hpos hh
      rw [Real.log_mul hp.minsep.ne' (Real.exp_pos _).ne', Real.log_exp] at this
      have n0' : (0 : ℝ) ≤ k := by exact_mod_cast c0
      nlinarith
    · have := Real.log_le_log (mul_pos hmx (Real.exp_pos _)) hh
      rw [Real.log_mul hmx.ne' (Real.exp_pos _).ne', Real.log_exp, hp.log_maxsep] at this
      have n1' : (k : ℝ) + 1 ≤ p.nbins := by exact_mod_cast c1
      nlinarith
  · have j0' : (0 : ℝ) ≤ j := by exact_mod_cast j0
    have h1 : p.minsep ≤ d' := by
      refine le_trans ?_ e1
      unfold logEdge
      exact le_mul_of_one_le_right hp.minsep.le (Real.one_le_exp (by positivity))
    have h2 : p.minsep * Real.exp (-(p.b + p.b ^ 2)) ≤ p.minsep :=
      mul_le_of_le_one_right hp.minsep.le (Real.exp_le_one_iff.2 (by nlinarith [sq_nonneg p.b]))
    linarith
  · have j1' : (j : ℝ) + 1 ≤ p.nbins := by exact_mod_cast j1
    have h1 : d' < p.maxsep := by
      refine lt_of_lt_of_le e2 ?_
      unfold logEdge
      rw [hp.maxsep]
      refine mul_le_mul_of_nonneg_left (Real.exp_le_exp.2 ?_) hp.minsep.le
      push_cast
      nlinarith
    have h2 : p.maxsep ≤ p.maxsep * Real.exp p.b := le_mul_of_one_le_right hmx.le (Real.one_le_exp hb)
    linarith

/-- The rows seen in a bin are those in the bin. -/
theorem sees_clear (hp : LogParams p) {o : Obj P} {rows : Multiset (Obj P)} {M : List (Seen P)}
    (h : Sees (SeenNear p 0) (fun o x => OutsideLog p (2 * 0) (dist o.pos x.pos)) o rows M)
    (hc : ∀ x ∈ rows, ClearLog p (dist o.pos x.pos)) (k : ℤ) :
    (seenAt p k M).map Seen.row = rows.filter fun x => InLogBin p.minsep p.binsize p.nbins k (dist o.pos x.pos) := by
  obtain ⟨hn, D, hD, hf⟩ := h
  subst hD
  have z : D.filter (fun x => InLogBin p.minsep p.binsize p.nbins k (dist o.pos x.pos)) = 0 :=
    Multiset.filter_eq_nil.2 fun x hx => clear_far hp (hf x hx) (hc x (Multiset.mem_add.2 (.inr hx))) k
  rw [Multiset.filter_add, z, add_zero, ← Multiset.map_coe, Multiset.filter_map]
  congr 1
  unfold seenAt
  refine Multiset.filter_congr fun m hm => clear_near hp (hn m (Multiset.mem_coe.1 hm)) (hc _ (Multiset.mem_add.2 (.inl ?_))) k
  exact Multiset.mem_coe.2 (List.mem_map_of_mem (Multiset.mem_coe.1 hm))

section
variable {K : Type} [CommRing K] {k2 k3 : ℤ}

/-- Sums over the rows of a triangle: three catalogues. -/
theorem seenTriples_clear (hp : LogParams p) {l1 l2 l3 : List (Obj P)} {L : List (View P)} (hv : SeenViews p 0 l1 l2 l3 L)
    (hc2 : ∀ o ∈ l1, ∀ x ∈ l2, ClearLog p (dist o.pos x.pos)) (hc3 : ∀ o ∈ l1, ∀ x ∈ l3, ClearLog p (dist o.pos x.pos))
    (g1 a b : Obj P → K) :
    (((seenTriples L).filter (SeenIn p k2 k3)).map fun q => g1 q.1 * (a q.2.1.row * b q.2.2.row)).sum =
      (((crossTriples l1 l2 l3).filter (InSides p k2 k3)).map fun q => g1 q.1 * (a q.2.1 * b q.2.2)).sum := by
  rw [seenTriples_sum (a := fun m => a m.row) (b := fun m => b m.row)]
  unfold crossTriples
  rw [triples_sum, ← Multiset.coe_eq_coe.2 hv.rows, Multiset.map_coe, Multiset.sum_coe, List.map_map]
  congr 1
  apply List.map_congr_left
  intro v hvL
  have ho : v.1 ∈ l1 := hv.rows.mem_iff.1 (List.mem_map_of_mem hvL)
  have e2 := sees_clear hp (hv.sees2 v hvL) (fun x hx => hc2 _ ho x (Multiset.mem_coe.1 hx)) k3
  have e3 := sees_clear hp (hv.sees3 v hvL) (fun x hx => hc3 _ ho x (Multiset.mem_coe.1 hx)) k2
  rw [show (seenAt p k3 v.2.1).map (fun m => a m.row) = ((seenAt p k3 v.2.1).map Seen.row).map a by rw [Multiset.map_map]; rfl,
    show (seenAt p k2 v.2.2).map (fun m => b m.row) = ((seenAt p k2 v.2.2).map Seen.row).map b by rw [Multiset.map_map]; rfl, e2, e3]
  symm
  refine (Multiset.sum_map_mul_left (a := g1 v.1) (f := fun q : Obj P × Obj P => a q.1 * b q.2)).trans ?_
  congr 1
  refine Eq.trans ?_ (crossPairs_filter_sum _ _ (fun x : Obj P => InLogBin p.minsep p.binsize p.nbins k3 (dist v.1.pos x.pos))
    (fun x => InLogBin p.minsep p.binsize p.nbins k2 (dist v.1.pos x.pos)) a b)
  exact congrArg (fun s => (Multiset.map (fun q : Obj P × Obj P => a q.1 * b q.2) s).sum) (Multiset.filter_congr fun _ _ => Iff.rfl)

/-- Sums over the rows of a triangle: points 2 and 3 in one catalogue. -/
theorem seenPairs_clear (hp : LogParams p) {l1 l2 l3 : List (Obj P)} {L : List (View P)} (hv : SeenViews p 0 l1 l2 l3 L)
    (hc2 : ∀ o ∈ l1, ∀ x ∈ l2, ClearLog p (dist o.pos x.pos)) (g1 a b : Obj P → K) :
    (((seenPairs L).filter (SeenIn p k2 k3)).map fun q => g1 q.1 * (a q.2.1.row * b q.2.2.row)).sum =
      (((cross12Triples l1 l2).filter (InSides p k2 k3)).map fun q => g1 q.1 * (a q.2.1 * b q.2.2)).sum := by
  rw [seenPairs_sum hp (a := fun m => a m.row) (b := fun m => b m.row)]
  unfold cross12Triples
  rw [triples_sum, ← Multiset.coe_eq_coe.2 hv.rows, Multiset.map_coe, Multiset.sum_coe, List.map_map]
  congr 1
  apply List.map_congr_left
  intro v hvL
  have ho : v.1 ∈ l1 := hv.rows.mem_iff.1 (List.mem_map_of_mem hvL)
  have e := fun k => sees_clear hp (hv.sees2 v hvL) (fun x hx => hc2 _ ho x (Multiset.mem_coe.1 hx)) k
  have r : ∀ (k : ℤ) (f : Obj P → K), (seenAt p k v.2.1).map (fun m => f m.row) = ((l2 : Multiset (Obj P)).filter fun x =>
      InLogBin p.minsep p.binsize p.nbins k (dist v.1.pos x.pos)).map f := fun k f => by rw [← e, Multiset.map_map]; rfl
  rw [r k3 a, r k2 b, r k2 fun x => a x * b x]
  symm
  refine (Multiset.sum_map_mul_left (a := g1 v.1) (f := fun q : Obj P × Obj P => a q.1 * b q.2)).trans ?_
  congr 1
  have key := orderedPairs_filter_sum l2 (fun x : Obj P => InLogBin p.minsep p.binsize p.nbins k3 (dist v.1.pos x.pos))
    (fun x => InLogBin p.minsep p.binsize p.nbins k2 (dist v.1.pos x.pos)) a b
  refine Eq.trans ?_ (key.trans ?_)
  · exact congrArg (fun s => (Multiset.map (fun q : Obj P × Obj P => a q.1 * b q.2) s).sum) (Multiset.filter_congr fun _ _ => Iff.rfl)
  · congr 1
    split
    · rename_i h; subst h
      exact congrArg (fun s => (Multiset.map (fun x : Obj P => a x * b x) s).sum) (Multiset.filter_congr fun _ _ => and_self_iff)
    · rename_i h
      rw [Multiset.filter_eq_nil.2]
      · simp
      · rintro x _ ⟨h1, h2⟩
        exact h (inLogBin_unique hp h2 h1)

end

/-- The same sums over rows. -/
def RowSums (p : Params) (S : Multiset (Obj P × Seen P × Seen P)) (T : Multiset (Obj P × Obj P × Obj P)) : Prop :=
  ∀ (K : Type) [CommRing K] (k2 k3 : ℤ) (g1 a b : Obj P → K),
    ((S.filter (SeenIn p k2 k3)).map fun q => g1 q.1 * (a q.2.1.row * b q.2.2.row)).sum =
      ((T.filter (InSides p k2 k3)).map fun q => g1 q.1 * (a q.2.1 * b q.2.2)).sum

theorem RowSums.add {S S' : Multiset (Obj P × Seen P × Seen P)} {T T' : Multiset (Obj P × Obj P × Obj P)} (h : RowSums p S T)
    (h' : RowSums p S' T') : RowSums p (S + S') (T + T') := by
  intro K _ k2 k3 g1 a b
  simp only [Multiset.filter_add, Multiset.map_add, Multiset.sum_add, h K k2 k3 g1 a b, h' K k2 k3 g1 a b]

theorem SeenViews.swap {δ : ℝ} {l1 l2 l3 : List (Obj P)} {L : List (View P)} (h : SeenViews p δ l1 l2 l3 L) :
    SeenViews p δ l1 l3 l2 (swapViews L) := by
  refine ⟨?_, ?_, ?_⟩
  · have : (swapViews L).map Prod.fst = L.map Prod.fst := by simp [swapViews]
    rw [this]; exact h.rows
  · intro v hv
    obtain ⟨u, hu, rfl⟩ := List.mem_map.1 hv
    exact h.sees3 u hu
  · intro v hv
    obtain ⟨u, hu, rfl⟩ := List.mem_map.1 hv
    exact h.sees2 u hu

theorem rowSums_swap (hp : LogParams p) {l1 l2 l3 : List (Obj P)} {L : List (View P)} (hv : SeenViews p 0 l1 l2 l3 L)
    (hc2 : ∀ o ∈ l1, ∀ x ∈ l2, ClearLog p (dist o.pos x.pos)) (hc3 : ∀ o ∈ l1, ∀ x ∈ l3, ClearLog p (dist o.pos x.pos)) :
    RowSums p (seenTriples L + seenTriples (swapViews L)) (crossTriples l1 l2 l3 + crossTriples l1 l3 l2) :=
  RowSums.add (fun _ _ _ _ g1 a b => seenTriples_clear hp hv hc2 hc3 g1 a b)
    (fun _ _ _ _ g1 a b => seenTriples_clear hp hv.swap hc3 hc2 g1 a b)

/-- Counts and `n = 0`, for any triangles with the same sums over rows. -/
theorem clear_holds {ph : P → P → ℂ} {S : Multiset (Obj P × Seen P × Seen P)} {T : Multiset (Obj P × Obj P × Obj P)}
    {out : List (ℤ × ℤ × MpVals)} (hS : RowSums p S T) :
    (SeenCounts p S out → MpCounts p T out) ∧ (SeenPhases p ph 0 S out → MpPhases p ph 0 T out) := by
  constructor
  · intro h k2 k3 h2 h3
    rw [h k2 k3 h2 h3]
    have := hS ℝ k2 k3 (fun _ => 1) (fun _ => 1) (fun _ => 1)
    simpa [brute3N] using this
  · intro h k2 k3 h2 h3
    obtain ⟨e1, e2⟩ := h k2 k3 h2 h3
    rw [e1, e2]
    have s1 := hS ℂ k2 k3 (fun o => (o.w : ℂ)) (fun o => (o.w : ℂ)) (fun o => (o.w : ℂ))
    have s2 := hS ℂ k2 k3 (fun o => (o.wk : ℂ)) (fun o => (o.wk : ℂ)) (fun o => (o.wk : ℂ))
    unfold phaseW phaseZ
    simp only [zpow_zero, mul_one, Complex.ofReal_mul, mul_assoc]
    exact ⟨s1, s2⟩

end TreeCorr
