import Verif.Proofs.MpRun
import Verif.Spec.Multipole

/-! The sums kept by the multipole algorithm: what `calculateZeta` adds to an entry, what the scratch arrays hold, and the sums over
pairs of rows they amount to. -/

namespace TreeCorr
open Classical
variable {P : Type}

/-! ### The entries of the output arrays -/

section
variable {V W : Type} [AddCommMonoid V]

theorem mpTotal_nil (f : W → V) (k2 k3 : ℤ) : mpTotal f [] k2 k3 = 0 := rfl

theorem mpTotal_append (f : W → V) (a b : List (ℤ × ℤ × W)) (k2 k3 : ℤ) :
    mpTotal f (a ++ b) k2 k3 = mpTotal f a k2 k3 + mpTotal f b k2 k3 := by
  simp [mpTotal, List.filter_append]

theorem mpTotal_cons (f : W → V) (x : ℤ × ℤ × W) (b : List (ℤ × ℤ × W)) (k2 k3 : ℤ) :
    mpTotal f (x :: b) k2 k3 = (if x.1 = k2 ∧ x.2.1 = k3 then f x.2.2 else 0) + mpTotal f b k2 k3 := by
  unfold mpTotal
  by_cases h : x.1 = k2 ∧ x.2.1 = k3
  · rw [List.filter_cons_of_pos (by simpa using h), if_pos h]; simp
  · rw [List.filter_cons_of_neg (by simpa using h), if_neg h, zero_add]

theorem mpTotal_flatMap {α : Type} (f : W → V) (g : α → List (ℤ × ℤ × W)) (l : List α) (k2 k3 : ℤ) :
    mpTotal f (l.flatMap g) k2 k3 = (l.map fun x => mpTotal f (g x) k2 k3).sum := by
  induction l with
  | nil => rfl
  | cons a l ih => rw [List.flatMap_cons, mpTotal_append, ih]; simp

theorem mem_irange {a b k : ℤ} : k ∈ irange a b ↔ a ≤ k ∧ k < b := by
  unfold irange
  simp only [List.mem_map, List.mem_range]
  constructor
  · rintro ⟨i, hi, rfl⟩; omega
  · rintro ⟨h1, h2⟩; exact ⟨(k - a).toNat, by omega, by omega⟩

theorem irange_nodup (a b : ℤ) : (irange a b).Nodup := by
  unfold irange
  apply List.Nodup.map _ List.nodup_range
  intro i j h
  simp only [add_right_inj, Nat.cast_inj] at h
  exact h

theorem sum_single {α : Type} (l : List α) (hl : l.Nodup) (h : α → V) (j : α) (h0 : ∀ i, i ≠ j → h i = 0) :
    (l.map h).sum = if j ∈ l then h j else 0 := by
  induction l with
  | nil => simp
  | cons a l ih =>
    rw [List.map_cons, List.sum_cons, ih (List.nodup_cons.1 hl).2]
    by_cases ha : a = j
    · subst ha
      rw [if_neg (List.nodup_cons.1 hl).1, if_pos (by simp), add_zero]
    · rw [h0 a ha, zero_add]
      by_cases hj : j ∈ l
      · rw [if_pos hj, if_pos (by simp [hj])]
      · rw [if_neg hj, if_neg (by simp [hj, Ne.symm ha])]

theorem irange_sum (a b : ℤ) (h : ℤ → V) (j : ℤ) (h0 : ∀ i, i ≠ j → h i = 0) :
    ((irange a b).map h).sum = if a ≤ j ∧ j < b then h j else 0 := by
  rw [sum_single _ (irange_nodup a b) h j h0]
  simp only [mem_irange]

/-- What the loops of `calculateZeta` add to `[k2,k3]`. -/
noncomputable def entryVal (d : ℤ → W) (u l : ℤ → ℤ → W) (k2 k3 : ℤ) : W :=
  if k2 = k3 then d k2 else if k2 < k3 then u k2 k3 else l k3 k2

/-- The entries of the loops of `calculateZeta`. -/
theorem total_entries (f : W → V) {nbins k2 k3 : ℤ} (h2 : k2 < nbins) (h3 : k3 < nbins) (d : ℤ → W) (u l : ℤ → ℤ → W)
    (kstart mink : ℤ) :
    mpTotal f ((irange kstart mink).flatMap fun i => (i, i, d i) ::
      (irange (i + 1) nbins).flatMap fun k => [(i, k, u i k), (k, i, l i k)]) k2 k3 =
      if kstart ≤ min k2 k3 ∧ min k2 k3 < mink then f (entryVal d u l k2 k3) else 0 := by
  rw [mpTotal_flatMap]
  have inner : ∀ i, mpTotal f ((i, i, d i) ::
      (irange (i + 1) nbins).flatMap fun k => [(i, k, u i k), (k, i, l i k)]) k2 k3 =
      if i = min k2 k3 then f (entryVal d u l k2 k3) else 0 := by
    intro i
    rw [mpTotal_cons, mpTotal_flatMap]
    have e : ∀ k, mpTotal f [(i, k, u i k), (k, i, l i k)] k2 k3 =
        (if i = k2 ∧ k = k3 then f (u i k) else 0) + (if k = k2 ∧ i = k3 then f (l i k) else 0) := by
      intro k
      rw [mpTotal_cons, mpTotal_cons, mpTotal_nil, add_zero]
    simp only [e]
    rcases lt_trichotomy k2 k3 with h | h | h
    · rw [if_neg (by omega), zero_add, min_eq_left h.le]
      have ev : entryVal d u l k2 k3 = u k2 k3 := by
        unfold entryVal; rw [if_neg h.ne, if_pos h]
      rw [ev]
      by_cases hi : i = k2
      · rw [if_pos hi, irange_sum (j := k3)]
        · rw [if_pos (by omega), if_pos ⟨hi, rfl⟩, if_neg (by omega), add_zero, hi]
        · intro k hk
          rw [if_neg (by omega), if_neg (by omega), add_zero]
      · rw [if_neg hi]
        apply List.sum_eq_zero
        intro x hx
        obtain ⟨k, hk, rfl⟩ := List.mem_map.1 hx
        rw [mem_irange] at hk
        rw [if_neg (by omega), if_neg (by omega), add_zero]
    · subst h
      rw [min_self]
      have ev : entryVal d u l k2 k2 = d k2 := by
        unfold entryVal; rw [if_pos rfl]
      rw [ev]
      have z : ((irange (i + 1) nbins).map fun k => (if i = k2 ∧ k = k2 then f (u i k) else 0) +
          (if k = k2 ∧ i = k2 then f (l i k) else 0)).sum = 0 := by
        apply List.sum_eq_zero
        intro x hx
        obtain ⟨k, hk, rfl⟩ := List.mem_map.1 hx
        rw [mem_irange] at hk
        rw [if_neg (by omega), if_neg (by omega), add_zero]
      rw [z, add_zero]
      by_cases hi : i = k2
      · subst hi; rw [if_pos ⟨rfl, rfl⟩, if_pos rfl]
      · rw [if_neg (by omega), if_neg hi]
    · rw [if_neg (by omega), zero_add, min_eq_right h.le]
      have ev : entryVal d u l k2 k3 = l k3 k2 := by
        unfold entryVal; rw [if_neg h.ne', if_neg (by omega)]
      rw [ev]
      by_cases hi : i = k3
      · rw [if_pos hi, irange_sum (j := k2)]
        · rw [if_pos (by omega), if_neg (by omega), if_pos ⟨rfl, hi⟩, zero_add, hi]
        · intro k hk
          rw [if_neg (by omega), if_neg (by omega), add_zero]
      · rw [if_neg hi]
        apply List.sum_eq_zero
        intro x hx
        obtain ⟨k, hk, rfl⟩ := List.mem_map.1 hx
        rw [mem_irange] at hk
        rw [if_neg (by omega), if_neg (by omega), add_zero]
  simp only [inner]
  rw [irange_sum (j := min k2 k3)]
  · rw [if_pos rfl]
  · intro i hi; rw [if_neg hi]

/-- What `calculateZeta` adds to `[k2,k3]`. -/
noncomputable def mpVal (maxn : ℕ) (c1 : Cell P) (mp : Scratch) (k2 k3 : ℤ) : MpVals :=
  if k2 = k3 then zetaDiag maxn c1 mp k2 else if k2 < k3 then zeta23 maxn c1 mp k2 k3 else zeta32 maxn c1 mp k3 k2

theorem total_calculateZeta (f : MpVals → V) (maxn : ℕ) {nbins k2 k3 : ℤ} (h2 : k2 < nbins) (h3 : k3 < nbins) (c1 : Cell P)
    (mp : Scratch) (kstart mink : ℤ) :
    mpTotal f (calculateZeta maxn nbins c1 mp kstart mink) k2 k3 =
      if kstart ≤ min k2 k3 ∧ min k2 k3 < mink then f (mpVal maxn c1 mp k2 k3) else 0 :=
  total_entries f h2 h3 (zetaDiag maxn c1 mp) (zeta23 maxn c1 mp) (zeta32 maxn c1 mp) kstart mink

/-- What `calculateZeta` for two scratches adds to `[k2,k3]`. -/
noncomputable def mpVal2 (maxn : ℕ) (swap23 : Bool) (c1 : Cell P) (mp2 mp3 : Scratch) (k2 k3 : ℤ) : MpVals :=
  if swap23 then zetaOrd1 maxn c1 mp2 mp3 k2 k3 else zetaOrd3 maxn c1 mp2 mp3 k2 k3

theorem total_entries2 (f : W → V) {nbins k2 k3 : ℤ} (h2 : k2 < nbins) (h3 : k3 < nbins) (v : ℤ → ℤ → W) (kstart mink : ℤ) :
    mpTotal f ((irange kstart nbins).flatMap fun i => (irange kstart (if i < mink then nbins else mink)).map fun k =>
      (i, k, v i k)) k2 k3 =
      if kstart ≤ min k2 k3 ∧ min k2 k3 < mink then f (v k2 k3) else 0 := by
  rw [mpTotal_flatMap]
  have hmap : ∀ (l : List ℤ) (i : ℤ), mpTotal f (l.map fun k => (i, k, v i k)) k2 k3 =
      (l.map fun k => if i = k2 ∧ k = k3 then f (v i k) else 0).sum := by
    intro l i
    induction l with
    | nil => rfl
    | cons a l ih => rw [List.map_cons, mpTotal_cons, ih, List.map_cons, List.sum_cons]
  have inner : ∀ i, mpTotal f ((irange kstart (if i < mink then nbins else mink)).map fun k =>
      (i, k, v i k)) k2 k3 =
      if i = k2 then (if kstart ≤ k3 ∧ k3 < (if k2 < mink then nbins else mink) then f (v k2 k3)
        else 0) else 0 := by
    intro i
    refine (hmap _ i).trans ?_
    by_cases hi : i = k2
    · subst hi
      rw [if_pos rfl, irange_sum (j := k3)]
      · simp
      · intro k hk; rw [if_neg (by simp [hk])]
    · rw [if_neg hi]
      apply List.sum_eq_zero
      intro x hx
      obtain ⟨k, hk, rfl⟩ := List.mem_map.1 hx
      rw [if_neg (by simp [hi])]
  simp only [inner]
  rw [irange_sum (j := k2) (h0 := fun i hi => by rw [if_neg hi]), if_pos rfl]
  by_cases hk : k2 < mink
  · rw [if_pos hk]
    by_cases ha : kstart ≤ k2
    · by_cases hb : kstart ≤ k3
      · rw [if_pos ⟨ha, h2⟩, if_pos ⟨hb, h3⟩, if_pos ⟨le_min ha hb, lt_of_le_of_lt (min_le_left _ _) hk⟩]
      · rw [if_neg (show ¬ (kstart ≤ k3 ∧ k3 < nbins) by omega), if_neg (show ¬ (kstart ≤ min k2 k3 ∧ _) by omega)]; simp
    · rw [if_neg (by omega), if_neg (by omega)]
  · rw [if_neg hk]
    by_cases ha : kstart ≤ k2
    · by_cases hb : kstart ≤ k3 ∧ k3 < mink
      · rw [if_pos ⟨ha, h2⟩, if_pos hb, if_pos (by omega)]
      · rw [if_neg hb, if_neg (show ¬ (kstart ≤ min k2 k3 ∧ _) by omega)]; simp
    · rw [if_neg (by omega), if_neg (by omega)]

theorem total_calculateZeta2 (f : MpVals → V) (maxn : ℕ) (swap23 : Bool) {nbins k2 k3 : ℤ} (h2 : k2 < nbins) (h3 : k3 < nbins)
    (c1 : Cell P) (mp2 mp3 : Scratch) (kstart mink : ℤ) :
    mpTotal f (calculateZeta2 maxn nbins swap23 c1 mp2 mp3 kstart mink) k2 k3 =
      if kstart ≤ min k2 k3 ∧ min k2 k3 < mink then f (mpVal2 maxn swap23 c1 mp2 mp3 k2 k3) else 0 :=
  total_entries2 f h2 h3 (mpVal2 maxn swap23 c1 mp2 mp3) kstart mink

end

/-! ### The value of an entry -/

/-- The power `z^n` for a `z` of modulus one, as the code has it. -/
noncomputable def upow (z : ℂ) (n : ℤ) : ℂ := if 0 ≤ n then z ^ n.natAbs else (starRingEnd ℂ) z ^ n.natAbs

/-- `Wn` for positive and negative `n`. -/
noncomputable def both (f : ℕ → ℂ) (n : ℤ) : ℂ := if 0 ≤ n then f n.natAbs else (starRingEnd ℂ) (f n.natAbs)

theorem spread_prod {maxn : ℕ} {n : ℤ} (hn : n.natAbs ≤ maxn) (c : ℝ) (f g : ℕ → ℂ) :
    spread maxn (fun m => (c : ℂ) * f m * (starRingEnd ℂ) (g m)) n = (c : ℂ) * (both f n * (starRingEnd ℂ) (both g n)) := by
  unfold spread both
  rw [if_pos hn]
  split
  · ring
  · simp only [map_mul, Complex.conj_ofReal, Complex.conj_conj]; ring

section
variable (maxn : ℕ) (c1 : Cell P) (mp : Scratch) (k2 k3 : ℤ)

theorem mpVal_ntri : (mpVal maxn c1 mp k2 k3).ntri =
    c1.n * (mp.npairs k3 * mp.npairs k2 - if k2 = k3 then mp.npairs k2 else 0) := by
  unfold mpVal
  split
  · rename_i h; subst h; simp only [zetaDiag]; ring
  · split
    · simp only [zeta23]; ring
    · simp only [zeta32]; ring

theorem mpVal_d2 : (mpVal maxn c1 mp k2 k3).meand2 =
    c1.w * (mp.sumw k3 * mp.sumwr k2 - if k2 = k3 then mp.sumwwr k2 else 0) := by
  unfold mpVal
  split
  · rename_i h; subst h; simp only [zetaDiag]
  · split
    · simp only [zeta23]; ring
    · simp only [zeta32]; ring

theorem mpVal_logd2 : (mpVal maxn c1 mp k2 k3).meanlogd2 =
    c1.w * (mp.sumw k3 * mp.sumwlogr k2 - if k2 = k3 then mp.sumwwlogr k2 else 0) := by
  unfold mpVal
  split
  · rename_i h; subst h; simp only [zetaDiag]
  · split
    · simp only [zeta23]; ring
    · simp only [zeta32]; ring

theorem mpVal_d3 : (mpVal maxn c1 mp k2 k3).meand3 =
    c1.w * (mp.sumwr k3 * mp.sumw k2 - if k2 = k3 then mp.sumwwr k2 else 0) := by
  unfold mpVal
  split
  · rename_i h; subst h; simp only [zetaDiag]; ring
  · split
    · simp only [zeta23]; ring
    · simp only [zeta32]; ring

theorem mpVal_logd3 : (mpVal maxn c1 mp k2 k3).meanlogd3 =
    c1.w * (mp.sumwlogr k3 * mp.sumw k2 - if k2 = k3 then mp.sumwwlogr k2 else 0) := by
  unfold mpVal
  split
  · rename_i h; subst h; simp only [zetaDiag]; ring
  · split
    · simp only [zeta23]; ring
    · simp only [zeta32]; ring

theorem spread_diag {maxn : ℕ} {n : ℤ} (hn : n.natAbs ≤ maxn) (c s : ℝ) (f : ℕ → ℂ) :
    spread maxn (fun m => ((c * (Complex.normSq (f m) - s) : ℝ) : ℂ)) n =
      (c : ℂ) * (both f n * (starRingEnd ℂ) (both f n) - (s : ℂ)) := by
  unfold spread both
  rw [if_pos hn]
  split
  · rw [Complex.mul_conj]; push_cast; ring
  · rw [Complex.mul_conj, Complex.normSq_conj, Complex.conj_ofReal]; push_cast; ring

theorem spread_conj {maxn : ℕ} {n : ℤ} (f : ℕ → ℂ) :
    spread maxn (fun m => (starRingEnd ℂ) (f m)) n = (starRingEnd ℂ) (spread maxn f n) := by
  unfold spread
  split
  · split <;> simp
  · simp

variable {maxn}

theorem mpVal_weight {n : ℤ} (hn : n.natAbs ≤ maxn) : (mpVal maxn c1 mp k2 k3).weight n =
    (c1.w : ℂ) * ((starRingEnd ℂ) (both (mp.Wn k3) n) * both (mp.Wn k2) n - if k2 = k3 then (mp.sumww k2 : ℂ) else 0) := by
  unfold mpVal
  split
  · rename_i h; subst h; simp only [zetaDiag]; rw [spread_diag hn]; ring
  · split
    · simp only [zeta23]; rw [spread_prod hn]; ring
    · simp only [zeta32]; rw [spread_conj, spread_prod hn]
      simp only [map_mul, Complex.conj_ofReal, Complex.conj_conj]; ring

theorem mpVal_zeta {n : ℤ} (hn : n.natAbs ≤ maxn) : (mpVal maxn c1 mp k2 k3).zeta n =
    (c1.wk : ℂ) * ((starRingEnd ℂ) (both (mp.Gn k3) n) * both (mp.Gn k2) n - if k2 = k3 then (mp.sumwwkk k2 : ℂ) else 0) := by
  unfold mpVal
  split
  · rename_i h; subst h; simp only [zetaDiag]; rw [spread_diag hn]; ring
  · split
    · simp only [zeta23]; rw [spread_prod hn]; ring
    · simp only [zeta32]; rw [spread_conj, spread_prod hn]
      simp only [map_mul, Complex.conj_ofReal, Complex.conj_conj]; ring

end

/-! ### Sums over pairs of rows -/

section
variable {α K : Type} [CommRing K]

theorem autoPairs_cons (x : α) (l : List α) : autoPairs (x :: l) = (l.map (fun y => (x, y)) : Multiset (α × α)) + autoPairs l := rfl

theorem orderedPairs_prod_sum (l : List α) (a b : α → K) :
    ((orderedPairs l).map fun q => a q.1 * b q.2).sum = (l.map a).sum * (l.map b).sum - (l.map fun o => a o * b o).sum := by
  have key : ∀ l : List α, ((autoPairs l).map fun q => a q.1 * b q.2).sum + ((autoPairs l).map fun q => a q.2 * b q.1).sum =
      (l.map a).sum * (l.map b).sum - (l.map fun o => a o * b o).sum := by
    intro l
    induction l with
    | nil => simp [autoPairs]
    | cons x l ih =>
      rw [autoPairs_cons]
      simp only [Multiset.map_add, Multiset.sum_add, Multiset.map_coe, Multiset.sum_coe, List.map_map, List.map_cons,
        List.sum_cons]
      have e1 : (l.map ((fun q : α × α => a q.1 * b q.2) ∘ fun y => (x, y))).sum = a x * (l.map b).sum := by
        rw [← List.sum_map_mul_left]; rfl
      have e2 : (l.map ((fun q : α × α => a q.2 * b q.1) ∘ fun y => (x, y))).sum = (l.map a).sum * b x := by
        rw [← List.sum_map_mul_right]; rfl
      rw [e1, e2]
      linear_combination ih
  rw [← key]
  unfold orderedPairs
  rw [Multiset.map_add, Multiset.sum_add, Multiset.map_map]
  rfl

theorem filter_map_sum {β : Type} (m : Multiset β) (A : β → Prop) [DecidablePred A] (f : β → K) :
    ((m.filter A).map f).sum = (m.map fun x => if A x then f x else 0).sum := by
  induction m using Multiset.induction_on with
  | empty => simp
  | cons x m ih =>
    by_cases h : A x
    · rw [Multiset.filter_cons_of_pos _ h]; simp [ih, h]
    · rw [Multiset.filter_cons_of_neg _ h]; simp [ih, h]

/-- The sum over the ordered pairs of distinct rows, the first in one set, the second in another. -/
theorem orderedPairs_filter_sum (l : List α) (A B : α → Prop) (a b : α → K) :
    (((orderedPairs l).filter fun q => B q.2 ∧ A q.1).map fun q => a q.1 * b q.2).sum =
      (((l : Multiset α).filter A).map a).sum * (((l : Multiset α).filter B).map b).sum -
        (((l : Multiset α).filter fun o => A o ∧ B o).map fun o => a o * b o).sum := by
  rw [filter_map_sum, filter_map_sum, filter_map_sum, filter_map_sum]
  simp only [Multiset.map_coe, Multiset.sum_coe]
  have := orderedPairs_prod_sum l (fun o => if A o then a o else 0) (fun o => if B o then b o else 0)
  have e1 : ∀ q : α × α, (if B q.2 ∧ A q.1 then a q.1 * b q.2 else 0) =
      (if A q.1 then a q.1 else 0) * (if B q.2 then b q.2 else 0) := by
    intro q; by_cases h1 : A q.1 <;> by_cases h2 : B q.2 <;> simp [h1, h2]
  have e2 : ∀ o : α, (if A o ∧ B o then a o * b o else 0) = (if A o then a o else 0) * (if B o then b o else 0) := by
    intro q; by_cases h1 : A q <;> by_cases h2 : B q <;> simp [h1, h2]
  simp only [e1, e2]
  exact this

theorem crossPairs_filter_sum (m n : Multiset α) (A B : α → Prop) (a b : α → K) :
    (((m ×ˢ n).filter fun q => B q.2 ∧ A q.1).map fun q => a q.1 * b q.2).sum =
      ((m.filter A).map a).sum * ((n.filter B).map b).sum := by
  rw [filter_map_sum, filter_map_sum, filter_map_sum]
  have e1 : ∀ q : α × α, (if B q.2 ∧ A q.1 then a q.1 * b q.2 else 0) =
      (if A q.1 then a q.1 else 0) * (if B q.2 then b q.2 else 0) := by
    intro q; by_cases h1 : A q.1 <;> by_cases h2 : B q.2 <;> simp [h1, h2]
  simp only [e1]
  induction m using Multiset.induction_on with
  | empty => simp
  | cons x m ih =>
    rw [Multiset.cons_product, Multiset.map_add, Multiset.sum_add, ih, Multiset.map_cons, Multiset.sum_cons, Multiset.map_map, add_mul]
    congr 1
    rw [← Multiset.sum_map_mul_left]
    rfl

/-- The sum over triples, first member by first member. -/
theorem triples_sum {β : Type} (m : Multiset α) (n : Multiset β) (A : α × β → Prop) (F : α × β → K) :
    (((m ×ˢ n).filter A).map F).sum = (m.map fun x => ((n.filter fun y => A (x, y)).map fun y => F (x, y)).sum).sum := by
  rw [filter_map_sum]
  simp only [filter_map_sum]
  induction m using Multiset.induction_on with
  | empty => simp
  | cons x m ih =>
    rw [Multiset.cons_product, Multiset.map_add, Multiset.sum_add, ih, Multiset.map_cons, Multiset.sum_cons, Multiset.map_map]
    rfl

end

end TreeCorr
