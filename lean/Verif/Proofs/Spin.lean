import Verif.Model.Spin
import Verif.Spec.Spin
import Verif.Props.AngleSlop
import Verif.Proofs.LinearExact

/-! Projection factors of spin fields and sums of them. -/

namespace TreeCorr
open Classical ComplexConjugate
noncomputable section

/-! ### The factor -/

/-- The unit vector along `r` (0 for 0). -/
def dirOf (r : ℂ) : ℂ := r / (‖r‖ : ℂ)

theorem dirOf_zero : dirOf 0 = 0 := by simp [dirOf]

theorem norm_dirOf {r : ℂ} (h : r ≠ 0) : ‖dirOf r‖ = 1 := by
  rw [dirOf, norm_div, Complex.norm_real, norm_norm, div_self (norm_ne_zero_iff.2 h)]

theorem norm_dirOf_le (r : ℂ) : ‖dirOf r‖ ≤ 1 := by
  by_cases h : r = 0
  · simp [h, dirOf_zero]
  · exact (norm_dirOf h).le

theorem safeNorm_eq {r : ℂ} (h : r ≠ 0) : safeNorm r = ‖r‖ ^ 2 := by
  rw [safeNorm, if_pos (Complex.normSq_pos.2 h), Complex.normSq_eq_norm_sq]

theorem sqrt_safeNorm {r : ℂ} (h : r ≠ 0) : Real.sqrt (safeNorm r) = ‖r‖ := by
  rw [safeNorm_eq h, Real.sqrt_sq (norm_nonneg _)]

theorem expm_eq (D : Spin) (r : ℂ) : expm D r = conj (dirOf r) ^ D.s := by
  by_cases h : r = 0
  · subst h
    cases D <;> simp [expm, Spin.s, dirOf_zero]
  have hn : (‖r‖ : ℂ) ≠ 0 := by exact_mod_cast norm_ne_zero_iff.2 h
  cases D
  · simp [expm, Spin.s]
  · simp [expm, Spin.s, dirOf, sqrt_safeNorm h]
  · simp only [expm, Spin.s, dirOf, safeNorm_eq h, map_mul, map_div₀, Complex.conj_ofReal]
    push_cast
    field_simp
  · have h3 : r * r * r ≠ 0 := mul_ne_zero (mul_ne_zero h h) h
    simp only [expm, Spin.s, dirOf, sqrt_safeNorm h3, map_mul, map_div₀, Complex.conj_ofReal, norm_mul]
    push_cast
    field_simp
  · have h2 : r * r ≠ 0 := mul_ne_zero h h
    simp only [expm, Spin.s, dirOf, safeNorm_eq h2, map_mul, map_div₀, Complex.conj_ofReal, norm_mul]
    push_cast
    field_simp

theorem dirOf_exp {r : ℂ} (h : r ≠ 0) : dirOf r = Complex.exp (r.arg * Complex.I) := by
  have hn : (‖r‖ : ℂ) ≠ 0 := by exact_mod_cast norm_ne_zero_iff.2 h
  rw [dirOf, div_eq_iff hn, mul_comm]
  exact (Complex.norm_mul_exp_arg_mul_I r).symm

theorem expm_turn (D : Spin) {r : ℂ} (h : r ≠ 0) : expm D r = turn D.s r.arg := by
  rw [expm_eq, dirOf_exp h, ← Complex.exp_conj, ← Complex.exp_nat_mul, turn]
  congr 1
  simp only [map_mul, Complex.conj_ofReal, Complex.conj_I]
  ring

theorem norm_expm_le (D : Spin) (r : ℂ) : ‖expm D r‖ ≤ 1 := by
  rw [expm_eq, norm_pow, RCLike.norm_conj]
  exact pow_le_one₀ (norm_nonneg _) (norm_dirOf_le r)

theorem norm_expm (D : Spin) {r : ℂ} (h : r ≠ 0) : ‖expm D r‖ = 1 := by
  rw [expm_eq, norm_pow, RCLike.norm_conj, norm_dirOf h, one_pow]

theorem dirOf_close {u v : ℂ} {a : ℝ} (ha : 0 ≤ a) (h : ‖u - v‖ ≤ a * ‖v‖) : ‖dirOf u - dirOf v‖ ≤ 2 * a := by
  by_cases hv : v = 0
  · subst hv
    simp only [norm_zero, mul_zero, sub_zero, norm_le_zero_iff] at h
    subst h
    simp only [sub_self, norm_zero]
    linarith
  have hv0 := norm_pos_iff.2 hv
  by_cases hu : u = 0
  · subst hu
    rw [zero_sub, norm_neg] at h
    have : 1 ≤ a := by
      by_contra hc
      nlinarith
    rw [dirOf_zero, zero_sub, norm_neg, norm_dirOf hv]
    linarith
  have hu0 := norm_pos_iff.2 hu
  have hun : (‖u‖ : ℂ) ≠ 0 := by exact_mod_cast hu0.ne'
  have hvn : (‖v‖ : ℂ) ≠ 0 := by exact_mod_cast hv0.ne'
  have e : dirOf u - dirOf v = ((u - v) + dirOf u * ((‖v‖ - ‖u‖ : ℝ) : ℂ)) / (‖v‖ : ℂ) := by
    rw [dirOf, dirOf]
    push_cast
    field_simp
    ring
  rw [e, norm_div, Complex.norm_real, norm_norm, div_le_iff₀ hv0]
  have h1 : |‖v‖ - ‖u‖| ≤ ‖u - v‖ := by
    rw [norm_sub_rev]
    exact abs_norm_sub_norm_le v u
  calc ‖(u - v) + dirOf u * ((‖v‖ - ‖u‖ : ℝ) : ℂ)‖ ≤ ‖u - v‖ + ‖dirOf u * ((‖v‖ - ‖u‖ : ℝ) : ℂ)‖ := norm_add_le _ _
    _ = ‖u - v‖ + |‖v‖ - ‖u‖| := by rw [norm_mul, norm_dirOf hu, one_mul, Complex.norm_real, Real.norm_eq_abs]
    _ ≤ 2 * a * ‖v‖ := by linarith

theorem pow_close {x y : ℂ} (hx : ‖x‖ ≤ 1) (hy : ‖y‖ ≤ 1) (n : ℕ) : ‖x ^ n - y ^ n‖ ≤ n * ‖x - y‖ := by
  induction n with
  | zero => simp
  | succ n ih =>
    have e : x ^ (n + 1) - y ^ (n + 1) = x ^ n * (x - y) + (x ^ n - y ^ n) * y := by ring
    have h1 : ‖x ^ n‖ ≤ 1 := by rw [norm_pow]; exact pow_le_one₀ (norm_nonneg _) hx
    rw [e]
    calc ‖x ^ n * (x - y) + (x ^ n - y ^ n) * y‖ ≤ ‖x ^ n‖ * ‖x - y‖ + ‖x ^ n - y ^ n‖ * ‖y‖ := by
          rw [← norm_mul, ← norm_mul]; exact norm_add_le _ _
      _ ≤ 1 * ‖x - y‖ + (n * ‖x - y‖) * 1 := by
          gcongr
      _ = ((n + 1 : ℕ) : ℝ) * ‖x - y‖ := by push_cast; ring

theorem expm_close (D : Spin) {u v : ℂ} {a : ℝ} (ha : 0 ≤ a) (h : ‖u - v‖ ≤ a * ‖v‖) : ‖expm D v - expm D u‖ ≤ 2 * D.s * a := by
  rw [expm_eq, expm_eq]
  have h1 := pow_close (x := conj (dirOf v)) (y := conj (dirOf u)) (by rw [RCLike.norm_conj]; exact norm_dirOf_le v)
    (by rw [RCLike.norm_conj]; exact norm_dirOf_le u) D.s
  rw [← map_sub, RCLike.norm_conj, norm_sub_rev (dirOf v)] at h1
  have h2 := dirOf_close ha h
  have h3 : (0 : ℝ) ≤ D.s := Nat.cast_nonneg _
  nlinarith

theorem cplx_sub_norm (p q : Plane) : ‖cplx p - cplx q‖ = dist p q := by
  rw [EuclideanSpace.dist_eq, Complex.norm_def, Complex.normSq_apply]
  congr 1
  simp only [Fin.sum_univ_two, Real.dist_eq, sq_abs, cplx, Complex.sub_re, Complex.sub_im]
  ring

theorem cplx_ne {p q : Plane} (h : 0 < dist p q) : cplx q - cplx p ≠ 0 := by
  rw [← norm_pos_iff, cplx_sub_norm, dist_comm]
  exact h

theorem flatFactor_turn (D : Spin) {p q : Plane} (h : 0 < dist p q) : flatFactor D p q = turn D.s (lineAngle p q) :=
  expm_turn D (cplx_ne h)

theorem flatFactor_close (D : Spin) {a : ℝ} (ha : 0 ≤ a) {o1 o2 c1 c2 : Plane}
    (h : dist o1 c1 + dist o2 c2 ≤ a * dist c1 c2) : ‖flatFactor D c1 c2 - flatFactor D o1 o2‖ ≤ 2 * D.s * a := by
  apply expm_close D ha
  rw [cplx_sub_norm, dist_comm c2 c1]
  have e : cplx o2 - cplx o1 - (cplx c2 - cplx c1) = (cplx o2 - cplx c2) - (cplx o1 - cplx c1) := by ring
  rw [e]
  calc ‖(cplx o2 - cplx c2) - (cplx o1 - cplx c1)‖ ≤ ‖cplx o2 - cplx c2‖ + ‖cplx o1 - cplx c1‖ := norm_sub_le _ _
    _ ≤ a * dist c1 c2 := by rw [cplx_sub_norm, cplx_sub_norm]; linarith

theorem norm_turn (s : ℕ) (α : ℝ) : ‖turn s α‖ = 1 := by
  have : -((s : ℂ) * (α : ℂ)) * Complex.I = ((-(s * α) : ℝ) : ℂ) * Complex.I := by push_cast; ring
  rw [turn, this, Complex.norm_exp_ofReal_mul_I]

theorem turn_mul_conj (s : ℕ) (α : ℝ) : turn s α * conj (turn s α) = 1 := by
  rw [Complex.mul_conj, Complex.normSq_eq_norm_sq, norm_turn]
  norm_num

/-- The factor at the centres and the turn for the objects. -/
theorem flatFactor_turn_close (D : Spin) {a : ℝ} (ha : 0 ≤ a) {o1 o2 c1 c2 : Plane} (hc : 0 < dist c1 c2)
    (h : dist o1 c1 + dist o2 c2 ≤ a * dist c1 c2) : ‖flatFactor D c1 c2 - turn D.s (lineAngle o1 o2)‖ ≤ 2 * D.s * a := by
  by_cases ho : 0 < dist o1 o2
  · rw [← flatFactor_turn D ho]
    exact flatFactor_close D ha h
  have h0 : dist o1 o2 = 0 := le_antisymm (not_lt.1 ho) dist_nonneg
  have ha1 : 1 ≤ a := by
    have t1 := dist_triangle c1 o1 c2
    have t2 := dist_triangle o1 o2 c2
    rw [dist_comm c1 o1] at t1
    by_contra hlt
    nlinarith
  rcases Nat.eq_zero_or_pos D.s with hs | hs
  · have : D = .Z := by cases D <;> simp_all [Spin.s]
    subst this
    simp [flatFactor, expm, turn, Spin.s]
  · have hs1 : (1 : ℝ) ≤ D.s := by exact_mod_cast hs
    calc _ ≤ ‖flatFactor D c1 c2‖ + ‖turn D.s (lineAngle o1 o2)‖ := norm_sub_le _ _
      _ ≤ 1 + 1 := add_le_add (norm_expm_le _ _) (norm_turn _ _).le
      _ ≤ 2 * D.s * a := by nlinarith

/-! ### Sums -/

variable {P : Type}

theorem sum_product_mul_ring {α β R : Type} [CommSemiring R] (f : α → R) (g : β → R) (xs : List α) (ys : List β) :
    (((xs : Multiset α) ×ˢ (ys : Multiset β)).map (fun q => f q.1 * g q.2)).sum = (xs.map f).sum * (ys.map g).sum := by
  change ((crossPairs xs ys).map (fun q => f q.1 * g q.2)).sum = _
  induction xs with
  | nil => simp
  | cons x xs ih =>
    have h1 : crossPairs (x :: xs) ys = crossPairs [x] ys + crossPairs xs ys := crossPairs_append_left [x] xs ys
    rw [h1, Multiset.map_add, Multiset.sum_add, ih, crossPairs_singleton, Multiset.map_coe,
      Multiset.sum_coe, List.map_map, List.map_cons, List.sum_cons, add_mul]
    congr 1
    have : ((fun q : α × β => f q.1 * g q.2) ∘ fun y => (x, y)) = fun y => f x * g y := rfl
    rw [this, List.sum_map_mul_left]

theorem addC_fold (val : Emit P → ℂ) (es : List (Emit P)) (f : ℤ → ℂ) (k : ℤ) :
    (es.foldl (fun f e => addC f e.k none (val e)) f) k = f k + ((es.filter fun e => e.k = k).map val).sum := by
  induction es generalizing f with
  | nil => simp
  | cons e es ih =>
    rw [List.foldl_cons, ih]
    by_cases h : e.k = k
    · simp [addC, h, add_assoc]
    · simp [addC, h]

theorem norm_sum_sub_le {α : Type} (S : Multiset α) (F : α → ℂ) (E : α → ℂ) (G : α → ℝ) (h : ∀ q ∈ S, ‖E q - F q‖ ≤ G q) :
    ‖(S.map E).sum - (S.map F).sum‖ ≤ (S.map G).sum := by
  induction S using Multiset.induction_on with
  | empty => simp
  | cons x S ih =>
    simp only [Multiset.map_cons, Multiset.sum_cons]
    have h1 := h x (Multiset.mem_cons_self x S)
    have h2 := ih (fun q hq => h q (Multiset.mem_cons_of_mem hq))
    calc _ = ‖(E x - F x) + ((S.map E).sum - (S.map F).sum)‖ := by congr 1; ring
      _ ≤ _ := norm_add_le _ _
      _ ≤ _ := add_le_add h1 h2

/-- If the value of every call is near a sum over its pairs, the array is near the sum over the pairs at the bin. -/
theorem near_pairsAt (es : List (Emit P)) (k : ℤ) (val : Emit P → ℂ) (F : Obj P × Obj P → ℂ) (G : Obj P × Obj P → ℝ)
    (h : ∀ e ∈ es, e.k = k → ‖val e - (e.pairs.map F).sum‖ ≤ (e.pairs.map G).sum) :
    ‖((es.filter fun e => e.k = k).map val).sum - ((pairsAt es k).map F).sum‖ ≤ ((pairsAt es k).map G).sum := by
  induction es with
  | nil => simp [pairsAt, pairsOf]
  | cons e es ih =>
    have ih' := ih (fun e he => h e (List.mem_cons_of_mem _ he))
    rw [pairsAt_cons]
    by_cases hk : e.k = k
    · have h1 := h e (by simp) hk
      rw [if_pos hk]
      simp only [hk, List.filter_cons, decide_true, if_true, List.map_cons, List.sum_cons, Multiset.map_add, Multiset.sum_add]
      calc _ = ‖(val e - (e.pairs.map F).sum) + (((es.filter fun e => e.k = k).map val).sum - ((pairsAt es k).map F).sum)‖ := by
            congr 1; ring
        _ ≤ _ := norm_add_le _ _
        _ ≤ _ := add_le_add h1 ih'
    · simpa [hk] using ih'

/-- A call whose value is a sum over its pairs with the factors taken at the centres. -/
theorem near_pairs {e : Emit P} {val : ℂ} {E F : Obj P × Obj P → ℂ} {G : Obj P × Obj P → ℝ} (hv : val = (e.pairs.map E).sum)
    (h : ∀ o1 ∈ e.c1.objs, ∀ o2 ∈ e.c2.objs, ‖E (o1, o2) - F (o1, o2)‖ ≤ G (o1, o2)) :
    ‖val - (e.pairs.map F).sum‖ ≤ (e.pairs.map G).sum := by
  rw [hv]
  apply norm_sum_sub_le
  rintro ⟨o1, o2⟩ hq
  have : o1 ∈ e.c1.objs ∧ o2 ∈ e.c2.objs := by simpa [Emit.pairs, Multiset.mem_product] using hq
  exact h o1 this.1 o2 this.2

/-! ### The calls of a run -/

/-- Only pairs of cells with distinct centres are in range. -/
def ApartTest (B : BinHelper P) (p : Params) : Prop := ∀ rsq p1 p2, B.inRange rsq p1 p2 p → 0 < rsq

theorem log_apart {p : Params} (hm : 0 < p.minsep) : ApartTest (logBin P) p := by
  intro rsq p1 p2 h
  have := h.1
  nlinarith

theorem linear_apart {p : Params} (hm : 0 < p.minsep) : ApartTest (linearBin P) p := by
  intro rsq p1 p2 h
  have := h.1
  nlinarith

theorem direct_pos [PseudoMetricSpace P] {B : BinHelper P} {prm : Params} (hm : ApartTest B prm) {R : Bool} {c1 c2 : Cell P}
    {e : Emit P} (h : decide11 B (plainMetric P) prm R c1 c2 = .direct e) : 0 < dist c1.pos c2.pos := by
  rw [decide11_plain] at h
  split at h
  · cases h
  split at h
  · cases h
  split at h
  · cases h
  split at h
  · split at h
    · rename_i hr
      have h1 := hm _ _ _ hr
      by_contra hc
      have h0 : dist c1.pos c2.pos = 0 := le_antisymm (not_lt.1 hc) dist_nonneg
      rw [h0] at h1
      norm_num at h1
    · cases h
  · cases h

/-- What is known of every call of a run over trees with `min_size = 0`. -/
structure SpinCall (a : ℝ) (e : Emit Plane) : Prop where
  sums : e.c1.SumsOK ∧ e.c2.SumsOK
  sep : 0 < dist e.c1.pos e.c2.pos
  angle : ∀ o1 ∈ e.c1.objs, ∀ o2 ∈ e.c2.objs, dist o1.pos e.c1.pos + dist o2.pos e.c2.pos ≤ a * dist e.c1.pos e.c2.pos

theorem cross_spinCalls (A1 A2 : StdAlg Plane) (fp1 fp2 : FieldParams) (hf1 : fp1.minsize = 0) (hf2 : fp2.minsize = 0)
    {B : BinHelper Plane} (hB : AngleTest B) (p : Params) (ha : 0 ≤ p.a) (hm : ApartTest B p) (l1 l2 : List (Obj Plane)) (es : List (Emit Plane))
    (h : processCross B (plainMetric _) p (buildField A1 (euclidGeom 2) fp1 l1) (buildField A2 (euclidGeom 2) fp2 l2) = some es) :
    ∀ e ∈ es, e.k2 = none ∧ SpinCall p.a e := by
  have hang := cross_angle_slop A1 A2 (euclidGeom 2) (euclidGeom_dominates 2) fp1 fp2 hf1 hf2 hB p ha l1 l2 es h
  unfold processCross at h
  split at h
  · cases h; simp
  obtain ⟨D, -, he, -⟩ := crossLoop_covers _ (decide11_honest _ _ _ _) _ _ hered_sumsOK hered_sumsOK _ _
    (fun c hc => (buildField_bounded A1 (euclidGeom 2) (euclidGeom_dominates 2) fp1 hf1.ge l1 c hc).2)
    (fun c hc => (buildField_bounded A2 (euclidGeom 2) (euclidGeom_dominates 2) fp2 hf2.ge l2 c hc).2) es h
  intro e hmem
  obtain ⟨a, b, qa, qb, hab⟩ := he e hmem
  obtain ⟨e1, e2⟩ := decide11_honest _ _ _ _ a b e hab
  exact ⟨decide11_k2_none _ _ _ hab, ⟨by rw [e1, e2]; exact ⟨qa, qb⟩, by rw [e1, e2]; exact direct_pos hm hab, hang e hmem⟩⟩

theorem auto_spinCalls (A : StdAlg Plane) (fp : FieldParams) (hf : fp.minsize = 0)
    {B : BinHelper Plane} (hB : AngleTest B) (p : Params) (ha : 0 ≤ p.a) (hm : ApartTest B p) (l : List (Obj Plane)) (es : List (Emit Plane))
    (h : processAuto (decide11 B (plainMetric _) p false) p (buildField A (euclidGeom 2) fp l).cells = some es) :
    ∀ e ∈ es, e.k2 = none ∧ SpinCall p.a e := by
  have hang := auto_angle_slop A (euclidGeom 2) (euclidGeom_dominates 2) fp hf hB p ha false l es h
  obtain ⟨D, D2, -, he, -, -⟩ := processAuto_covers _ (decide11_honest _ _ _ _) p _ hered_sumsOK _
    (fun c hc => (buildField_bounded A (euclidGeom 2) (euclidGeom_dominates 2) fp hf.ge l c hc).2) es h
  intro e hmem
  obtain ⟨a, b, qa, qb, hab⟩ := he e hmem
  obtain ⟨e1, e2⟩ := decide11_honest _ _ _ _ a b e hab
  exact ⟨decide11_k2_none _ _ _ hab, ⟨by rw [e1, e2]; exact ⟨qa, qb⟩, by rw [e1, e2]; exact direct_pos hm hab, hang e hmem⟩⟩

/-- The sign of the accumulated projection: tangential for shears, radial for the others. -/
def spinSign (D : Spin) : ℂ := if D = .G then -1 else 1

theorem norm_spinSign (D : Spin) : ‖spinSign D‖ = 1 := by
  unfold spinSign
  split <;> simp

theorem processNZ_fold (D : Spin) (a : Cell Plane → ℝ) (z : Cell Plane → ℂ) (es : List (Emit Plane)) (k : ℤ) :
    (es.foldl (processNZ D a z (flatFactor D)) (fun _ => 0)) k
      = ((es.filter fun e => e.k = k).map fun e => spinSign D * ((a e.c1 : ℂ) * (z e.c2 * flatFactor D e.c1.pos e.c2.pos))).sum := by
  have : processNZ D a z (flatFactor D)
      = fun f e => addC f e.k none (spinSign D * ((a e.c1 : ℂ) * (z e.c2 * flatFactor D e.c1.pos e.c2.pos))) := by
    funext f e
    unfold processNZ spinSign
    simp only
    congr 1
    split <;> ring
  rw [this, addC_fold, zero_add]

theorem nz_call (D : Spin) {a : ℝ} (ha : 0 ≤ a) {e : Emit Plane} (he : SpinCall a e) {ac : Cell Plane → ℝ} {ao : Obj Plane → ℝ}
    (hac : ac e.c1 = (e.c1.objs.map ao).sum) (z : Obj Plane → ℂ) :
    ‖spinSign D * ((ac e.c1 : ℂ) * (simpleSum z e.c2 * flatFactor D e.c1.pos e.c2.pos))
        - (e.pairs.map fun q => spinSign D * ((ao q.1 : ℂ) * (z q.2 * turn D.s (lineAngle q.1.pos q.2.pos)))).sum‖
      ≤ (e.pairs.map fun q => 2 * D.s * a * (|ao q.1| * ‖z q.2‖)).sum := by
  apply near_pairs (E := fun q => (spinSign D * flatFactor D e.c1.pos e.c2.pos * (ao q.1 : ℂ)) * z q.2)
  · rw [Emit.pairs, sum_product_mul_ring (fun o => spinSign D * flatFactor D e.c1.pos e.c2.pos * (ao o : ℂ)) z,
      List.sum_map_mul_left, hac, simpleSum]
    have : (((e.c1.objs.map ao).sum : ℝ) : ℂ) = (e.c1.objs.map fun o => (ao o : ℂ)).sum := by
      rw [← Complex.ofRealHom_eq_coe, map_list_sum, List.map_map]
      rfl
    rw [this]
    ring
  · intro o1 h1 o2 h2
    have hf := flatFactor_turn_close D ha he.sep (he.angle o1 h1 o2 h2)
    have e1 : (spinSign D * flatFactor D e.c1.pos e.c2.pos * (ao o1 : ℂ)) * z o2 - spinSign D * ((ao o1 : ℂ) * (z o2 * turn D.s (lineAngle o1.pos o2.pos)))
        = spinSign D * ((ao o1 : ℂ) * z o2) * (flatFactor D e.c1.pos e.c2.pos - turn D.s (lineAngle o1.pos o2.pos)) := by ring
    simp only
    rw [e1, norm_mul, norm_mul, norm_spinSign, one_mul, norm_mul, Complex.norm_real, Real.norm_eq_abs, mul_comm]
    exact mul_le_mul_of_nonneg_right hf (by positivity)

theorem processZZ_fold (f z1 z2) (es : List (Emit Plane)) (A : SpinAcc) (k : ℤ) :
    (es.foldl (processZZ z1 z2 f f) A).xip k = A.xip k
        + ((es.filter fun e => e.k = k).map fun e => (z1 e.c1 * f e.c1.pos e.c2.pos) * conj (z2 e.c2 * f e.c1.pos e.c2.pos)).sum
        + ((es.filter fun e => e.k2 = some k).map fun e => (z1 e.c1 * f e.c1.pos e.c2.pos) * conj (z2 e.c2 * f e.c1.pos e.c2.pos)).sum ∧
    (es.foldl (processZZ z1 z2 f f) A).xim k = A.xim k
        + ((es.filter fun e => e.k = k).map fun e => (z1 e.c1 * f e.c1.pos e.c2.pos) * (z2 e.c2 * f e.c1.pos e.c2.pos)).sum
        + ((es.filter fun e => e.k2 = some k).map fun e => (z1 e.c1 * f e.c1.pos e.c2.pos) * (z2 e.c2 * f e.c1.pos e.c2.pos)).sum := by
  induction es generalizing A with
  | nil => simp
  | cons e es ih =>
    obtain ⟨i1, i2⟩ := ih (processZZ z1 z2 f f A e)
    rw [List.foldl_cons, i1, i2]
    have h1 : ∀ x y : ℂ, (⟨x.re * y.re + x.im * y.im, x.im * y.re - x.re * y.im⟩ : ℂ) = x * conj y := by
      intro x y
      apply Complex.ext <;> simp [Complex.mul_re, Complex.mul_im] 
      ring
    have h2 : ∀ x y : ℂ, (⟨x.re * y.re - x.im * y.im, x.im * y.re + x.re * y.im⟩ : ℂ) = x * y := by
      intro x y
      apply Complex.ext <;> simp [Complex.mul_re, Complex.mul_im]
      ring
    simp only [processZZ, h1, h2, addC, List.filter_cons]
    constructor <;>
    · by_cases hk : e.k = k <;> by_cases hk2 : e.k2 = some k <;> simp [hk, hk2] <;> ring

theorem zz_call_p (D : Spin) {a : ℝ} {e : Emit Plane} (he : SpinCall a e) (z1 z2 : Obj Plane → ℂ) :
    (simpleSum z1 e.c1 * flatFactor D e.c1.pos e.c2.pos) * conj (simpleSum z2 e.c2 * flatFactor D e.c1.pos e.c2.pos)
      = (e.pairs.map fun q => z1 q.1 * turn D.s (lineAngle q.1.pos q.2.pos) * conj (z2 q.2 * turn D.s (lineAngle q.1.pos q.2.pos))).sum := by
  have h1 : ∀ q : Obj Plane × Obj Plane, z1 q.1 * turn D.s (lineAngle q.1.pos q.2.pos) * conj (z2 q.2 * turn D.s (lineAngle q.1.pos q.2.pos))
      = z1 q.1 * conj (z2 q.2) := by
    intro q
    rw [map_mul]
    linear_combination z1 q.1 * conj (z2 q.2) * turn_mul_conj D.s (lineAngle q.1.pos q.2.pos)
  rw [Multiset.map_congr rfl (fun q _ => h1 q), Emit.pairs, sum_product_mul_ring z1 (fun o => conj (z2 o)), flatFactor_turn D he.sep]
  have h2 : (e.c2.objs.map fun o => conj (z2 o)).sum = conj (simpleSum z2 e.c2) := by
    rw [simpleSum, map_list_sum, List.map_map]
    rfl
  rw [h2, map_mul]
  simp only [simpleSum]
  linear_combination (e.c1.objs.map z1).sum * conj ((e.c2.objs.map z2).sum) * turn_mul_conj D.s (lineAngle e.c1.pos e.c2.pos)

theorem zz_call_m (D : Spin) {a : ℝ} (ha : 0 ≤ a) {e : Emit Plane} (he : SpinCall a e) (z1 z2 : Obj Plane → ℂ) :
    ‖(simpleSum z1 e.c1 * flatFactor D e.c1.pos e.c2.pos) * (simpleSum z2 e.c2 * flatFactor D e.c1.pos e.c2.pos)
        - (e.pairs.map fun q => z1 q.1 * turn D.s (lineAngle q.1.pos q.2.pos) * (z2 q.2 * turn D.s (lineAngle q.1.pos q.2.pos))).sum‖
      ≤ (e.pairs.map fun q => 4 * D.s * a * (‖z1 q.1‖ * ‖z2 q.2‖)).sum := by
  set f := flatFactor D e.c1.pos e.c2.pos with hfdef
  apply near_pairs (E := fun q => (f ^ 2 * z1 q.1) * z2 q.2)
  · rw [Emit.pairs, sum_product_mul_ring (fun o => f ^ 2 * z1 o) z2, List.sum_map_mul_left, simpleSum, simpleSum]
    ring
  · intro o1 h1 o2 h2
    have hf := flatFactor_turn_close D ha he.sep (he.angle o1 h1 o2 h2)
    rw [← hfdef] at hf
    set t := turn D.s (lineAngle o1.pos o2.pos) with ht
    have hf1 : ‖f‖ ≤ 1 := norm_expm_le _ _
    have ht1 : ‖t‖ ≤ 1 := (norm_turn _ _).le
    have h3 : ‖f ^ 2 - t ^ 2‖ ≤ 4 * D.s * a := by
      have := pow_close hf1 ht1 2
      push_cast at this
      linarith
    have e1 : (f ^ 2 * z1 o1) * z2 o2 - z1 o1 * t * (z2 o2 * t) = (f ^ 2 - t ^ 2) * (z1 o1 * z2 o2) := by ring
    simp only
    rw [e1, norm_mul, norm_mul]
    exact mul_le_mul_of_nonneg_right h3 (by positivity)

theorem filter_none (es : List (Emit Plane)) (h : ∀ e ∈ es, e.k2 = none) (k : ℤ) : (es.filter fun e => e.k2 = some k) = [] := by
  rw [List.filter_eq_nil_iff]
  intro e he
  simp [h e he]

theorem sum_eq_pairsAt (es : List (Emit P)) (k : ℤ) (val : Emit P → ℂ) (F : Obj P × Obj P → ℂ)
    (h : ∀ e ∈ es, val e = (e.pairs.map F).sum) :
    ((es.filter fun e => e.k = k).map val).sum = ((pairsAt es k).map F).sum := by
  have := near_pairsAt es k val F (fun _ => 0) (fun e he _ => by rw [h e he]; simp)
  simpa [sub_eq_zero] using this

/-- The arrays of a run, in terms of the pairs counted in the bin. -/
theorem spin_counted (D : Spin) {a : ℝ} (ha : 0 ≤ a) {es : List (Emit Plane)} (h : ∀ e ∈ es, e.k2 = none ∧ SpinCall a e) (k : ℤ)
    (z1 z2 : Obj Plane → ℂ) :
    (es.foldl (processZZ (simpleSum z1) (simpleSum z2) (flatFactor D) (flatFactor D)) SpinAcc.zero).xip k
      = bruteXip D.s z1 z2 (pairsAt es k) ∧
    ‖(es.foldl (processZZ (simpleSum z1) (simpleSum z2) (flatFactor D) (flatFactor D)) SpinAcc.zero).xim k
      - bruteXim D.s z1 z2 (pairsAt es k)‖ ≤ 4 * D.s * a * bruteAbs2 z1 z2 (pairsAt es k) := by
  obtain ⟨f1, f2⟩ := processZZ_fold (flatFactor D) (simpleSum z1) (simpleSum z2) es SpinAcc.zero k
  rw [f1, f2, filter_none es (fun e he => (h e he).1)]
  simp only [SpinAcc.zero, zero_add, List.map_nil, List.sum_nil, add_zero]
  refine ⟨sum_eq_pairsAt es k _ _ (fun e he => zz_call_p D (h e he).2 z1 z2), ?_⟩
  rw [bruteAbs2, ← Multiset.sum_map_mul_left]
  exact near_pairsAt es k _ _ _ (fun e he _ => zz_call_m D ha (h e he).2 z1 z2)

theorem radial_counted (D : Spin) {a : ℝ} (ha : 0 ≤ a) {es : List (Emit Plane)} (h : ∀ e ∈ es, e.k2 = none ∧ SpinCall a e) (k : ℤ)
    {ac : Cell Plane → ℝ} {ao : Obj Plane → ℝ} (hac : ∀ e ∈ es, ac e.c1 = (e.c1.objs.map ao).sum) (z : Obj Plane → ℂ) :
    ‖(es.foldl (processNZ D ac (simpleSum z) (flatFactor D)) (fun _ => 0)) k - spinSign D * bruteRadial D.s ao z (pairsAt es k)‖
      ≤ 2 * D.s * a * bruteAbs ao z (pairsAt es k) := by
  rw [processNZ_fold, bruteRadial, bruteAbs, ← Multiset.sum_map_mul_left, ← Multiset.sum_map_mul_left]
  exact near_pairsAt es k _ _ _ (fun e he _ => nz_call D ha (h e he).2 (hac e he) z)

/-- Pairs with weight zero do not matter. -/
theorem sum_zero_pairs {α M : Type} [AddCommMonoid M] {S D T : Multiset α} (h : S + D = T) (F : α → M) (hF : ∀ q ∈ D, F q = 0) :
    (S.map F).sum = (T.map F).sum := by
  rw [← h, Multiset.map_add, Multiset.sum_add, Multiset.map_congr rfl hF]
  simp

theorem autoPairs_perm_sum_monoid {α M : Type} [AddCommMonoid M] {a b : List α} (h : a.Perm b) (F : α × α → M)
    (hF : ∀ x y, F (x, y) = F (y, x)) : ((autoPairs a).map F).sum = ((autoPairs b).map F).sum := by
  induction h with
  | nil => rfl
  | cons x h ih =>
    simp only [autoPairs, Multiset.map_add, Multiset.sum_add, ih]
    congr 1
    simp only [Multiset.map_coe, Multiset.sum_coe, List.map_map]
    exact (h.map _).sum_eq
  | swap x y l =>
    simp only [autoPairs, Multiset.map_add, Multiset.sum_add, Multiset.map_coe, Multiset.sum_coe,
      List.map_map, List.map_cons, List.sum_cons]
    rw [hF y x]
    abel
  | trans _ _ ih1 ih2 => exact ih1.trans ih2

/-! ### The pairs of the bins, without slop -/

theorem cross_pairs_of [PseudoMetricSpace P] (A1 A2 : StdAlg P) (g : Geom P) (hg : g.Dominates)
    (fp1 fp2 : FieldParams) (hf1 : fp1.minsize = 0) (hf2 : fp2.minsize = 0) {B : BinHelper P}
    {p : Params} {inBin : ℤ → ℝ → Prop} (l1 l2 : List (Obj P)) (hx : BinExact B p inBin l1 l2)
    (hw1 : ∀ o ∈ l1, o.Valid) (hw2 : ∀ o ∈ l2, o.Valid) :
    ∃ es, processCross B (plainMetric P) p (buildField A1 g fp1 l1) (buildField A2 g fp2 l2) = some es ∧
      ∀ k, ∃ D, pairsAt es k + D = pairsIn (crossPairs l1 l2) (inBin k) ∧ ∀ q ∈ D, ZeroPair q := by
  have g1 := buildField_cellOf A1 g hg fp1 hf1 l1 hw1
  have g2 := buildField_cellOf A2 g hg fp2 hf2 l2 hw2
  by_cases hfar : fieldsTooFar B (plainMetric P) p (buildField A1 g fp1 l1) (buildField A2 g fp2 l2)
  · refine ⟨[], by rw [processCross, if_pos hfar], fun k => ⟨0, ?_, by simp⟩⟩
    have : pairsIn (crossPairs l1 l2) (inBin k) = 0 := by
      rw [pairsIn, Multiset.filter_eq_nil]
      intro q hq
      rw [mem_crossPairs] at hq
      exact hx.far _ _ hfar _ _ (buildField_center A1 g hg fp1 l1 _ hq.1)
        (buildField_center A2 g hg fp2 l2 _ hq.2) k
    rw [this]
    simp [pairsAt, pairsOf]
  · obtain ⟨es, hes, hc, hk⟩ := crossLoop_exact hx.dec (hered_cellOf l1) (hered_cellOf l2) g1 g2
    refine ⟨es, by rw [processCross, if_neg hfar]; exact hes, fun k => ?_⟩
    obtain ⟨D, hD, hz⟩ := hk k
    rw [crossPairs_perm (buildField_objs A1 g fp1 l1) (buildField_objs A2 g fp2 l2)] at hD
    exact ⟨D, hD, hz⟩

theorem auto_pairs_of [PseudoMetricSpace P] (A : StdAlg P) (g : Geom P) (hg : g.Dominates)
    (fp : FieldParams) (hf : fp.minsize = 0) {B : BinHelper P} {p : Params} {inBin : ℤ → ℝ → Prop}
    (l : List (Obj P)) (hx : BinExact B p inBin l l) (hw : ∀ o ∈ l, o.Valid)
    (hmin : ∀ q ∈ autoPairs l, dist q.1.pos q.2.pos ≠ p.minsep) :
    ∃ es, processAuto (decide11 B (plainMetric P) p false) p (buildField A g fp l).cells = some es ∧
      ∀ k, ∃ D, pairsAt es k + D = pairsIn (autoPairs (objsOf (buildField A g fp l).cells)) (inBin k) ∧ ∀ q ∈ D, ZeroPair q := by
  have g1 := buildField_cellOf A g hg fp hf l hw
  have hperm := buildField_objs A g fp l
  have hmin' : ∀ q ∈ autoPairs (objsOf (buildField A g fp l).cells), dist q.1.pos q.2.pos ≠ p.minsep := by
    intro q hq heq
    have h1 := autoPairs_perm_sum_monoid hperm
      (fun q : Obj P × Obj P => if dist q.1.pos q.2.pos = p.minsep then (1 : ℕ) else 0)
      (fun x y => by simp only [dist_comm x.pos y.pos])
    have h2 : ((autoPairs l).map
        (fun q : Obj P × Obj P => if dist q.1.pos q.2.pos = p.minsep then (1 : ℕ) else 0)).sum = 0 := by
      apply Multiset.sum_eq_zero
      intro x hx
      obtain ⟨q', hq', rfl⟩ := Multiset.mem_map.1 hx
      simp [hmin q' hq']
    rw [h2] at h1
    obtain ⟨t, ht⟩ := Multiset.exists_cons_of_mem hq
    rw [ht, Multiset.map_cons, Multiset.sum_cons, if_pos heq] at h1
    omega
  obtain ⟨es, hes, hc, hk⟩ := processAuto_exact (prm := p) hx.dec (hered_cellOf l) hx.minsep g1 (by
    intro c hc hcase q hq h1 h2 k hin
    rcases hcase with h | h
    · exact Or.inl (hc.1.zero h h1)
    · have d1 := hc.1.1.1.dist_le le_rfl h1
      have d2 := hc.1.1.1.dist_le le_rfl h2
      have d3 := dist_triangle_right q.1.pos q.2.pos c.pos
      exact absurd (le_antisymm (by linarith) (hx.min _ _ hin)) (hmin' q hq))
  exact ⟨es, hes, hk⟩

theorem pairsIn_auto_sum [PseudoMetricSpace P] {M : Type} [AddCommMonoid M] {a b : List (Obj P)} (h : a.Perm b) (inBin : ℝ → Prop)
    (F : Obj P × Obj P → M) (hF : ∀ x y, F (x, y) = F (y, x)) :
    ((pairsIn (autoPairs a) inBin).map F).sum = ((pairsIn (autoPairs b) inBin).map F).sum := by
  have key : ∀ S : Multiset (Obj P × Obj P), ((pairsIn S inBin).map F).sum
      = (S.map fun q => if inBin (dist q.1.pos q.2.pos) then F q else 0).sum := by
    intro S
    unfold pairsIn
    induction S using Multiset.induction_on with
    | empty => simp
    | cons x S ih =>
      by_cases hx : inBin (dist x.1.pos x.2.pos)
      · simp [hx, ih]
      · simp [hx, ih]
  rw [key, key]
  apply autoPairs_perm_sum_monoid h
  intro x y
  simp only [dist_comm x.pos y.pos, hF x y]

theorem bruteXip_eq (s : ℕ) (z1 z2 : Obj Plane → ℂ) (S : Multiset (Obj Plane × Obj Plane)) :
    bruteXip s z1 z2 S = (S.map fun q => z1 q.1 * conj (z2 q.2)).sum := by
  unfold bruteXip
  congr 1
  apply Multiset.map_congr rfl
  intro q _
  rw [map_mul]
  linear_combination z1 q.1 * conj (z2 q.2) * turn_mul_conj s (lineAngle q.1.pos q.2.pos)

/-- The direction of the reversed pair differs by half a turn, which does not change a product of two spin-`s` quantities. -/
theorem turn_sq_comm (s : ℕ) (p q : Plane) : turn s (lineAngle p q) ^ 2 = turn s (lineAngle q p) ^ 2 := by
  by_cases h : 0 < dist p q
  · have h' : 0 < dist q p := by rwa [dist_comm]
    have e : ∀ {a b : Plane}, 0 < dist a b → turn s (lineAngle a b) = conj (dirOf (cplx b - cplx a)) ^ s := by
      intro a b hab
      have := expm_turn .V (cplx_ne hab)
      rw [dirOf_exp (cplx_ne hab), ← Complex.exp_conj, ← Complex.exp_nat_mul, turn, lineAngle]
      congr 1
      simp only [map_mul, Complex.conj_ofReal, Complex.conj_I]
      have : (cplx b - cplx a).arg = Complex.arg ⟨b 0 - a 0, b 1 - a 1⟩ := rfl
      rw [this]
      ring
    have e2 : dirOf (cplx p - cplx q) = -dirOf (cplx q - cplx p) := by
      rw [dirOf, dirOf, ← neg_sub (cplx q), norm_neg, neg_div]
    rw [e h, e h', e2, map_neg, ← pow_mul, ← pow_mul, mul_comm s 2, pow_mul, pow_mul, neg_sq]
  · have h0 : dist p q = 0 := le_antisymm (not_lt.1 h) dist_nonneg
    rw [dist_eq_zero.1 h0]

end
end TreeCorr
