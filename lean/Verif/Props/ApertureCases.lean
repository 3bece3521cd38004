import Verif.Props.Aperture
import Verif.Model.Spin
import Mathlib.Analysis.Complex.ExponentialBounds

/-!
C71: relations between the returned values, their variances, wrong documentation, bins that are not logarithmic, and
examples.
-/

namespace TreeCorr.Aperture

open MeasureTheory Set
open scoped ComplexConjugate Real

/-! ### Relations between the returned values -/

/-- The correlations after every shear is turned by 45 degrees. -/
def GGBin.turned (b : GGBin) : GGBin := { b with xim := -b.xim, ximIm := -b.ximIm }

/-- What turning every shear by 45 degrees does to the sums of a `GGCorrelation`: nothing to `xip` and a change of
sign of `xim`, whatever pairs of cells are counted. -/
theorem turned_sums {P : Type} (z1 z2 : Cell P → ℂ) (f1 f2 : P → P → ℂ) (es : List (Emit P)) (A B : SpinAcc)
    (hp : B.xip = A.xip) (hm : B.xim = fun k => -A.xim k) :
    (es.foldl (processZZ (fun c => Complex.I * z1 c) (fun c => Complex.I * z2 c) f1 f2) B).xip =
      (es.foldl (processZZ z1 z2 f1 f2) A).xip ∧
    (es.foldl (processZZ (fun c => Complex.I * z1 c) (fun c => Complex.I * z2 c) f1 f2) B).xim =
      fun k => -(es.foldl (processZZ z1 z2 f1 f2) A).xim k := by
  induction es generalizing A B with
  | nil => exact ⟨hp, hm⟩
  | cons e es ih =>
    refine ih _ _ ?_ ?_
    · funext k
      simp only [processZZ, addC, hp, mul_assoc, Complex.mul_re, Complex.mul_im, Complex.I_re, Complex.I_im]
      split <;> split <;> · apply Complex.ext <;> simp <;> ring
    · funext k
      simp only [processZZ, addC, hm, mul_assoc, Complex.mul_re, Complex.mul_im, Complex.I_re, Complex.I_im]
      split <;> split <;> · apply Complex.ext <;> simp <;> ring

theorem dot_map {α : Type} (bins : List α) (t : α → α) (row col : α → ℝ) :
    dot (bins.map t) row col = dot bins (fun b => row (t b)) fun b => col (t b) := by
  simp [dot, Function.comp_def]

theorem dot_neg {α : Type} (bins : List α) (row col : α → ℝ) : dot bins row (fun b => -col b) = -dot bins row col := by
  induction bins with
  | nil => simp [dot]
  | cons b bs ih =>
    simp only [dot, List.map_cons, List.sum_cons] at ih ⊢
    rw [ih]
    ring

/-- Turning every shear by 45 degrees exchanges `mapsq` and `mxsq`, and `gamsq_e` and `gamsq_b`, and leaves the
variances and `gamsq` as they are. -/
theorem turned_exchange (g : GG) (f : MForm) (R : ℝ) :
    let m := mapSqAt g f R
    let m' := mapSqAt { g with bins := g.bins.map GGBin.turned } f R
    let q := gamSqAt g R
    let q' := gamSqAt { g with bins := g.bins.map GGBin.turned } R
    m'.mapsq = m.mxsq ∧ m'.mxsq = m.mapsq ∧ m'.mapsqIm = m.mxsqIm ∧ m'.mxsqIm = m.mapsqIm ∧
      m'.varmapsq = m.varmapsq ∧ q'.gamsqE = q.gamsqB ∧ q'.gamsqB = q.gamsqE ∧ q'.gamsq = q.gamsq ∧
      q'.vargamsqE = q.vargamsqE ∧ q'.vargamsq = q.vargamsq := by
  simp only [mapSqAt, gamSqAt, dot_map, GGBin.turned, dot_neg]
  refine ⟨?_, ?_, ?_, ?_, ?_, ?_, ?_, ?_, ?_, ?_⟩ <;> first | rfl | (simp only [sub_eq_add_neg, neg_neg])

/-- `gamsq` is the sum of its E and B parts. -/
theorem gamSq_parts (g : GG) (R : ℝ) : (gamSqAt g R).gamsqE + (gamSqAt g R).gamsqB = (gamSqAt g R).gamsq := by
  simp only [gamSqAt]
  ring

theorem sum_mul' {α : Type} (l : List α) (f : α → ℝ) (c : ℝ) : (l.map f).sum * c = (l.map fun b => f b * c).sum := by
  induction l with
  | nil => simp
  | cons b bs ih => simp only [List.map_cons, List.sum_cons, add_mul, ih]

theorem sum_add' {α : Type} (l : List α) (f g : α → ℝ) :
    (l.map f).sum + (l.map g).sum = (l.map fun b => f b + g b).sum := by
  induction l with
  | nil => simp
  | cons b bs ih =>
    simp only [List.map_cons, List.sum_cons, ← ih]
    ring

theorem sum_sub' {α : Type} (l : List α) (f g : α → ℝ) :
    (l.map f).sum - (l.map g).sum = (l.map fun b => f b - g b).sum := by
  induction l with
  | nil => simp
  | cons b bs ih =>
    simp only [List.map_cons, List.sum_cons, ← ih]
    ring

/-- `varmapsq` is the variance of `mapsq` and of `mxsq` for independent bins: they are linear in the correlation
functions, with coefficients `a` and `± c` that depend only on the radii, and the variance has the squares of the same
coefficients. -/
theorem mapSq_variance (f : MForm) (R binSize : ℝ) :
    ∃ a c : ℝ → ℝ, ∀ g : GG, g.binSize = binSize →
      (mapSqAt g f R).mapsq = (g.bins.map fun b => a b.meanr * b.xip + c b.meanr * b.xim).sum ∧
      (mapSqAt g f R).mxsq = (g.bins.map fun b => a b.meanr * b.xip - c b.meanr * b.xim).sum ∧
      (mapSqAt g f R).varmapsq =
        (g.bins.map fun b => a b.meanr ^ 2 * b.varxip + c b.meanr ^ 2 * b.varxim).sum := by
  refine ⟨fun r => 0.5 * binSize * (tPlus f (1 / R * r) * (1 / R * r * (1 / R * r))),
    fun r => 0.5 * binSize * (tMinus f (1 / R * r) * (1 / R * r * (1 / R * r))), fun g hg => ?_⟩
  subst hg
  simp only [mapSqAt, dot, sum_add', sum_sub', sum_mul']
  refine ⟨?_, ?_, ?_⟩ <;>
  · refine congrArg List.sum (List.map_congr_left fun b _ => ?_)
    ring

/-- The same for `calculateGamSq`. -/
theorem gamSq_variance (R binSize : ℝ) :
    ∃ a c : ℝ → ℝ, ∀ g : GG, g.binSize = binSize →
      (gamSqAt g R).gamsq = (g.bins.map fun b => 2 * a b.meanr * b.xip).sum ∧
      (gamSqAt g R).vargamsq = (g.bins.map fun b => (2 * a b.meanr) ^ 2 * b.varxip).sum ∧
      (gamSqAt g R).gamsqE = (g.bins.map fun b => a b.meanr * b.xip + c b.meanr * b.xim).sum ∧
      (gamSqAt g R).gamsqB = (g.bins.map fun b => a b.meanr * b.xip - c b.meanr * b.xim).sum ∧
      (gamSqAt g R).vargamsqE =
        (g.bins.map fun b => a b.meanr ^ 2 * b.varxip + c b.meanr ^ 2 * b.varxim).sum := by
  refine ⟨fun r => 0.5 * binSize * sPlus (1 / R * r), fun r => 0.5 * binSize * sMinus (1 / R * r), fun g hg => ?_⟩
  subst hg
  simp only [gamSqAt, dot, sum_add', sum_sub', sum_mul']
  refine ⟨?_, ?_, ?_, ?_, ?_⟩ <;>
  · refine congrArg List.sum (List.map_congr_left fun b _ => ?_)
    ring

/-- The same for `calculateNMap` and `calculateNapSq`. -/
theorem nMap_variance (f : MForm) (R binSize : ℝ) :
    (∃ a : ℝ → ℝ, ∀ g : NG, g.binSize = binSize →
      (nMapAt g f R).nmap = (g.bins.map fun b => a b.meanr * b.xi).sum ∧
      (nMapAt g f R).nmx = (g.bins.map fun b => a b.meanr * b.xiIm).sum ∧
      (nMapAt g f R).varnmap = (g.bins.map fun b => a b.meanr ^ 2 * b.varxi).sum) ∧
    ∃ a : ℝ → ℝ, ∀ g : NN, g.binSize = binSize →
      (napSqAt g f R).nsq = (g.bins.map fun b => a b.meanr * b.xi).sum ∧
      (napSqAt g f R).varnsq = (g.bins.map fun b => a b.meanr ^ 2 * b.varxi).sum := by
  constructor
  · refine ⟨fun r => binSize * (tCross f (1 / R * r) * (1 / R * r * (1 / R * r))), fun g hg => ?_⟩
    subst hg
    simp only [nMapAt, dot, sum_mul']
    refine ⟨?_, ?_, ?_⟩ <;>
    refine congrArg List.sum (List.map_congr_left fun b _ => by ring)
  · refine ⟨fun r => binSize * (tPlus f (1 / R * r) * (1 / R * r * (1 / R * r))), fun g hg => ?_⟩
    subst hg
    simp only [napSqAt, dot, sum_mul']
    refine ⟨?_, ?_⟩ <;>
    refine congrArg List.sum (List.map_congr_left fun b _ => by ring)

/-- The variances of the two ratios that `writeNorm` writes are the ones of first order in the errors: the squares of
the derivatives times the variances. -/
theorem norm_variance (nm : NMap) (m : MapSq) (n : NapSq) (h1 : nm.nmap ≠ 0) (h2 : m.mapsq ≠ 0) (h3 : n.nsq ≠ 0) :
    (normRow nm m n).varnmnorm =
      deriv (fun x => x ^ 2 / (n.nsq * m.mapsq)) nm.nmap ^ 2 * nm.varnmap +
      deriv (fun x => nm.nmap ^ 2 / (x * m.mapsq)) n.nsq ^ 2 * n.varnsq +
      deriv (fun x => nm.nmap ^ 2 / (n.nsq * x)) m.mapsq ^ 2 * m.varmapsq ∧
    (normRow nm m n).varnnnorm =
      deriv (fun x => x / m.mapsq) n.nsq ^ 2 * n.varnsq + deriv (fun x => n.nsq / x) m.mapsq ^ 2 * m.varmapsq := by
  have d1 : deriv (fun x => x ^ 2 / (n.nsq * m.mapsq)) nm.nmap = 2 * nm.nmap / (n.nsq * m.mapsq) := by
    simp
  have d2 : deriv (fun x => nm.nmap ^ 2 / (x * m.mapsq)) n.nsq = -(nm.nmap ^ 2 / (n.nsq ^ 2 * m.mapsq)) := by
    have h := (((hasDerivAt_id n.nsq).mul_const m.mapsq).fun_inv (mul_ne_zero h3 h2)).const_mul (nm.nmap ^ 2)
    refine (h.congr_deriv ?_).deriv
    simp only [id]
    field_simp
  have d3 : deriv (fun x => nm.nmap ^ 2 / (n.nsq * x)) m.mapsq = -(nm.nmap ^ 2 / (n.nsq * m.mapsq ^ 2)) := by
    have h := (((hasDerivAt_id m.mapsq).const_mul n.nsq).fun_inv (mul_ne_zero h3 h2)).const_mul (nm.nmap ^ 2)
    refine (h.congr_deriv ?_).deriv
    simp only [id]
    field_simp
  have d4 : deriv (fun x => x / m.mapsq) n.nsq = 1 / m.mapsq := ((hasDerivAt_id n.nsq).div_const m.mapsq).deriv
  have d5 : deriv (fun x => n.nsq / x) m.mapsq = -(n.nsq / m.mapsq ^ 2) := by
    have h := ((hasDerivAt_id m.mapsq).fun_inv h2).const_mul n.nsq
    refine (h.congr_deriv ?_).deriv
    simp only [id]
    field_simp
  rw [d1, d2, d3, d4, d5]
  simp only [normRow]
  constructor
  · field_simp
    ring
  · field_simp

/-! ### Errors -/

/-- `calculateMapSq` and `calculateGamSq` refuse bins that are not logarithmic, and all four functions refuse a form
other than 'Crittenden' and 'Schneider'. -/
theorem aperture_errors (g : GG) (n : NG) (c : NN) (R : Option (List ℝ)) (u : Option String) :
    (g.binType ≠ .log → calculateMapSq g R u = .error .valueError ∧ calculateGamSq g R = .error .valueError) ∧
    (∀ x, x ≠ "Crittenden" → x ≠ "Schneider" →
      calculateMapSq g R (some x) = .error .valueError ∧ calculateNMap n R (some x) = .error .valueError ∧
      calculateNapSq c R (some x) = .error .valueError) := by
  constructor
  · intro h
    refine ⟨?_, by rw [calculateGamSq, if_neg h]⟩
    unfold calculateMapSq mForm
    split <;> simp [h, bind, Except.bind, throw, throwThe, MonadExceptOf.throw]
  · intro x h1 h2
    have : ∀ c, mForm (some x) c = .error .valueError := by
      intro c
      unfold mForm
      split
      · rename_i h
        exact absurd h h1
      · rename_i h
        exact absurd h h2
      · rfl
    refine ⟨?_, ?_, ?_⟩
    · rw [calculateMapSq, this]; rfl
    · rw [calculateNMap, this]; rfl
    · rw [calculateNapSq, this]; rfl

/-! ### The filters -/

theorem half_exp_deriv (t : ℝ) :
    HasDerivAt (fun t : ℝ => Real.exp (-t ^ 2 / 2)) (-t * Real.exp (-t ^ 2 / 2)) t := by
  have h := (((hasDerivAt_pow 2 t).neg).div_const 2).exp
  refine h.congr_deriv ?_
  simp
  ring

/-- The weights of 'Crittenden' belong together: `Q` is the mean of `U` within the radius less `U`. -/
theorem crit_weights (r : ℝ) (hr : 0 < r) : critQ r = 2 / r ^ 2 * (∫ t in Ioo 0 r, t * critU t) - critU r := by
  have e : ∫ t in Ioo 0 r, t * critU t = 1 / (2 * π) * (r ^ 2 / 2 * Real.exp (-r ^ 2 / 2)) := by
    rw [← integral_Ioc_eq_integral_Ioo, ← intervalIntegral.integral_of_le hr.le,
      intervalIntegral.integral_eq_sub_of_hasDerivAt
        (f := fun t => 1 / (2 * π) * (t ^ 2 / 2 * Real.exp (-t ^ 2 / 2)))]
    · simp
    · intro t _
      have h := (((hasDerivAt_pow 2 t).div_const 2).mul (half_exp_deriv t)).const_mul (1 / (2 * π))
      refine h.congr_deriv ?_
      unfold critU
      simp
      ring
    · refine Continuous.intervalIntegrable ?_ _ _
      unfold critU
      fun_prop
  rw [e]
  unfold critQ critU
  field_simp
  ring

/-- The same for 'Schneider'. -/
theorem schn_weights (r : ℝ) (hr : 0 < r) : schnQ r = 2 / r ^ 2 * (∫ t in Ioo 0 r, t * schnU t) - schnU r := by
  have e : ∫ t in Ioo 0 r, t * schnU t = 9 / π * (r ^ 2 / 6 - r ^ 4 / 3 + r ^ 6 / 6) := by
    rw [← integral_Ioc_eq_integral_Ioo, ← intervalIntegral.integral_of_le hr.le,
      intervalIntegral.integral_eq_sub_of_hasDerivAt
        (f := fun t => 9 / π * (t ^ 2 / 6 - t ^ 4 / 3 + t ^ 6 / 6))]
    · simp
    · intro t _
      have h := ((((hasDerivAt_pow 2 t).div_const 6).sub ((hasDerivAt_pow 4 t).div_const 3)).add
        ((hasDerivAt_pow 6 t).div_const 6)).const_mul (9 / π)
      refine h.congr_deriv ?_
      unfold schnU
      simp
      ring
    · refine Continuous.intervalIntegrable ?_ _ _
      unfold schnU
      fun_prop
  rw [e]
  unfold schnQ schnU
  field_simp
  ring

/-- The documented `U` of 'Crittenden' does not belong to the documented `Q`. -/
theorem doc_weights_wrong :
    ¬ ∀ r > 0, critQ r = 2 / r ^ 2 * (∫ t in Ioo 0 r, t * docCritU t) - docCritU r := by
  intro h
  have h2 : (Real.sqrt 2) ^ 2 = 2 := Real.sq_sqrt (by norm_num)
  have hr : 0 < Real.sqrt 2 := Real.sqrt_pos.2 (by norm_num)
  have h := h (Real.sqrt 2) hr
  have e : ∫ t in Ioo 0 (Real.sqrt 2), t * docCritU t = 1 / (2 * π) * (3 * Real.exp (-1) - 1) := by
    rw [← integral_Ioc_eq_integral_Ioo, ← intervalIntegral.integral_of_le hr.le,
      intervalIntegral.integral_eq_sub_of_hasDerivAt
        (f := fun t => 1 / (2 * π) * ((t ^ 2 + 1) * Real.exp (-t ^ 2 / 2)))]
    · rw [h2]
      norm_num
      ring
    · intro t _
      have h := (((hasDerivAt_pow 2 t).add_const 1).mul (half_exp_deriv t)).const_mul (1 / (2 * π))
      refine h.congr_deriv ?_
      unfold docCritU
      simp
      ring
    · refine Continuous.intervalIntegrable ?_ _ _
      unfold docCritU
      fun_prop
  rw [e] at h
  unfold critQ docCritU at h
  rw [h2] at h
  have hp := Real.pi_pos
  norm_num at h
  field_simp at h
  have h3 : Real.exp (-1) = 1 / 3 := by linarith
  have h4 : Real.exp 1 = 3 := by
    rw [Real.exp_neg, inv_eq_one_div] at h3
    have := Real.exp_pos 1
    field_simp at h3
    linarith
  have := Real.exp_one_lt_three
  linarith

/-- With the documented `U` the weight of the mean tangential shear would be another one. -/
theorem doc_kernel_wrong : kernelCross docCritU critQ 1 ≠ -(tCross .crittenden 1 : ℝ) := by
  unfold kernelCross
  rw [crit_cross_doc]
  have hπ : (π : ℂ) ≠ 0 := by exact_mod_cast Real.pi_ne_zero
  intro h
  simp only [tCross, norm_one] at h
  have h1 : ((2 * π * -((8 - 1 ^ 2) / (128 * π) * Real.exp (-(1 * 1) / 4)) : ℝ) : ℂ) =
      ((-(1 * 1 * (12 - 1 * 1) / 128 * Real.exp (-(1 * 1) / 4)) : ℝ) : ℂ) := by
    push_cast
    push_cast at h
    simpa using h
  have h2 := Complex.ofReal_injective h1
  have := Real.exp_pos (-(1 * 1) / 4)
  have hp := Real.pi_pos
  field_simp at h2
  nlinarith

/-! ### Wrong documentation, bins that are not logarithmic -/

/-- A count-shear correlation with one linear bin of size 1 at `r = 2`. -/
noncomputable def exNG : NG where
  binType := .linear
  binSize := 1
  rnom := [2]
  m2Uform := none
  bins := [⟨2, 1, 0, 1⟩]

/-- `calculateNMap` accepts linear bins and takes their size for the size of logarithmic ones: instead of the sum of
`r Δr / R²` times the weight times the mean shear it returns twice as much here. -/
theorem nMap_linear_wrong :
    ∃ m, calculateNMap exNG (some [1]) none = .ok [m] ∧
      m.nmap ≠ (exNG.bins.map fun b => b.meanr * exNG.binSize / 1 ^ 2 * tCross .crittenden (b.meanr / 1) * b.xi).sum := by
  refine ⟨nMapAt exNG .crittenden 1, rfl, ?_⟩
  have := Real.exp_pos (-(2 * 2) / 4)
  simp only [nMapAt, dot, exNG, tCross, List.map_cons, List.map_nil, List.sum_cons, List.sum_nil]
  intro h
  norm_num at h this
  linarith

/-- A count correlation with one bin. -/
noncomputable def exNN : NN where
  binType := .log
  binSize := 1
  rnom := [2]
  m2Uform := none
  bins := [⟨2 * Real.sqrt 2 * 2, 1, 1⟩]

/-- The documentation of `calculateNapSq` has the sum of `r² Δ(log r) / (2 R²)` times the weight times `xi`; the
function returns twice that, which is the sum that the definition of the aperture count implies (`napSq_sum_partial`). -/
theorem napSq_doc_wrong :
    (∀ (g : NN) (f : MForm) (R : ℝ), (napSqAt g f R).nsq =
      2 * (g.bins.map fun b => b.meanr ^ 2 * g.binSize / (2 * R ^ 2) * tPlus f (b.meanr / R) * b.xi).sum) ∧
    ∃ (g : NN) (f : MForm) (R : ℝ), (napSqAt g f R).nsq ≠
      (g.bins.map fun b => b.meanr ^ 2 * g.binSize / (2 * R ^ 2) * tPlus f (b.meanr / R) * b.xi).sum := by
  have h : ∀ (g : NN) (f : MForm) (R : ℝ), (napSqAt g f R).nsq =
      2 * (g.bins.map fun b => b.meanr ^ 2 * g.binSize / (2 * R ^ 2) * tPlus f (b.meanr / R) * b.xi).sum := by
    intro g f R
    rw [mul_comm, sum_mul']
    simp only [napSqAt, dot, sum_mul']
    refine congrArg List.sum (List.map_congr_left fun b _ => ?_)
    rw [one_div_mul_eq_div]
    rcases eq_or_ne R 0 with hR | hR
    · simp [hR]
    · field_simp
  refine ⟨h, ⟨.log, 1, [], none, [⟨1, 1, 1⟩]⟩, .crittenden, 1, ?_⟩
  rw [h]
  have := Real.exp_pos (-(1 * 1) / 4)
  simp only [tPlus, List.map_cons, List.map_nil, List.sum_cons, List.sum_nil]
  norm_num

/-- A shear correlation with one bin. -/
noncomputable def exGG : GG where
  binType := .log
  binSize := 1
  rnom := [2, 3]
  m2Uform := none
  bins := [⟨2, 1, 1 / 2, 0, 1, 1, 1⟩, ⟨4, 1 / 3, 1 / 4, 0, 1, 1, 1⟩]

/-- The documentation says that `mapsq_im` and `mxsq_im` both estimate `⟨Map Mx⟩`.  When the imaginary part of `xip` is
zero, as it is on average, they are the negatives of each other, so that `mxsq_im` estimates `-⟨Map Mx⟩`. -/
theorem mxsqIm_wrong :
    (∀ (g : GG) (f : MForm) (R : ℝ), (∀ b ∈ g.bins, b.xipIm = 0) →
      (mapSqAt g f R).mxsqIm = -(mapSqAt g f R).mapsqIm) ∧
    (mapSqAt exGG .crittenden 1).mxsqIm ≠ (mapSqAt exGG .crittenden 1).mapsqIm := by
  have h : ∀ (g : GG) (f : MForm) (R : ℝ), (∀ b ∈ g.bins, b.xipIm = 0) →
      (mapSqAt g f R).mxsqIm = -(mapSqAt g f R).mapsqIm := by
    intro g f R hb
    have e : ∀ row : GGBin → ℝ, dot g.bins row GGBin.xipIm = 0 := by
      intro row
      refine List.sum_eq_zero fun x hx => ?_
      obtain ⟨b, hb', rfl⟩ := List.mem_map.1 hx
      show _ * b.xipIm = 0
      rw [hb b hb', mul_zero]
    simp only [mapSqAt, e]
    ring
  refine ⟨h, ?_⟩
  rw [h exGG _ _ (by simp [exGG])]
  have h1 : 0 < (mapSqAt exGG .crittenden 1).mapsqIm := by
    have h1 := Real.exp_pos (-(2 * 2) / 4)
    have h2 := Real.exp_pos (-(4 * 4) / 4)
    simp only [mapSqAt, dot, exGG, tMinus, tPlus, List.map_cons, List.map_nil, List.sum_cons, List.sum_nil]
    norm_num
    norm_num at h1 h2
    positivity
  linarith

theorem writeMapSq_rows (g : GG) (f : MForm) (rs : List ℝ) :
    ((rs.zip (rs.map (mapSqAt g f))).zip (rs.map (gamSqAt g))) = rs.map fun r => ((r, mapSqAt g f r), gamSqAt g r) := by
  induction rs with
  | nil => rfl
  | cons r rs ih => simp [ih]

/-- `writeMapSq` changes the sign: both of its columns estimate `⟨Map Mx⟩`. -/
theorem writeMapSq_columns (g : GG) (R : Option (List ℝ)) (u : Option String) (rows : List MapSqRow)
    (h : writeMapSq g R u = .ok rows) (hb : ∀ b ∈ g.bins, b.xipIm = 0) :
    rows.map MapSqRow.R = R.getD g.rnom ∧ (∀ row ∈ rows, row.mmxa = row.mmxb) ∧
    ∃ ms qs, calculateMapSq g R u = .ok ms ∧ calculateGamSq g R = .ok qs ∧
      rows.map MapSqRow.mapsq = ms.map MapSq.mapsq ∧ rows.map MapSqRow.mxsq = ms.map MapSq.mxsq ∧
      rows.map MapSqRow.mmxa = ms.map MapSq.mapsqIm ∧
      rows.map MapSqRow.sigMap = ms.map (fun m => Real.sqrt m.varmapsq) ∧
      rows.map MapSqRow.gamsq = qs.map GamSq.gamsq ∧
      rows.map MapSqRow.sigGam = qs.map (fun q => Real.sqrt q.vargamsq) := by
  by_cases hl : g.binType = .log
  · cases hf : mForm u g.m2Uform with
    | error e =>
      simp only [writeMapSq, calculateMapSq, hf, bind, Except.bind] at h
      cases h
    | ok f =>
      simp only [writeMapSq, calculateMapSq, calculateGamSq, hf, hl, bind, Except.bind, if_true, pure, Except.pure,
        Option.getD_some, Except.ok.injEq, writeMapSq_rows, List.map_map] at h
      subst h
      refine ⟨by simp [Function.comp_def], ?_, (R.getD g.rnom).map (mapSqAt g f), (R.getD g.rnom).map (gamSqAt g), ?_, ?_, ?_⟩
      · intro row hrow
        obtain ⟨r, -, rfl⟩ := List.mem_map.1 hrow
        simp only [Function.comp_apply]
        rw [mxsqIm_wrong.1 g f r hb, neg_neg]
      · simp only [calculateMapSq, hf, hl, bind, Except.bind, if_true, pure, Except.pure]
      · simp only [calculateGamSq, hl, if_true]
      · simp [Function.comp_def]
  · rw [writeMapSq, (aperture_errors g exNG exNN (some (R.getD g.rnom)) u).1 hl |>.1] at h
    cases h

/-- The ratios of `writeNorm` are `⟨NMap⟩² / (⟨Nap²⟩⟨Map²⟩)` and `⟨Nap²⟩ / ⟨Map²⟩` of the values that the other
functions return for the same radii and form. -/
theorem writeNorm_columns (ng : NG) (gg : GG) (dd : NN) (R : Option (List ℝ)) (u : Option String) (rows : List NormRow)
    (h : writeNorm ng gg dd R u = .ok rows) :
    ∃ nm ms ns, calculateNMap ng R u = .ok nm ∧ calculateMapSq gg (some (R.getD ng.rnom)) u = .ok ms ∧
      calculateNapSq dd (some (R.getD ng.rnom)) u = .ok ns ∧ rows.length = (R.getD ng.rnom).length ∧
      nm.length = rows.length ∧ ms.length = rows.length ∧ ns.length = rows.length ∧
      ∀ i (hi : i < rows.length) (h1 : i < nm.length) (h2 : i < ms.length) (h3 : i < ns.length),
        rows[i].nmnorm = nm[i].nmap ^ 2 / (ns[i].nsq * ms[i].mapsq) ∧ rows[i].nnnorm = ns[i].nsq / ms[i].mapsq := by
  have e : calculateNMap ng R u = calculateNMap ng (some (R.getD ng.rnom)) u := by
    simp only [calculateNMap, Option.getD_some]
  rw [e]
  unfold writeNorm at h
  simp only [bind, Except.bind] at h
  split at h
  · cases h
  rename_i nm hnm
  split at h
  · cases h
  rename_i ms hms
  split at h
  · cases h
  rename_i ns hns
  refine ⟨nm, ms, ns, hnm, hms, hns, ?_⟩
  have l1 : nm.length = (R.getD ng.rnom).length := by
    unfold calculateNMap at hnm
    cases hf : mForm u ng.m2Uform with
    | error e => rw [hf] at hnm; cases hnm
    | ok f =>
      rw [hf] at hnm
      cases hnm
      simp
  have l2 : ms.length = (R.getD ng.rnom).length := by
    unfold calculateMapSq at hms
    cases hf : mForm u gg.m2Uform with
    | error e => rw [hf] at hms; cases hms
    | ok f =>
      rw [hf] at hms
      by_cases hl : gg.binType = .log
      · simp only [bind, Except.bind, hl, if_true] at hms
        cases hms
        simp
      · simp only [bind, Except.bind, hl, if_false] at hms
        cases hms
  have l3 : ns.length = (R.getD ng.rnom).length := by
    unfold calculateNapSq at hns
    cases hf : mForm u dd.m2Uform with
    | error e => rw [hf] at hns; cases hns
    | ok f =>
      rw [hf] at hns
      cases hns
      simp
  cases h
  refine ⟨by simp [l1, l2, l3], by simp [l1, l2, l3], by simp [l1, l2, l3], by simp [l1, l2, l3], ?_⟩
  intro i hi h1 h2 h3
  simp [normRow]

/-! ### Examples -/

/-- `writeNorm` on concrete correlations, and numbers that meet the hypotheses of `norm_variance`. -/
example : (∃ l, writeNorm exNG exGG exNN none none = .ok l ∧ l.length = 1) ∧
    (normRow ⟨2, 0, 1⟩ ⟨3, 0, 0, 0, 1⟩ ⟨5, 1⟩).nmnorm = 4 / 15 ∧ (2 : ℝ) ≠ 0 ∧ (3 : ℝ) ≠ 0 ∧ (5 : ℝ) ≠ 0 :=
  ⟨⟨_, rfl, rfl⟩, by norm_num [normRow], by norm_num, by norm_num, by norm_num⟩

/-- Concrete correlation functions that meet the hypotheses of `map_pureE`. -/
example : ∃ xip xim : ℝ → ℝ, IntegrableOn (fun t => t * xip t) (Ioi 0) ∧ PureE xip xim ∧ xip 1 ≠ 0 :=
  ⟨fun t => Real.exp (-(t * t) / 4), fun r => Real.exp (-(r * r) / 4) +
      ∫ t in Ioo 0 r, t / r ^ 2 * Real.exp (-(t * t) / 4) * (4 - 12 * t ^ 2 / r ^ 2),
    (int_gauss1 0 le_rfl).1, fun _ _ => rfl, (Real.exp_pos _).ne'⟩

/-- And those of `gam_pureE`. -/
example : ∃ xip xim : ℝ → ℝ, IntegrableOn (fun t => xim t / t) (Ioi 0) ∧ PureE' xip xim ∧ xim 1 ≠ 0 := by
  refine ⟨fun r => r * (r * Real.exp (-(r * r) / 4)) + ∫ t in Ioi r, t * (t * Real.exp (-(t * t) / 4)) / t *
      (4 - 12 * r ^ 2 / t ^ 2), fun t => t * (t * Real.exp (-(t * t) / 4)), ?_, fun _ _ => rfl, by positivity⟩
  refine IntegrableOn.congr_fun (int_gauss1 0 le_rfl).1 (fun t ht => ?_) measurableSet_Ioi
  have : t ≠ 0 := ne_of_gt ht
  simp only
  field_simp

/-- And those of `nMap_convergence`. -/
example : ∃ w xi : ℝ → ℝ, IntegrableOn (fun t => t * w t) (Ioi 0) ∧ TangentialOf w xi ∧ w 1 ≠ 0 :=
  ⟨fun t => Real.exp (-(t * t) / 4), fun r => 2 / r ^ 2 * (∫ t in Ioo 0 r, t * Real.exp (-(t * t) / 4)) -
      Real.exp (-(r * r) / 4), (int_gauss1 0 le_rfl).1, fun _ _ => rfl, (Real.exp_pos _).ne'⟩

/-- `calculateMapSq` on the two bins of `exGG`, with the radii of the bins. -/
example : ∃ l, calculateMapSq exGG none none = .ok l ∧ l.length = 2 := ⟨_, rfl, rfl⟩

/-- `writeMapSq` on the two bins of `exGG`. -/
example : ∃ l, writeMapSq exGG none (some "Schneider") = .ok l ∧ l.length = 2 := ⟨_, rfl, rfl⟩

end TreeCorr.Aperture
