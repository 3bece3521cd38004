import Verif.Proofs.MpFields
import Verif.Proofs.MpHom
import Verif.Spec.MultipoleG

/-! The multipole algorithm for shear: the scratch arrays, the entries, and the sums over triangles they amount to. -/

namespace TreeCorr
open Classical ComplexConjugate
variable {P : Type}

/-- The value of `spreadG` at `n` if all three parts are the same expression. -/
theorem spreadG_eq {maxn : ℕ} {n : ℤ} (hn : n.natAbs ≤ maxn) {f0 : ℂ} {fp fm h : ℤ → ℂ} (e0 : f0 = h 0)
    (ep : ∀ m, fp m = h m) (em : ∀ m, fm m = h (-m)) : spreadG maxn f0 fp fm n = h n := by
  unfold spreadG
  by_cases h0 : n = 0
  · rw [if_pos h0, e0, h0]
  · rw [if_neg h0]
    by_cases h1 : 0 < n
    · rw [if_pos h1, if_pos (by omega), ep]
    · rw [if_neg h1, if_pos (by omega), em, neg_neg]

/-- What `calculateZeta` adds to `[k2,k3]`. -/
noncomputable def gVal (maxn : ℕ) (wg : Cell P → ℂ) (c1 : Cell P) (mp : GScratch) (k2 k3 : ℤ) : GVals :=
  entryVal (gamDiag maxn wg c1 mp) (gam23 maxn wg c1 mp) (gam32 maxn wg c1 mp) k2 k3

theorem total_calculateZetaG {V : Type} [AddCommMonoid V] (f : GVals → V) (maxn : ℕ) {nbins k2 k3 : ℤ} (h2 : k2 < nbins)
    (h3 : k3 < nbins) (wg : Cell P → ℂ) (c1 : Cell P) (mp : GScratch) (kstart mink : ℤ) :
    mpTotal f (calculateZetaG maxn nbins wg c1 mp kstart mink) k2 k3 =
      if kstart ≤ min k2 k3 ∧ min k2 k3 < mink then f (gVal maxn wg c1 mp k2 k3) else 0 :=
  total_entries f h2 h3 (gamDiag maxn wg c1 mp) (gam23 maxn wg c1 mp) (gam32 maxn wg c1 mp) kstart mink

section
variable {maxn : ℕ} (wg : Cell P → ℂ) (c1 : Cell P) (mp : GScratch) (k2 k3 : ℤ) {n : ℤ} (hn : n.natAbs ≤ maxn)
include hn

theorem gVal_gam0 : (gVal maxn wg c1 mp k2 k3).gam0 n =
    wg c1 * (mp.Gn k3 (-n - 1) * mp.Gn k2 (n - 1) - if k2 = k3 then mp.gg0 k2 else 0) := by
  unfold gVal entryVal
  split
  · rename_i h; subst h
    dsimp only [gamDiag]
    refine spreadG_eq hn ?_ ?_ ?_ (h := fun n => wg c1 * (mp.Gn k2 (-n - 1) * mp.Gn k2 (n - 1) - mp.gg0 k2))
    · simp only [neg_zero, zero_sub]; ring
    · intro m; ring
    · intro m; simp only [neg_neg]; ring
  · split
    · dsimp only [gam23]
      refine spreadG_eq hn ?_ ?_ ?_ (h := fun n => wg c1 * (mp.Gn k3 (-n - 1) * mp.Gn k2 (n - 1) - 0))
      · simp only [neg_zero, zero_sub]; ring
      · intro m; simp only [gamPM]; ring
      · intro m; simp only [gamPM, neg_neg]; ring
    · dsimp only [gam32]
      refine spreadG_eq hn ?_ ?_ ?_ (h := fun n => wg c1 * (mp.Gn k3 (-n - 1) * mp.Gn k2 (n - 1) - 0))
      · simp only [neg_zero, zero_sub]; ring
      · intro m; simp only [gamPM]; ring
      · intro m; simp only [gamPM, neg_neg]; ring

theorem gVal_gam1 : (gVal maxn wg c1 mp k2 k3).gam1 n =
    conj (wg c1) * (mp.Gn k3 (-n + 1) * mp.Gn k2 (n + 1) - if k2 = k3 then mp.gg1 k2 else 0) := by
  unfold gVal entryVal
  split
  · rename_i h; subst h
    dsimp only [gamDiag]
    refine spreadG_eq hn ?_ ?_ ?_ (h := fun n => conj (wg c1) * (mp.Gn k2 (-n + 1) * mp.Gn k2 (n + 1) - mp.gg1 k2))
    · simp only [neg_zero, zero_add]; ring
    · intro m; ring
    · intro m; simp only [neg_neg]; ring
  · split
    · dsimp only [gam23]
      refine spreadG_eq hn ?_ ?_ ?_ (h := fun n => conj (wg c1) * (mp.Gn k3 (-n + 1) * mp.Gn k2 (n + 1) - 0))
      · simp only [neg_zero, zero_add]; ring
      · intro m; simp only [gamPM]; ring
      · intro m; simp only [gamPM, neg_neg, map_mul, Complex.conj_conj]; ring
    · dsimp only [gam32]
      refine spreadG_eq hn ?_ ?_ ?_ (h := fun n => conj (wg c1) * (mp.Gn k3 (-n + 1) * mp.Gn k2 (n + 1) - 0))
      · simp only [neg_zero, zero_add]; ring
      · intro m; simp only [gamPM, map_mul, Complex.conj_conj]; ring
      · intro m; simp only [gamPM, neg_neg]; ring

theorem gVal_gam2 : (gVal maxn wg c1 mp k2 k3).gam2 n =
    wg c1 * (conj (mp.Gn k3 (n + 1)) * mp.Gn k2 (n - 1) - if k2 = k3 then mp.gg2 k2 else 0) := by
  unfold gVal entryVal
  split
  · rename_i h; subst h
    dsimp only [gamDiag]
    refine spreadG_eq hn ?_ ?_ ?_ (h := fun n => wg c1 * (conj (mp.Gn k2 (n + 1)) * mp.Gn k2 (n - 1) - mp.gg2 k2))
    · simp only [zero_sub, zero_add]; ring
    · intro m; simp only [map_mul, Complex.conj_conj]; ring
    · intro m; ring
  · split
    · dsimp only [gam23]
      refine spreadG_eq hn ?_ ?_ ?_ (h := fun n => wg c1 * (conj (mp.Gn k3 (n + 1)) * mp.Gn k2 (n - 1) - 0))
      · simp only [zero_sub, zero_add]; ring
      · intro m; simp only [gamPM]; ring
      · intro m; simp only [gamPM]; ring
    · dsimp only [gam32]
      refine spreadG_eq hn ?_ ?_ ?_ (h := fun n => wg c1 * (conj (mp.Gn k3 (n + 1)) * mp.Gn k2 (n - 1) - 0))
      · simp only [zero_sub, zero_add, map_mul, Complex.conj_conj]; ring
      · intro m; simp only [gamPM, map_mul, Complex.conj_conj]; ring
      · intro m; simp only [gamPM]; ring

theorem gVal_gam3 : (gVal maxn wg c1 mp k2 k3).gam3 n =
    wg c1 * (mp.Gn k3 (-n - 1) * conj (mp.Gn k2 (-n + 1)) - if k2 = k3 then mp.gg2 k2 else 0) := by
  unfold gVal entryVal
  split
  · rename_i h; subst h
    dsimp only [gamDiag]
    refine spreadG_eq hn ?_ ?_ ?_ (h := fun n => wg c1 * (mp.Gn k2 (-n - 1) * conj (mp.Gn k2 (-n + 1)) - mp.gg2 k2))
    · simp only [neg_zero, zero_sub, zero_add]; ring
    · intro m; ring
    · intro m; simp only [neg_neg, map_mul, Complex.conj_conj]; ring
  · split
    · dsimp only [gam23]
      refine spreadG_eq hn ?_ ?_ ?_ (h := fun n => wg c1 * (mp.Gn k3 (-n - 1) * conj (mp.Gn k2 (-n + 1)) - 0))
      · simp only [neg_zero, zero_sub, zero_add, map_mul, Complex.conj_conj]; ring
      · intro m; simp only [gamPM]; ring
      · intro m; simp only [gamPM, neg_neg, map_mul, Complex.conj_conj]; ring
    · dsimp only [gam32]
      refine spreadG_eq hn ?_ ?_ ?_ (h := fun n => wg c1 * (mp.Gn k3 (-n - 1) * conj (mp.Gn k2 (-n + 1)) - 0))
      · simp only [neg_zero, zero_sub, zero_add]; ring
      · intro m; simp only [gamPM]; ring
      · intro m; simp only [gamPM, neg_neg]; ring

end

end TreeCorr
