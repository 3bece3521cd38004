import Verif.Model.Cov

/-!
Model of the estimators that involve randoms and of the objects that `_make_cov_design_matrix_core` drives:
`NNCorrelation.calculateXi`, `NNCorrelation._calculate_xi_from_pairs` (/repo/treecorr/nncorrelation.py:266-497),
`NKCorrelation` (/repo/treecorr/nkcorrelation.py:107-262) and the classes without randoms
(/repo/treecorr/kkcorrelation.py:172-184, corr2base.py:1167-1200, 1551-1560).

A bin of a result is `none` if numpy would put `inf` or `nan` there.
-/

namespace TreeCorr
open Classical
noncomputable section

/-- `a / b` in numpy: not finite if `b = 0`. -/
def npDiv (a b : ℝ) : Option ℝ := if b = 0 then none else some (a / b)

/-- The numerator of the estimators, nncorrelation.py:344-353, 490-497, from `DD`, the scaled `RR` and, where
they are given, the scaled `DR` and `RD`. -/
def xiNum (dd rr : ℝ) : Option ℝ → Option ℝ → ℝ
  | none, none => dd - rr
  | none, some rd => dd - 2 * rd + rr
  | some dr, none => dd - 2 * dr + rr
  | some dr, some rd => dd - dr - rd + rr

/-- `xi` of `NNCorrelation.calculateXi`, nncorrelation.py:324-360.  `none` is the ValueError for `tot=0`. -/
def calculateXi (dd rr : Res) (dr rd : Option Res) : Option (ℤ → Option ℝ) :=
  if rr.tot = 0 ∨ (∃ r, dr = some r ∧ r.tot = 0) ∨ (∃ r, rd = some r ∧ r.tot = 0) then none
  else some fun k =>
    let denom := rr.acc.weight k * (dd.tot / rr.tot)
    npDiv
      (xiNum (dd.acc.weight k) denom (dr.map fun r => r.acc.weight k * (dd.tot / r.tot))
        (rd.map fun r => r.acc.weight k * (dd.tot / r.tot)))
      (if rr.acc.weight k = 0 then 1 else denom)

/-- An object with patch results: `results`, `npatch1`, `npatch2`. -/
structure Patched where
  results : Dict
  n1 : ℕ
  n2 : ℕ

/-- `list(results)` -/
def Dict.keyList (d : Dict) : List (ℕ × ℕ) := d.map Prod.fst

/-- `d[key] = _zero_copy(0)` for the keys of `e` that are missing in `d`, nncorrelation.py:414-434. -/
def Dict.addMissing (d : Dict) (keys : List (ℕ × ℕ)) : Dict :=
  keys.foldl (fun d ij => if ij ∈ d.keyList then d else d.set ij Res.zero) d

/-- The same for the keys of `dr` or `rd`, unless its random side (`side`) is undivided, nncorrelation.py:419-428. -/
def Dict.addFrom (d : Dict) (side : Patched → ℕ) (p : Option Patched) : Dict :=
  match p with
  | some p => if side p ≠ 1 then d.addMissing p.results.keyList else d
  | none => d

/-- `results` after `calculateXi` with patches, nncorrelation.py:397-434 (the checks of the numbers of patches
are left out). -/
def afterXi (dd : Dict) (rr : Patched) (dr rd : Option Patched) : Dict :=
  ((if rr.n1 ≠ 1 ∧ rr.n2 ≠ 1 then dd.addMissing rr.results.keyList else dd).addFrom Patched.n2 dr).addFrom Patched.n1 rd

/-- What an `NNCorrelation` holds during the row loop and what the loop changes: its own arrays and `tot`, those of
the copies of `rr`, `dr`, `rd`, and `xi`. -/
structure NNState where
  self : Res
  rr : Res
  dr : Res
  rd : Res
  xi : ℤ → Option ℝ

/-- What the loop does not change: the patch results of all four and `_rr_weight`. -/
structure NNEnv where
  results : Dict
  rr : Patched
  dr : Option Patched
  rd : Option Patched
  rrWeight : ℝ

/-- `pairs1`, `pairs2`: the pairs that the other object has, nncorrelation.py:449, 479, 488. -/
def Patched.okPairs (p : Patched) (pairs : List (ℕ × ℕ)) : List (ℕ × ℕ) :=
  pairs.filter fun ij => okPair p.results.keyList ij.1 ij.2

/-- `pairs2`, nncorrelation.py:473-480. -/
def drPairs (p : Patched) (pairs : List (ℕ × ℕ)) : List (ℕ × ℕ) :=
  if p.n2 = 1 then (pairs.filter fun ij => decide (ij.1 = ij.2)).map fun ij => (ij.1, 0) else p.okPairs pairs

/-- `pairs3`, nncorrelation.py:483-489. -/
def rdPairs (p : Patched) (pairs : List (ℕ × ℕ)) : List (ℕ × ℕ) :=
  if p.n1 = 1 ∧ ¬ (∀ ij ∈ pairs, ij.1 = 0) then
    (pairs.filter fun ij => decide (ij.1 = ij.2)).map fun ij => (0, ij.2)
  else p.okPairs pairs

/-- The relative area, nncorrelation.py:460-461. -/
def areaFrac (results : Dict) (pairs : List (ℕ × ℕ)) : Option ℝ := do
  let rs ← fetch results (pairs.filter fun ij => decide (ij.1 = ij.2))
  npDiv ((rs.map fun r => Real.sqrt r.tot).sum)
    (((results.filter fun x => decide (x.1.1 = x.1.2)).map fun x => Real.sqrt x.2.tot).sum)

/-- `xi` of a row, nncorrelation.py:467-497, from `dd_tot` (not finite: `none`) and the sums.  Where a total is 0 nothing is
finite. -/
def rowXi (dd : Res) (ddTot : Option ℝ) (rr : Res) (dr rd : Option Res) : ℤ → Option ℝ := fun k => do
  let t ← ddTot
  let rrf ← npDiv t rr.tot
  let sc : Option Res → Option (Option ℝ) := fun r => match r with
    | none => some none
    | some r => (npDiv t r.tot).map fun f => some (r.acc.weight k * f)
  let dr ← sc dr
  let rd ← sc rd
  let denom := rr.acc.weight k * rrf
  npDiv (xiNum (dd.acc.weight k) denom dr rd) (if denom = 0 then 1 else denom)

/-- The sum for `_rr`: unchanged if it has no patches, nncorrelation.py:446-451. -/
def NNEnv.sumRr (E : NNEnv) (old : Res) (pairs : List (ℕ × ℕ)) : Option Res :=
  if E.rr.results = [] then some old else (fetch E.rr.results (E.rr.okPairs pairs)).map (sumOthers true)

/-- `dd_tot`, nncorrelation.py:451-466. -/
def NNEnv.ddTot (E : NNEnv) (self : Res) (pairs : List (ℕ × ℕ)) : Option ℝ :=
  if E.rr.results = [] then (areaFrac E.results pairs).map fun f => (E.results.map fun x => x.2.tot).sum * f
  else some self.tot

/-- The sum for `_dr` or `_rd`, if there is one. -/
def sumRand (sel : Patched → List (ℕ × ℕ) → List (ℕ × ℕ)) (p : Option Patched) (old : Res) (pairs : List (ℕ × ℕ)) :
    Option Res :=
  match p with
  | some p => (fetch p.results (sel p pairs)).map (sumOthers true)
  | none => some old

/-- `_calculate_xi_from_pairs`, nncorrelation.py:441-497, once `calculateXi` has been called.  `none` is a KeyError.
`_finalize` touches only the mean separations and is left out. -/
def nnFromPairs (E : NNEnv) (s : NNState) (pairs : List (ℕ × ℕ)) : Option NNState :=
  ((fetch E.results pairs).map (sumOthers true)).bind fun self =>
  (E.sumRr s.rr pairs).bind fun rr =>
  (sumRand drPairs E.dr s.dr pairs).bind fun dr =>
  (sumRand rdPairs E.rd s.rd pairs).bind fun rd =>
  some ⟨self, rr, dr, rd, rowXi self (E.ddTot self pairs) rr (E.dr.map fun _ => dr) (E.rd.map fun _ => rd)⟩

/-- `NNCorrelation` in the row loop.  `_clear` (nncorrelation.py:214-218) resets the arrays and `tot`, but neither `xi`
nor `_rr_weight`, which `getStat` and `getWeight` (:266-284) return. -/
def nnObj (E : NNEnv) : CovObj NNState (ℤ → Option ℝ) where
  fromPairs := nnFromPairs E
  clear := fun s => { s with self := Res.zero }
  stat := fun s => s.xi
  weight := fun _ => E.rrWeight

/-- `_finalize` of the field product, corr2base.py:1171-1172. -/
def meanOf (a : Acc) (x : ℤ → ℝ) : ℤ → ℝ := fun k => if a.weight k ≠ 0 then x k / a.weight k else x k

/-- The classes whose statistic is one mean product and that take no randoms (KK and the like); `bins` is the
range of the weight sum of `getWeight`.  The state is the arrays after `_sum`. -/
def kkObj (results : Dict) (bins : Finset ℤ) : CovObj Acc (ℤ → ℝ) where
  fromPairs := fun _ pairs => (fetch results pairs).map fun rs => (sumOthers false rs).acc
  clear := fun _ => Acc.zero
  stat := fun a => meanOf a a.kk
  weight := fun a => ∑ k ∈ bins, a.weight k

/-- `NKCorrelation` in the row loop: its arrays, whether `_rk` is set, and `xi`. -/
structure NKState where
  self : Acc
  hasRk : Bool
  xi : ℤ → ℝ

/-- nkcorrelation.py:248-258, and the pairs of `rk`. -/
def rkPairs (p : Patched) (pairs : List (ℕ × ℕ)) : List (ℕ × ℕ) :=
  p.okPairs (if p.n1 = 1 ∧ ¬ (∀ ij ∈ pairs, ij.1 = 0) then
    (pairs.filter fun ij => decide (ij.1 = ij.2)).map fun ij => (0, ij.2)
  else pairs)

/-- `NKCorrelation._calculate_xi_from_pairs`, nkcorrelation.py:248-258.  `none` is a KeyError, or the ValueError of
`np.sum([], out=...)` if `rk` has none of the pairs. -/
def nkFromPairs (results : Dict) (rk : Patched) (s : NKState) (pairs : List (ℕ × ℕ)) : Option NKState := do
  let others ← fetch results pairs
  let self := (sumOthers false others).acc
  if s.hasRk then do
    let rks ← fetch rk.results (rkPairs rk pairs)
    if rks = [] then none
    else
      let r := (sumOthers false rks).acc
      return ⟨self, true, fun k => meanOf self self.nk k - meanOf r r.nk k⟩
  else return ⟨self, false, meanOf self self.nk⟩

/-- `NKCorrelation` after `calculateXi(rk=rk)` in the row loop.  `_clear` (nkcorrelation.py:163-170) sets `_rk` to
`None`. -/
def nkObj (results : Dict) (rk : Patched) (bins : Finset ℤ) : CovObj NKState (ℤ → ℝ) where
  fromPairs := nkFromPairs results rk
  clear := fun _ => ⟨Acc.zero, false, fun _ => 0⟩
  stat := fun s => s.xi
  weight := fun s => ∑ k ∈ bins, s.self.weight k

end
end TreeCorr
