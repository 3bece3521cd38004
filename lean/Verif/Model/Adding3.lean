import Verif.Model.Binning3
import Verif.Model.Adding

/-!
# `+=` of three-point objects, with its checks

Of the data arrays only `ntri` and `weight` are here, as functions of the flat index of the bin; the
other arrays are treated like `weight`.
-/

namespace TreeCorr
namespace Adding
open Classical
noncomputable section

/-- The bins, as `_equal_binning` looks at them: for LogRUV separations, `u` and `v`; for LogSAS separations and `phi`
(in radians); for LogMultipole separations and `max_n`. -/
inductive Bins3 where
  | ruv (sep : Bins) (u v : LinBins)
  | sas (sep : Bins) (phi : LinBins)
  | multipole (sep : Bins) (maxn : ℤ)

/-- The attributes that `__iadd__` looks at; `xp`, `yp`, `zp` say that the period is not 0. -/
structure Obj3 where
  cls : String
  bins : Bins3
  units : ℝ
  xp : Bool
  yp : Bool
  zp : Bool
  used : Option (String × String)
  ntri : ℕ → ℝ
  weight : ℕ → ℝ
  tot : ℝ

/-- `min_sep`, `max_sep`, `nbins` are the same. -/
def eqSep (a b : Bins) : Prop := a.minsep = b.minsep ∧ a.maxsep = b.maxsep ∧ a.nbins = b.nbins

/-- `min_u`, `max_u`, `nubins` are the same (or those of `v` or `phi`). -/
def eqLin (a b : LinBins) : Prop := a.lo = b.lo ∧ a.hi = b.hi ∧ a.n = b.n

/-- `_equal_binning(other, brief=True)`, corr3base.py:985-1015. -/
def equalBinning : Bins3 → Bins3 → Prop
  | .ruv s u v, .ruv s' u' v' => eqSep s s' ∧ eqLin u u' ∧ eqLin v v'
  | .sas s p, .sas s' p' => eqSep s s' ∧ eqLin p p'
  | .multipole s n, .multipole s' n' => eqSep s s' ∧ n = n'
  | _, _ => False

/-- The number of elements of the arrays, corr3base.py:654-664, 673-683, 691-705 (`data_shape`). -/
def total3 : Bins3 → ℤ
  | .ruv s u v => s.nbins * u.n * (2 * v.n)
  | .sas s p => s.nbins * s.nbins * p.n
  | .multipole s n => s.nbins * s.nbins * (2 * n + 1)

/-- `nonzero`, corr3base.py:1104-1107. -/
def nonzero3 (o : Obj3) : Prop := ∃ k : ℕ, (k : ℤ) < total3 o.bins ∧ o.ntri k ≠ 0

/-- `Corr3._set_metric(other.metric, other.coords, other.coords, other.coords)`, corr3base.py:1915, 2164-2184. -/
def takeMetric3 (a b : Obj3) : Except PyErr (String × String) :=
  match b.used with
  | none => .error .valueError
  | some (c, m) =>
    match parseMetric m c (some c) (some c) with
    | .error e => .error e
    | .ok (c, m) =>
      if m = "Periodic" then
        if a.xp = false ∨ a.yp = false ∨ (c = "3d" ∧ a.zp = false) then .error .valueError else .ok (c, m)
      else if a.xp ∨ a.yp ∨ a.zp then .error .valueError
      else .ok (c, m)

/-- `__iadd__`, corr3base.py:1902-1938; NNN also adds `tot`, nnncorrelation.py:365-375. -/
def iadd3 (a b : Obj3) : Except PyErr Obj3 :=
  if b.cls ≠ a.cls then .error .typeError
  else if ¬ equalBinning a.bins b.bins then .error .valueError
  else match takeMetric3 a b with
    | .error e => .error e
    | .ok u =>
      let t := if a.cls = "NNNCorrelation" then a.tot + b.tot else a.tot
      if ¬ nonzero3 b then .ok { a with used := some u, tot := t }
      else .ok { a with
        used := some u
        ntri := fun k => a.ntri k + b.ntri k
        weight := fun k => a.weight k + b.weight k
        tot := t }

end
end Adding
end TreeCorr
