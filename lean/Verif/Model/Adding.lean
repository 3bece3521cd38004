import Verif.Model.Metric

/-!
# `+=` of two-point objects, with its checks

Of the data arrays only `npairs` and `weight` are here, as functions of the flat index of the bin; the
other arrays are treated like `weight`.
-/

namespace TreeCorr
namespace Adding
open Classical
noncomputable section

/-- The attributes that `__iadd__` looks at.  `units` is the unit of the separations in radians
(`_sep_units`), `used` has `coords` and `metric`, which are None until something is processed
(corr2base.py:494-495, 1395-1396). -/
structure Obj where
  cls : String
  bt : BinType
  bins : Bins
  units : ℝ
  set : MetricSettings
  used : Option (String × String)
  npairs : ℕ → ℝ
  weight : ℕ → ℝ
  tot : ℝ

/-- `_nbins`, corr2base.py:394, 416, 445. -/
def total (o : Obj) : ℤ := if o.bt = .twoD then o.bins.nbins ^ 2 else o.bins.nbins

/-- `left_edges`, for TwoD in one direction, corr2base.py:392, 413, 437. -/
def left (o : Obj) (k : ℕ) : ℝ :=
  match o.bt with
  | .log => logLeft o.bins k
  | .linear => linLeft o.bins k
  | .twoD => twoDLeft o.bins k

/-- `right_edges`, corr2base.py:393, 414, 438. -/
def right (o : Obj) (k : ℕ) : ℝ :=
  match o.bt with
  | .log => logRight o.bins k
  | .linear => linRight o.bins k
  | .twoD => twoDRight o.bins k

/-- `nonzero`, corr2base.py:715-718. -/
def nonzero (o : Obj) : Prop := ∃ k : ℕ, (k : ℤ) < total o ∧ o.npairs k ≠ 0

/-- Can numpy add the arrays of `b` to those of `a` in place?  The arrays have the shape of `rnom`
(corr2base.py:510-513): `(n,n)` for TwoD, `(n,)` otherwise. -/
def fits (a b : Obj) : Prop :=
  if a.bt = .twoD then
    if b.bt = .twoD then a.bins.nbins = b.bins.nbins else b.bins.nbins = a.bins.nbins ∨ b.bins.nbins = 1
  else b.bt ≠ .twoD ∧ (a.bins.nbins = b.bins.nbins ∨ b.bins.nbins = 1)

/-- `self._set_metric(other.metric, other.coords, other.coords)`, corr2base.py:1217.  If `coords` is None,
`parse_metric` raises (util.py:323-324). -/
def takeMetric (a b : Obj) : Except PyErr (String × String) :=
  match b.used with
  | none => .error .valueError
  | some (c, m) => setMetric a.set m c (some c)

/-- `__iadd__`, corr2base.py:1202-1227; NN also adds `tot`, nncorrelation.py:220-230. -/
def iadd (a b : Obj) : Except PyErr Obj :=
  if b.cls ≠ a.cls then .error .typeError
  else if ¬ (total a = total b ∧ a.bins.minsep = b.bins.minsep ∧ a.bins.maxsep = b.bins.maxsep) then
    .error .valueError
  else match takeMetric a b with
    | .error e => .error e
    | .ok u =>
      let t := if a.cls = "NNCorrelation" then a.tot + b.tot else a.tot
      if ¬ nonzero b then .ok { a with used := some u, tot := t }
      else if ¬ fits a b then .error .valueError
      else .ok { a with
        used := some u
        npairs := fun k => a.npairs k + b.npairs k
        weight := fun k => a.weight k + b.weight k
        tot := t }

end
end Adding
end TreeCorr
