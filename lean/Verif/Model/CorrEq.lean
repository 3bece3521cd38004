import Verif.Model.Adding
import Verif.Model.Xi

/-!
# `==` of two-point objects

As in `Model/Adding`, arrays are functions of the flat index; `xi` stands for `_xi1` to `_xi4`, and `meanr` for `meanr` and `meanlogr`.
-/

namespace TreeCorr
namespace Adding
open Classical
noncomputable section

/-- The attributes that are compared, beside those of `Obj`.  `sepUnits` is the name of the unit. -/
structure EObj extends Obj where
  sepUnits : String
  binSlop : ℝ
  angleSlop : ℝ
  minRpar : Option ℝ
  maxRpar : Option ℝ
  xperiod : ℝ
  yperiod : ℝ
  zperiod : ℝ
  meanr : ℕ → ℝ
  xi : ℕ → ℝ

/-- `np.array_equal` of two arrays with `n` elements. -/
def sameArray (n : ℤ) (f g : ℕ → ℝ) : Prop := ∀ k : ℕ, (k : ℤ) < n → f k = g k

/-- `__eq__`, corr2base.py:643-667, in this order.  The shapes of the arrays follow from `bin_type` and `nbins`. -/
def equal (a b : EObj) : Prop :=
  b.cls = a.cls ∧ a.bins.nbins = b.bins.nbins ∧ a.bins.binsize = b.bins.binsize ∧ a.bins.minsep = b.bins.minsep ∧
  a.bins.maxsep = b.bins.maxsep ∧ a.sepUnits = b.sepUnits ∧ a.used.map Prod.fst = b.used.map Prod.fst ∧ a.bt = b.bt ∧
  a.binSlop = b.binSlop ∧ a.angleSlop = b.angleSlop ∧ a.minRpar = b.minRpar ∧ a.maxRpar = b.maxRpar ∧
  a.xperiod = b.xperiod ∧ a.yperiod = b.yperiod ∧ a.zperiod = b.zperiod ∧ sameArray (total a.toObj) a.meanr b.meanr ∧
  sameArray (total a.toObj) a.weight b.weight ∧ sameArray (total a.toObj) a.npairs b.npairs ∧
  sameArray (total a.toObj) a.xi b.xi

/-- What `__iadd__` does to the whole object, corr2base.py:1217-1227. -/
def addTo (a b : EObj) : Except PyErr EObj :=
  match iadd a.toObj b.toObj with
  | .error e => .error e
  | .ok o => .ok { a with
      toObj := o
      meanr := if nonzero b.toObj then fun k => a.meanr k + b.meanr k else a.meanr
      xi := if nonzero b.toObj then fun k => a.xi k + b.xi k else a.xi }

/-- `xi` of `calculateXi(rr=r)` without `dr` and `rd`, nncorrelation.py:326-360, in bin `k`. -/
def simpleXi (a r : EObj) (k : ℕ) : Option ℝ :=
  npDiv (a.weight k - r.weight k * (a.tot / r.tot)) (if r.weight k = 0 then 1 else r.weight k * (a.tot / r.tot))

end
end Adding
end TreeCorr
