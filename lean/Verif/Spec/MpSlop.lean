import Verif.Spec.Multipole
import Verif.Spec.Slop

/-! Specification vocabulary for the multipole expansion with slop.  Each row of the first catalogue has a view of the others: the rows
it sees, each from some place near itself and at some place near the row.  The arrays are sums over the triangles so seen. -/

namespace TreeCorr
open Classical
noncomputable section
variable {P : Type}

/-- A row as it is seen: from `eye`, at `spot`. -/
structure Seen (P : Type) where
  row : Obj P
  eye : P
  spot : P

/-- The separation at which the row is seen. -/
def Seen.sep [PseudoMetricSpace P] (m : Seen P) : ℝ := dist m.eye m.spot

/-- The row `o` sees a row well enough.  It is seen in some bin; the true separation is in that bin widened by `b` above and `b+b²`
below, after a change of at most `2δ`; and the two ends are off by no more than the angle slop times the separation, and `2δ`. -/
structure SeenNear [PseudoMetricSpace P] (p : Params) (δ : ℝ) (o : Obj P) (m : Seen P) : Prop where
  bin : ∃ k, InLogBin p.minsep p.binsize p.nbins k m.sep ∧ NearLogBin p (p.b + p.b ^ 2) p.b (2 * δ) k (dist o.pos m.row.pos)
  off : dist o.pos m.eye + dist m.row.pos m.spot ≤ p.a * m.sep + 2 * δ

/-- The rows of the catalogue `rows` that `o` sees: every row is seen once, well enough, or else is outside the range of the bins, after a
change of at most `2δ`, narrowed by the slop. -/
def Sees (near : Obj P → Seen P → Prop) (far : Obj P → Obj P → Prop) (o : Obj P) (rows : Multiset (Obj P)) (M : List (Seen P)) : Prop :=
  (∀ m ∈ M, near o m) ∧ ∃ D : Multiset (Obj P), (M.map Seen.row : Multiset (Obj P)) + D = rows ∧ ∀ x ∈ D, far o x

/-- A row with what it sees of the second and of the third catalogue. -/
abbrev View (P : Type) := Obj P × List (Seen P) × List (Seen P)

/-- One view for each row of the first catalogue. -/
structure SeenViews [PseudoMetricSpace P] (p : Params) (δ : ℝ) (l1 l2 l3 : List (Obj P)) (L : List (View P)) : Prop where
  rows : (L.map Prod.fst).Perm l1
  sees2 : ∀ v ∈ L, Sees (SeenNear p δ) (fun o x => OutsideLog p (2 * δ) (dist o.pos x.pos)) v.1 l2 v.2.1
  sees3 : ∀ v ∈ L, Sees (SeenNear p δ) (fun o x => OutsideLog p (2 * δ) (dist o.pos x.pos)) v.1 l3 v.2.2

/-- The triangles seen, point 2 from the second catalogue and point 3 from the third. -/
def seenTriples (L : List (View P)) : Multiset (Obj P × Seen P × Seen P) :=
  (L : Multiset (View P)).bind fun v => ((v.2.1 : Multiset (Seen P)) ×ˢ (v.2.2 : Multiset (Seen P))).map fun q => (v.1, q)

/-- The triangles seen, points 2 and 3 two different rows of the second catalogue. -/
def seenPairs (L : List (View P)) : Multiset (Obj P × Seen P × Seen P) :=
  (L : Multiset (View P)).bind fun v => (orderedPairs v.2.1).map fun q => (v.1, q)

/-- The triangle is seen in entry `[k2,k3]`. -/
def SeenIn [PseudoMetricSpace P] (p : Params) (k2 k3 : ℤ) (q : Obj P × Seen P × Seen P) : Prop :=
  InLogBin p.minsep p.binsize p.nbins k2 q.2.2.sep ∧ InLogBin p.minsep p.binsize p.nbins k3 q.2.1.sep

/-- `ntri` is the number of triangles seen. -/
def SeenCounts [PseudoMetricSpace P] (p : Params) (T : Multiset (Obj P × Seen P × Seen P)) (out : List (ℤ × ℤ × MpVals)) : Prop :=
  ∀ k2 k3, p.hasBin k2 → p.hasBin k3 → mpTotal MpVals.ntri out k2 k3 = (Multiset.card (T.filter (SeenIn p k2 k3)) : ℝ)

/-- `weight` and `zeta` of index `n` are the sums with the phase of index `n`, for the directions in which the rows are seen. -/
def SeenPhases [PseudoMetricSpace P] (p : Params) (ph : P → P → ℂ) (n : ℤ) (T : Multiset (Obj P × Seen P × Seen P))
    (out : List (ℤ × ℤ × MpVals)) : Prop :=
  ∀ k2 k3, p.hasBin k2 → p.hasBin k3 →
    mpTotal (fun v => v.weight n) out k2 k3 = ((T.filter (SeenIn p k2 k3)).map fun q =>
      ((q.1.w * q.2.1.row.w * q.2.2.row.w : ℝ) : ℂ) * (ph q.2.2.eye q.2.2.spot / ph q.2.1.eye q.2.1.spot) ^ n).sum ∧
    mpTotal (fun v => v.zeta n) out k2 k3 = ((T.filter (SeenIn p k2 k3)).map fun q =>
      ((q.1.wk * q.2.1.row.wk * q.2.2.row.wk : ℝ) : ℂ) * (ph q.2.2.eye q.2.2.spot / ph q.2.1.eye q.2.1.spot) ^ n).sum

/-- The sum of `w1 w2 w3 f` over the triangles seen. -/
def seenSum (f : Obj P × Seen P × Seen P → ℝ) (T : Multiset (Obj P × Seen P × Seen P)) : ℝ :=
  (T.map fun q => q.1.w * q.2.1.row.w * q.2.2.row.w * f q).sum

/-- `meand2`, `meanlogd2` and `meand3` are the weighted sums of the sides seen. -/
def SeenMeans [PseudoMetricSpace P] (p : Params) (T : Multiset (Obj P × Seen P × Seen P)) (out : List (ℤ × ℤ × MpVals)) : Prop :=
  ∀ k2 k3, p.hasBin k2 → p.hasBin k3 →
    mpTotal MpVals.meand2 out k2 k3 = seenSum (fun q => q.2.2.sep) (T.filter (SeenIn p k2 k3)) ∧
    mpTotal MpVals.meanlogd2 out k2 k3 = seenSum (fun q => Real.log q.2.2.sep) (T.filter (SeenIn p k2 k3)) ∧
    mpTotal MpVals.meand3 out k2 k3 = seenSum (fun q => q.2.1.sep) (T.filter (SeenIn p k2 k3))

/-- `meanlogd3` likewise. -/
def SeenLog3 [PseudoMetricSpace P] (p : Params) (T : Multiset (Obj P × Seen P × Seen P)) (out : List (ℤ × ℤ × MpVals)) : Prop :=
  ∀ k2 k3, p.hasBin k2 → p.hasBin k3 →
    mpTotal MpVals.meanlogd3 out k2 k3 = seenSum (fun q => Real.log q.2.1.sep) (T.filter (SeenIn p k2 k3))

/-- The directions in which the rows are seen are of modulus one, where it matters. -/
def SeenUnit (ph : P → P → ℂ) (n : ℤ) (L : List (View P)) : Prop :=
  n = 0 ∨ ∀ v ∈ L, ∀ m ∈ v.2.1 ++ v.2.2, Complex.normSq (ph m.eye m.spot) = 1

/-- The views with the second and the third catalogue interchanged. -/
def swapViews (L : List (View P)) : List (View P) := L.map fun v => (v.1, v.2.2, v.2.1)

/-- The separation is clear of the edges of the bins: inside a bin narrowed by the slop, or outside the widened range of the bins. -/
def ClearLog (p : Params) (d : ℝ) : Prop :=
  (∃ k : ℤ, 0 ≤ k ∧ k < p.nbins ∧ 0 < d ∧ Real.log p.minsep + k * p.binsize + p.b < Real.log d ∧
    Real.log d < Real.log p.minsep + (k + 1) * p.binsize - (p.b + p.b ^ 2)) ∨
  d < p.minsep * Real.exp (-(p.b + p.b ^ 2)) ∨ p.maxsep * Real.exp p.b ≤ d

end
end TreeCorr
