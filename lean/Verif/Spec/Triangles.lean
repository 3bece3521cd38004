import Verif.Spec.Brute
import Verif.Spec.Triples

/-! Specification vocabulary for triangle counting: the side lengths of a triple of rows, and the bin a triangle belongs to. -/

namespace TreeCorr
open Classical
noncomputable section
variable {P : Type} [PseudoMetricSpace P]

/-- The triples with one row from `xs` and two distinct rows of `ys`, in all orders. -/
def mixedTriples {α : Type} (xs ys : List α) : Multiset (α × α × α) :=
  ((xs : Multiset α) ×ˢ autoPairs ys).bind orders6

/-- The triples with one row from each of three catalogues, in all orders. -/
def mixed3Triples {α : Type} (xs ys zs : List α) : Multiset (α × α × α) := (crossTriples xs ys zs).bind orders6

/-- Side 1 of a triple of rows, opposite the first: the distance of the second and the third. -/
def side1 (t : Obj P × Obj P × Obj P) : ℝ := dist t.2.1.pos t.2.2.pos
/-- Side 2, opposite the second row. -/
def side2 (t : Obj P × Obj P × Obj P) : ℝ := dist t.1.pos t.2.2.pos
/-- Side 3, opposite the third row. -/
def side3 (t : Obj P × Obj P × Obj P) : ℝ := dist t.1.pos t.2.1.pos

/-- The metric helper is the distance of the space, and `CCW` does not tell points at distance zero apart. -/
structure Metric3.Of [PseudoMetricSpace P] (M : Metric3 P) : Prop where
  distSq : ∀ p q, M.distSq p q = dist p q ^ 2
  ccw : ∀ p p' q q' r r', dist p p' = 0 → dist q q' = 0 → dist r r' = 0 → (M.ccw p q r ↔ M.ccw p' q' r')

/-- Ptolemy's inequality for all quadrangles.  It holds in flat space. -/
def Ptolemaic (P : Type) [PseudoMetricSpace P] : Prop :=
  ∀ a b c d : P, dist a c * dist b d ≤ dist a b * dist c d + dist b c * dist a d

/-- An orientation: unchanged when the points are taken in turn, reversed when two are exchanged. -/
structure Metric3.Oriented (M : Metric3 P) : Prop where
  cyc : ∀ p q r, M.ccw p q r → M.ccw q r p
  anti : ∀ p q r, M.ccw p q r → ¬ M.ccw p r q

/-- The three rows lie on a line (on the sphere: on a great circle): neither order is counter-clockwise. -/
def OnLine (ccw : P → P → P → Prop) (t : Obj P × Obj P × Obj P) : Prop :=
  ¬ ccw t.1.pos t.2.2.pos t.2.1.pos ∧ ¬ ccw t.1.pos t.2.1.pos t.2.2.pos

/-- `u = d3/d2`. -/
def triU (t : Obj P × Obj P × Obj P) : ℝ := side3 t / side2 t
/-- `v` without sign: `(d1-d2)/d3`. -/
def triV (t : Obj P × Obj P × Obj P) : ℝ := (side1 t - side2 t) / side3 t

/-- `v` with its sign. -/
def triVs (ccw : P → P → P → Prop) (t : Obj P × Obj P × Obj P) : ℝ :=
  if ccw t.1.pos t.2.1.pos t.2.2.pos then triV t else -triV t

/-- The place of the bin `kr, ku, kv` in the output arrays of shape `(nbins, nubins, 2 nvbins)`: the third axis runs from the largest
negative to the largest positive `v`, positive for triangles with the rows 1, 2, 3 counter-clockwise. -/
def ruvPlace (p : Prm3) (kr ku kv : ℤ) (ccw : Prop) : ℤ :=
  (kr * p.nubins + ku) * (2 * p.nvbins) + (if ccw then p.nvbins + kv else p.nvbins - 1 - kv)

/-- The triple of rows, in this order, is a triangle `d1 ≥ d2 ≥ d3 > 0` with `d2` in logarithmic bin `kr`, `u` in linear bin `ku` and
`|v|` in linear bin `kv`. -/
def InRuv (p : Prm3) (kr ku kv : ℤ) (t : Obj P × Obj P × Obj P) : Prop :=
  side2 t ≤ side1 t ∧ side3 t ≤ side2 t ∧ 0 < side3 t ∧
    InLogBin p.minsep p.binsize p.nbins kr (side2 t) ∧
    InLinBin p.minu p.ubinsize p.nubins ku (triU t) ∧
    InLinBin p.minv p.vbinsize p.nvbins kv (triV t)

/-- The triple belongs to the bin at place `k` of the arrays of a `LogRUV` correlation. -/
def inRuv (p : Prm3) (ccw : P → P → P → Prop) (k : ℤ) (t : Obj P × Obj P × Obj P) : Prop :=
  ∃ kr ku kv, InRuv p kr ku kv t ∧ k = ruvPlace p kr ku kv (ccw t.1.pos t.2.1.pos t.2.2.pos)

/-- The cosine of the angle at the first row, by the law of cosines. -/
def triCos (t : Obj P × Obj P × Obj P) : ℝ := (side2 t ^ 2 + side3 t ^ 2 - side1 t ^ 2) / (2 * side2 t * side3 t)
/-- The angle at the first row, between the sides `d2` and `d3`. -/
def triPhi (t : Obj P × Obj P × Obj P) : ℝ := Real.arccos (triCos t)

/-- The place of the bin `k2, k3, kphi` in the output arrays of shape `(nbins, nbins, nphi)`. -/
def sasPlace (p : Prm3) (k2 k3 kphi : ℤ) : ℤ := (k2 * p.nbins + k3) * p.nubins + kphi

/-- `d2`, `d3` in logarithmic bins `k2`, `k3` and the angle between them in linear bin `kphi`. -/
def InSas (p : Prm3) (k2 k3 kphi : ℤ) (t : Obj P × Obj P × Obj P) : Prop :=
  InLogBin p.minsep p.binsize p.nbins k2 (side2 t) ∧ InLogBin p.minsep p.binsize p.nbins k3 (side3 t) ∧
    InLinBin p.minu p.ubinsize p.nubins kphi (triPhi t)

/-- The triple belongs to the bin at place `k` of the arrays of a `LogSAS` correlation: the rows 1, 3, 2 are counter-clockwise. -/
def inSas (p : Prm3) (ccw : P → P → P → Prop) (k : ℤ) (t : Obj P × Obj P × Obj P) : Prop :=
  ∃ k2 k3 kphi, InSas p k2 k3 kphi t ∧ ccw t.1.pos t.2.2.pos t.2.1.pos ∧ k = sasPlace p k2 k3 kphi

/-- Allowing for the slop, the triple belongs to the bin at place `k` of a `LogRUV` correlation: `d1, d2, d3` (with `u = d3/d2` and
`v = (d1-d2)/d3`) are in the bin, and the sides of the triple differ from those as much as the tolerances `b`, `bu`, `bv` allow; `δ` is
the distance below which rows are merged. -/
def NearRuv (p : Prm3) (δ : ℝ) (k : ℤ) (t : Obj P × Obj P × Obj P) : Prop :=
  ∃ (kr ku kv : ℤ) (ccw : Prop) (d1 d2 d3 u v : ℝ), k = ruvPlace p kr ku kv ccw ∧
    (InLogBin p.minsep p.binsize p.nbins kr d2 ∧ InLinBin p.minu p.ubinsize p.nubins ku u ∧
      InLinBin p.minv p.vbinsize p.nvbins kv v) ∧ (d3 = u * d2 ∧ d1 - d2 = v * d3) ∧
    |side2 t - d2| ≤ p.b * d2 + 2 * δ ∧
    |side3 t - u * side2 t| ≤ (1 + u) * (p.bu * d2 + 2 * δ) ∧
    |side1 t - side2 t - v * side3 t| ≤ p.bv * (d3 + 2 * d2) + (4 + 2 * v) * δ

/-- Allowing for the slop in the sides (and saying nothing about the angle), the triple belongs to the bin at place `k` of a `LogSAS`
correlation. -/
def NearSas (p : Prm3) (δ : ℝ) (k : ℤ) (t : Obj P × Obj P × Obj P) : Prop :=
  ∃ (k2 k3 kphi : ℤ) (d2 d3 phi : ℝ), k = sasPlace p k2 k3 kphi ∧
    (InLogBin p.minsep p.binsize p.nbins k2 d2 ∧ InLogBin p.minsep p.binsize p.nbins k3 d3 ∧
      InLinBin p.minu p.ubinsize p.nubins kphi phi) ∧
    |side2 t - d2| ≤ p.b * d2 + 2 * δ ∧ |side3 t - d3| ≤ p.b * d3 + 2 * δ

/-- Consistent limits of a `LogSAS` correlation (`minu` etc. are the limits of the angle). -/
structure SasParams (p : Prm3) : Prop where
  minsep : 0 < p.minsep
  binsize : 0 < p.binsize
  nbins : 0 ≤ p.nbins
  maxsep : p.maxsep = p.minsep * Real.exp (p.nbins * p.binsize)
  minphi : 0 ≤ p.minu
  phibinsize : 0 < p.ubinsize
  nphibins : 0 ≤ p.nubins
  maxphi : p.maxu = p.minu + p.nubins * p.ubinsize
  maxphi_le : p.maxu ≤ Real.pi

/-- Place `k` of the arrays holds the brute-force sums over the triples of rows in `m`; `fu`, `fv` are what is averaged in `meanu` and
`meanv`. -/
structure Acc3.Holds (A : Acc3) (k : ℤ) (m : Multiset (Obj P × Obj P × Obj P)) (fu fv : Obj P × Obj P × Obj P → ℝ) : Prop where
  weight : A.weight k = brute3 (fun _ => 1) m
  zeta : A.zeta k = brute3K m
  meand1 : A.meand1 k = brute3 side1 m
  meand2 : A.meand2 k = brute3 side2 m
  meand3 : A.meand3 k = brute3 side3 m
  meanlogd1 : A.meanlogd1 k = brute3 (fun t => Real.log (side1 t)) m
  meanlogd2 : A.meanlogd2 k = brute3 (fun t => Real.log (side2 t)) m
  meanlogd3 : A.meanlogd3 k = brute3 (fun t => Real.log (side3 t)) m
  meanu : A.meanu k = brute3 fu m
  meanv : A.meanv k = brute3 fv m
  ntri : (∀ t ∈ m, 0 < t.1.w ∧ 0 < t.2.1.w ∧ 0 < t.2.2.w) → A.ntri k = brute3N m

/-- Consistent limits of a `LogRUV` correlation. -/
structure RuvParams (p : Prm3) : Prop where
  minsep : 0 < p.minsep
  binsize : 0 < p.binsize
  nbins : 0 ≤ p.nbins
  maxsep : p.maxsep = p.minsep * Real.exp (p.nbins * p.binsize)
  minu : 0 ≤ p.minu
  ubinsize : 0 < p.ubinsize
  nubins : 0 ≤ p.nubins
  maxu : p.maxu = p.minu + p.nubins * p.ubinsize
  maxu_le : p.maxu ≤ 1
  minv : 0 ≤ p.minv
  vbinsize : 0 < p.vbinsize
  nvbins : 0 ≤ p.nvbins
  maxv : p.maxv = p.minv + p.nvbins * p.vbinsize
  maxv_le : p.maxv ≤ 1

end
end TreeCorr
