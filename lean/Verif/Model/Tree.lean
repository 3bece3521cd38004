import Mathlib.Analysis.InnerProductSpace.PiL2
import Mathlib.Algebra.Order.Floor.Semiring
import Mathlib.Tactic.Linarith
import Verif.Model.Corr2

/-!
Model of the tree builder, `/repo/src/Cell.cpp:89-100, 170-200, 393-615`, `/repo/include/Bounds.h` and
`/repo/src/Field.cpp:27-81, 154-290`.

The array segment `vdata[start..end)` is a list.  `std::partition`, `std::nth_element` and `urand` are
parameters of which only the contract of the C++ standard is known.
-/

namespace TreeCorr
open Classical
noncomputable section

/-- What `Position<C>` provides to the tree builder, /repo/include/Position.h. -/
structure Geom (P : Type) where
  /-- number of coordinates: 2 for `Flat`, 3 otherwise -/
  ndim : ℕ
  /-- `get(i)` -/
  coord : ℕ → P → ℝ
  /-- `(p-q).normSq()` -/
  normSq : P → P → ℝ
  /-- position of a cell with these objects, `BuildCellData`, /repo/src/Cell.cpp:170-200 -/
  mean : List (Obj P) → P

/-- The position computed by `BuildCellData`, /repo/src/Cell.cpp:170-200, in a vector space:
the `wpos`-weighted mean, normalised (a no-op unless on the sphere), or the first position if the
weights sum to 0. -/
def wmean {E : Type} [AddCommGroup E] [Module ℝ E] (normalize : E → E) (l : List (Obj E)) : E :=
  let sumwp := (l.map Obj.wpos).sum
  if sumwp ≠ 0 then normalize (sumwp⁻¹ • (l.map (fun o => o.wpos • o.pos)).sum)
  else match l with
    | [] => 0
    | o :: _ => o.pos

/-- `Position<Flat>` (`d = 2`) and `Position<ThreeD>` (`d = 3`), /repo/include/Position.h:28-220. -/
def euclidGeom (d : ℕ) : Geom (EuclideanSpace ℝ (Fin d)) where
  ndim := d
  coord := fun i p => if h : i < d then p ⟨i, h⟩ else 0
  normSq := fun p q => ‖p - q‖ ^ 2
  mean := wmean id

/-- `Position<Sphere>::normalize`, /repo/include/Position.h:249-254. -/
def sphereNormalize (p : EuclideanSpace ℝ (Fin 3)) : EuclideanSpace ℝ (Fin 3) :=
  if ‖p‖ = 0 then !₂[1, 0, 0] else ‖p‖⁻¹ • p

/-- `Position<Sphere>`, /repo/include/Position.h:225-278: as 3d, but means are put back on the unit sphere. -/
def sphereGeom : Geom (EuclideanSpace ℝ (Fin 3)) :=
  { euclidGeom 3 with mean := wmean sphereNormalize }

/-- What the standard library promises about `std::partition` and `std::nth_element`, and the numbers
returned by `urand()` (one per list of objects being split). -/
structure StdAlg (P : Type) where
  partition : (Obj P → Bool) → List (Obj P) → List (Obj P)
  partition_perm : ∀ f l, (partition f l).Perm l
  partition_true : ∀ f l, ∀ o ∈ (partition f l).take (l.countP f), f o = true
  partition_false : ∀ f l, ∀ o ∈ (partition f l).drop (l.countP f), f o = false
  nth : (Obj P → ℝ) → ℕ → List (Obj P) → List (Obj P)
  nth_perm : ∀ key m l, (nth key m l).Perm l
  nth_le : ∀ key m l, ∀ o ∈ (nth key m l).take m, ∀ o' ∈ (nth key m l).drop m, key o ≤ key o'
  urand : List (Obj P) → ℝ

/-- `SplitMethod`. -/
inductive SplitMethod where
  | middle | median | mean | random

/-- Lower bound of coordinate `i`: `Bounds::operator+=`, /repo/include/Bounds.h:47-60, 121-137. -/
def boundLo {P : Type} (g : Geom P) (i : ℕ) : List (Obj P) → ℝ
  | [] => 0
  | o :: os => os.foldl (fun m o' => min m (g.coord i o'.pos)) (g.coord i o.pos)
/-- Upper bound of coordinate `i`. -/
def boundHi {P : Type} (g : Geom P) (i : ℕ) : List (Obj P) → ℝ
  | [] => 0
  | o :: os => os.foldl (fun m o' => max m (g.coord i o'.pos)) (g.coord i o.pos)
/-- Extent in coordinate `i`. -/
def boundRange {P : Type} (g : Geom P) (i : ℕ) (l : List (Obj P)) : ℝ := boundHi g i l - boundLo g i l

/-- `Bounds::getSplit`, /repo/include/Bounds.h:68-69, 147-155. -/
def getSplit {P : Type} (g : Geom P) (l : List (Obj P)) : ℕ :=
  let xr := boundRange g 0 l
  let yr := boundRange g 1 l
  if g.ndim = 2 then (if yr > xr then 1 else 0)
  else
    let zr := boundRange g 2 l
    if yr > xr then (if zr > yr then 2 else 1) else (if zr > xr then 2 else 0)

/-- `select_random`, /repo/src/Cell.cpp:430-441.  `hi-lo+1` is in `size_t`; it is only called with
`lo ≤ hi+1`, where this is the natural number `hi+1-lo`. -/
def selectRandom (u : ℝ) (lo hi : ℕ) : ℕ :=
  if lo = hi then lo
  else
    let mid := ⌊u * ((hi + 1 - lo : ℕ) : ℝ)⌋₊ + lo
    if mid > hi then hi else mid

/-- `SplitDataCore<C,SM>::run`, /repo/src/Cell.cpp:448-518: the rearranged segment and `mid - start`. -/
def splitCore {P : Type} (A : StdAlg P) (g : Geom P) (sm : SplitMethod) (l : List (Obj P)) (mean : P)
    (split : ℕ) : List (Obj P) × ℕ :=
  let key := fun o : Obj P => g.coord split o.pos
  match sm with
  | .middle =>
    let v := (boundHi g split l + boundLo g split l) / 2
    let f := fun o => decide (key o < v)
    (A.partition f l, l.countP f)
  | .median => (A.nth key (l.length / 2) l, l.length / 2)
  | .mean =>
    let f := fun o => decide (key o < g.coord split mean)
    (A.partition f l, l.countP f)
  | .random =>
    let n := l.length
    let mid := selectRandom (A.urand l) (n - 3 * n / 5) (3 * n / 5)
    (A.nth key mid l, mid)

/-- `SplitData`, /repo/src/Cell.cpp:520-554: the two parts.  The fallback acts on the rearranged segment. -/
def splitData {P : Type} (A : StdAlg P) (g : Geom P) (sm : SplitMethod) (l : List (Obj P)) (mean : P) :
    List (Obj P) × List (Obj P) :=
  let c := splitCore A g sm l mean (getSplit g l)
  if c.2 = 0 ∨ c.2 = l.length then
    let m := splitCore A g .median c.1 mean (getSplit g c.1)
    (m.1.take m.2, m.1.drop m.2)
  else (c.1.take c.2, c.1.drop c.2)

/-- `BaseCellData(vdata,start,end)` and `finishAverages` for NData and KData,
/repo/src/Cell.cpp:170-230. -/
def cellData {P : Type} (g : Geom P) (l : List (Obj P)) : CellData P where
  pos := g.mean l
  n := l.length
  w := (l.map Obj.w).sum
  wk := (l.map Obj.wk).sum

/-- `CalculateSizeSq`, /repo/src/Cell.cpp:89-100. -/
def calcSizeSq {P : Type} (g : Geom P) (cen : P) (l : List (Obj P)) : ℝ :=
  l.foldl (fun s o => if g.normSq cen o.pos > s then g.normSq cen o.pos else s) 0

/-! Facts needed for termination. -/

theorem splitCore_perm {P : Type} (A : StdAlg P) (g : Geom P) (sm : SplitMethod) (l : List (Obj P))
    (mean : P) (split : ℕ) : (splitCore A g sm l mean split).1.Perm l := by
  cases sm <;> simp only [splitCore]
  · exact A.partition_perm _ _
  · exact A.nth_perm _ _ _
  · exact A.partition_perm _ _
  · exact A.nth_perm _ _ _

theorem splitCore_le {P : Type} (A : StdAlg P) (g : Geom P) (sm : SplitMethod) (l : List (Obj P))
    (mean : P) (split : ℕ) : (splitCore A g sm l mean split).2 ≤ l.length := by
  cases sm <;> simp only [splitCore]
  · exact List.countP_le_length
  · omega
  · exact List.countP_le_length
  · unfold selectRandom
    split
    · omega
    · simp only
      split <;> omega

theorem splitData_perm {P : Type} (A : StdAlg P) (g : Geom P) (sm : SplitMethod) (l : List (Obj P))
    (mean : P) : ((splitData A g sm l mean).1 ++ (splitData A g sm l mean).2).Perm l := by
  unfold splitData
  simp only
  split
  · rw [List.take_append_drop]
    exact (splitCore_perm A g _ _ _ _).trans (splitCore_perm A g _ _ _ _)
  · rw [List.take_append_drop]
    exact splitCore_perm A g _ _ _ _

theorem splitData_lt {P : Type} (A : StdAlg P) (g : Geom P) (sm : SplitMethod) (l : List (Obj P))
    (mean : P) (h : 2 ≤ l.length) :
    0 < (splitData A g sm l mean).1.length ∧ (splitData A g sm l mean).1.length < l.length ∧
    0 < (splitData A g sm l mean).2.length ∧ (splitData A g sm l mean).2.length < l.length := by
  unfold splitData
  simp only
  have e1 := (splitCore_perm A g sm l mean (getSplit g l)).length_eq
  have le := splitCore_le A g sm l mean (getSplit g l)
  split
  · have e2 := (splitCore_perm A g .median (splitCore A g sm l mean (getSplit g l)).1 mean
      (getSplit g (splitCore A g sm l mean (getSplit g l)).1)).length_eq
    have e3 : (splitCore A g .median (splitCore A g sm l mean (getSplit g l)).1 mean
      (getSplit g (splitCore A g sm l mean (getSplit g l)).1)).2
        = (splitCore A g sm l mean (getSplit g l)).1.length / 2 := rfl
    rw [List.length_take, List.length_drop, e2, e3, e1]
    omega
  · rename_i hne
    rw [List.length_take, List.length_drop, e1]
    omega

/-- `BuildCell`, /repo/src/Cell.cpp:556-615, without `brute`.  The code asserts that the segment is not
empty. -/
def buildCell {P : Type} (A : StdAlg P) (g : Geom P) (sm : SplitMethod) (minsizesq : ℝ) :
    List (Obj P) → Cell P
  | [] => .leaf ⟨g.mean [], 0, 0, 0⟩ []
  | [o] => .leaf ⟨o.pos, 1, o.w, o.wk⟩ [o]
  | o1 :: o2 :: os =>
    let l := o1 :: o2 :: os
    let data := cellData g l
    let sizesq := calcSizeSq g data.pos l
    if sizesq > minsizesq then
      let sp := splitData A g sm l data.pos
      .node data (Real.sqrt sizesq) (buildCell A g sm minsizesq sp.1) (buildCell A g sm minsizesq sp.2)
    else .leaf data l
termination_by l => l.length
decreasing_by
  all_goals
    have := splitData_lt A g sm (o1 :: o2 :: os) (cellData g (o1 :: o2 :: os)).pos (by simp)
    simp_all

/-- `SetupTopLevelCells`, /repo/src/Field.cpp:27-81: the segments of the top-level cells, in order. -/
def topCells {P : Type} (A : StdAlg P) (g : Geom P) (sm : SplitMethod) (maxsizesq : ℝ)
    (mintop maxtop : ℤ) : List (Obj P) → List (List (Obj P))
  | [] => []
  | [o] => [[o]]
  | o1 :: o2 :: os =>
    let l := o1 :: o2 :: os
    let ave := g.mean l
    let sizesq := calcSizeSq g ave l
    if sizesq = 0 ∨ (sizesq ≤ maxsizesq ∧ mintop ≤ 0) then [l]
    else if maxtop ≤ 0 then [l]
    else
      let sp := splitData A g sm l ave
      topCells A g sm maxsizesq (mintop - 1) (maxtop - 1) sp.1 ++
        topCells A g sm maxsizesq (mintop - 1) (maxtop - 1) sp.2
termination_by l => l.length
decreasing_by
  all_goals
    have := splitData_lt A g sm (o1 :: o2 :: os) (g.mean (o1 :: o2 :: os)) (by simp)
    simp_all

/-- The arguments of the `Field` constructor other than the data. -/
structure FieldParams where
  minsize : ℝ
  maxsize : ℝ
  sm : SplitMethod
  mintop : ℤ
  maxtop : ℤ

/-- The `Field` constructor and `BuildCells`, /repo/src/Field.cpp:154-290. -/
def buildField {P : Type} (A : StdAlg P) (g : Geom P) (fp : FieldParams) (l : List (Obj P)) : Field P where
  center := g.mean l
  size := Real.sqrt (calcSizeSq g (g.mean l) l)
  cells := (topCells A g fp.sm (fp.maxsize * fp.maxsize) fp.mintop fp.maxtop l).map
    (buildCell A g fp.sm (fp.minsize * fp.minsize))

end
end TreeCorr
