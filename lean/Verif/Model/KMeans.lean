import Verif.Model.Parallel
import Verif.Model.Select

/-!
Model of the k-means code, `/repo/src/KMeans.cpp`.

Positions of the centres are `cen i`, `i < npatch`.  Squared distances are the squares of the distance of the metric space.
Arrays whose length is fixed and whose indices are visibly in range are functions on `ℕ`.
-/

namespace TreeCorr.KMeans
open Classical
noncomputable section
variable {P : Type}

/-- `std::swap(a[i], a[j])`. -/
def swapF {α : Type} (a : ℕ → α) (i j : ℕ) : ℕ → α := fun k => if k = i then a j else if k = j then a i else a k

/-- The distance that is minimised: `dsq`, or `dsq + I_i` for `alt`, /repo/src/KMeans.cpp:560-564, 573-579. -/
def modDsq (I : Option (ℕ → ℝ)) (dsq : ℝ) (i : ℕ) : ℝ :=
  match I with
  | none => dsq
  | some f => dsq + f i

/-- The state of the first loop of `FindCellsInPatches`: `patches`, `saved_dsq` and `min_dsq`.  `closest_i` is always
`patches[0]`. -/
structure Scan where
  ps : ℕ → ℕ
  saved : ℕ → ℝ
  min : ℝ

/-- Start of the search for the closest centre, /repo/src/KMeans.cpp:556-564.  `cd i` is the squared distance of the cell from
centre `i`.  The old contents of the work space `saved_dsq` are overwritten before they are read. -/
def scanInit (cd : ℕ → ℝ) (I : Option (ℕ → ℝ)) (ps : ℕ → ℕ) : Scan :=
  { ps := ps, saved := fun _ => cd (ps 0), min := modDsq I (cd (ps 0)) (ps 0) }

/-- One turn of the search, /repo/src/KMeans.cpp:571-587. -/
def scanStep (cd : ℕ → ℝ) (I : Option (ℕ → ℝ)) (st : Scan) (j : ℕ) : Scan :=
  let i := st.ps j
  let saved := Function.update st.saved j (cd i)
  let dsq := modDsq I (cd i) i
  if dsq < st.min then { ps := swapF st.ps 0 j, saved := swapF saved 0 j, min := dsq }
  else { st with saved := saved }

/-- The search for the closest centre among the first `ncand` candidates, /repo/src/KMeans.cpp:556-587. -/
def scan (cd : ℕ → ℝ) (I : Option (ℕ → ℝ)) (ps : ℕ → ℕ) (ncand : ℕ) : Scan :=
  (List.range' 1 (ncand - 1)).foldl (scanStep cd I) (scanInit cd I ps)

/-- `thresh_dsq`, /repo/src/KMeans.cpp:588-601. -/
def thresh (I : Option (ℕ → ℝ)) (s : ℝ) (st : Scan) : ℝ :=
  match I with
  | none => (Real.sqrt (st.saved 0) + 2 * s) ^ 2
  | some f => (Real.sqrt (st.saved 0) + s) ^ 2 + f (st.ps 0)

/-- The number compared with `thresh_dsq` for the candidate `i`, /repo/src/KMeans.cpp:606-614. -/
def pruneDsq (I : Option (ℕ → ℝ)) (s : ℝ) (dsq : ℝ) (i : ℕ) : ℝ :=
  match I with
  | none => dsq
  | some f => if s > Real.sqrt dsq then 0 else (Real.sqrt dsq - s) ^ 2 + f i

/-- The loop removing candidates, /repo/src/KMeans.cpp:605-629, from `j` down to 1; the second component is `ncand`. -/
def prune (I : Option (ℕ → ℝ)) (s th : ℝ) (saved : ℕ → ℝ) : ℕ → (ℕ → ℕ) × ℕ → (ℕ → ℕ) × ℕ
  | 0, x => x
  | j + 1, x =>
    if pruneDsq I s (saved (j + 1)) (x.1 (j + 1)) > th then
      prune I s th saved j (swapF x.1 (j + 1) (x.2 - 1), x.2 - 1)
    else prune I s th saved j x

variable [PseudoMetricSpace P]

/-- The recursive `FindCellsInPatches`, /repo/src/KMeans.cpp:543-643: the calls `f.run(patch, cell)` in order, and the array
`patches` afterwards. -/
def findCells (cen : ℕ → P) (I : Option (ℕ → ℝ)) : Cell P → (ℕ → ℕ) → ℕ → List (ℕ × Cell P) × (ℕ → ℕ)
  | .leaf d os, ps, ncand =>
    let st := scan (fun i => dist d.pos (cen i) ^ 2) I ps ncand
    let x := prune I 0 (thresh I 0 st) st.saved (ncand - 1) (st.ps, ncand)
    ([(st.ps 0, .leaf d os)], x.1)
  | .node d s l r, ps, ncand =>
    let st := scan (fun i => dist d.pos (cen i) ^ 2) I ps ncand
    let x := prune I s (thresh I s st) st.saved (ncand - 1) (st.ps, ncand)
    if x.2 = 1 ∨ s = 0 then ([(st.ps 0, .node d s l r)], x.1)
    else
      let y := findCells cen I l x.1 x.2
      let z := findCells cen I r y.2 x.2
      (y.1 ++ z.1, z.2)

/-- One thread of the outer `FindCellsInPatches`, /repo/src/KMeans.cpp:661-675: `patches` is set up once and then passed on from
one top-level cell to the next. -/
def findThread (cen : ℕ → P) (I : Option (ℕ → ℝ)) (npatch : ℕ) (cells : List (Cell P)) : List (ℕ × Cell P) :=
  (cells.foldl (fun (acc : List (ℕ × Cell P) × (ℕ → ℕ)) c =>
    let y := findCells cen I c acc.2 npatch
    (acc.1 ++ y.1, y.2)) ([], id)).1

/-- The outer `FindCellsInPatches`, /repo/src/KMeans.cpp:645-685: the calls of each thread.  The threads of `sched` take the top-level
cells given by their indices (`schedule(static)`; any distribution is allowed here). -/
def findAll (cen : ℕ → P) (I : Option (ℕ → ℝ)) (npatch : ℕ) (cells : List (Cell P)) (sched : Schedule) :
    List (List (ℕ × Cell P)) :=
  sched.map fun is => findThread cen I npatch (is.filterMap fun i => cells[i]?)

/-- `AssignPatches::run`, /repo/src/KMeans.cpp:482-510: the writes `patches[index] = patch_num`. -/
def assignWrites (q : ℕ) : Cell P → List (ℕ × ℕ)
  | .leaf _ os => os.map fun o => (o.idx, q)
  | .node _ _ l r => assignWrites q l ++ assignWrites q r

/-- The writes to the array of patch numbers made by the threads of `KMeansAssign1`, /repo/src/KMeans.cpp:834-848. -/
def threadWrites (cen : ℕ → P) (npatch : ℕ) (f : Field P) (sched : Schedule) : List (List (ℕ × ℕ)) :=
  (findAll cen none npatch f.cells sched).map fun calls => calls.flatMap fun qc => assignWrites qc.1 qc.2

/-- `a[w.1] = w.2`. -/
def write (a : ℕ → Option ℕ) (w : ℕ × ℕ) : ℕ → Option ℕ := Function.update a w.1 (some w.2)

/-- `np.empty` followed by writes; `none` is an entry never written, /repo/treecorr/field.py:503-507. -/
def written (ws : List (ℕ × ℕ)) : ℕ → Option ℕ :=
  ws.foldl write (fun _ => none)

/-- The body of the loop of `QuickAssign`, /repo/src/KMeans.cpp:910-921 and :927-938. -/
def quickAssign (cen : ℕ → P) (npatch : ℕ) (p : P) : ℕ :=
  ((List.range' 1 (npatch - 1)).foldl (fun (st : ℕ × ℝ) k =>
    let rsq := dist p (cen k) ^ 2
    if rsq < st.2 then (k, rsq) else st) (0, dist p (cen 0) ^ 2)).1

/-- The body of the loop of `SelectPatch`, /repo/src/KMeans.cpp:971-985 and :994-1007: is the row used? -/
def selectPatch (cen : ℕ → P) (npatch patch : ℕ) (p : P) : Bool :=
  (List.range npatch).all fun q => q == patch || !decide (dist p (cen q) ^ 2 < dist p (cen patch) ^ 2)

/-- `Catalog._assign_patches`, /repo/treecorr/catalog.py:1515-1525: the patch number of each row. -/
def assignRows (cen : ℕ → P) (npatch : ℕ) (rows : List (Obj P)) : List ℕ :=
  rows.map fun o => quickAssign cen npatch o.pos

/-- `Catalog._get_patch_index` with patch centres, /repo/treecorr/catalog.py:1539-1551: the row numbers kept when a single patch
is asked for. -/
def patchRows (cen : ℕ → P) (npatch patch : ℕ) (rows : List (Obj P)) : List ℕ :=
  (List.range rows.length).filter fun i => (rows[i]?.map fun o => selectPatch cen npatch patch o.pos) == some true

omit [PseudoMetricSpace P]

/-- The recursive `InitializeCentersTree`, /repo/src/KMeans.cpp:28-59: the writes `centers[i] = pos`, and the number of calls of
`urand()` so far.  `jit v p` is `p * (1 + v * 1e-8)`. -/
def initTreeCell (u : ℕ → ℝ) (jit : ℝ → P → P) : Cell P → ℕ → ℕ → ℕ → List (ℕ × P) × ℕ
  | .leaf d _, first, nc, k =>
    if nc = 1 then ([(first, d.pos)], k)
    else ((List.range nc).map fun i => (first + i, jit (u (k + i)) d.pos), k + nc)
  | .node d _ l r, first, nc, k =>
    if nc = 1 then ([(first, d.pos)], k)
    else
      let m1 := nc / 2
      let m2 := nc - m1
      let m := if u k < 1 / 2 then (m2, m1) else (m1, m2)
      let y := initTreeCell u jit l first m.1 (k + 1)
      let z := initTreeCell u jit r (first + m.1) m.2 y.2
      (y.1 ++ z.1, z.2)

/-- The Fisher–Yates shuffle of `nvalues`, /repo/src/KMeans.cpp:92-97; `kk` counts down from `ncells` to 2. -/
def shuffle (u : ℕ → ℝ) : ℕ → ℕ → List ℕ → Option (List ℕ × ℕ)
  | 0, k, v => some (v, k)
  | 1, k, v => some (v, k)
  | kk + 2, k, v =>
    let j := ⌊u k * ((kk : ℝ) + 2)⌋₊
    (if j ≠ kk + 1 then swapIdx v j (kk + 1) else some v).bind fun v' => shuffle u (kk + 1) (k + 1) v'

/-- The loop over the top-level cells, /repo/src/KMeans.cpp:99-105. -/
def initCells (u : ℕ → ℝ) (jit : ℝ → P → P) : List (Cell P × ℕ) → ℕ → ℕ → List (ℕ × P)
  | [], _, _ => []
  | (c, nv) :: rest, first, k =>
    let y := initTreeCell u jit c first nv k
    y.1 ++ initCells u jit rest (first + nv) y.2

/-- `InitializeCentersTree`, /repo/src/KMeans.cpp:61-109: the writes to `centers`, whose length is `nc`.  No cells is a division
by 0.  (The call that seeds the generator is not counted in `u`.) -/
def initTree (u : ℕ → ℝ) (jit : ℝ → P → P) (fuel : ℕ) (cells : List (Cell P)) (nc : ℕ) : Option (List (ℕ × P)) :=
  if cells.length > nc then
    (selectRandomFrom u fuel cells.length nc 0).bind fun sel =>
      (List.range nc).mapM fun i => sel.1[i]?.bind fun j => cells[j]?.map fun c => (i, c.pos)
  else if cells.length = 0 then none
  else
    let n1 := nc / cells.length
    let k2 := nc % cells.length
    let k1 := cells.length - k2
    (shuffle u cells.length 0 (List.replicate k1 n1 ++ List.replicate k2 (n1 + 1))).map fun v =>
      initCells u jit (cells.zip v.1) 0 v.2

end
end TreeCorr.KMeans
