import Verif.Model.KMeans
import Verif.Model.Tree

/-!
Model of the random and the k-means++ initialisers of the patch centres: `InitializeCentersRand` and `InitializeCentersKMPP` in
`/repo/src/KMeans.cpp`.  As in `Model/Select.lean`, `u` is the sequence of numbers returned by `urand()` and the functions count the calls.
The vector `centers` is made by `std::vector<Position<C> > centers(npatch)`, /repo/src/KMeans.cpp:757, 767: all at the origin.
-/

namespace TreeCorr.KMeans
open Classical
noncomputable section

section
variable {P : Type}

/-- `getLeafNumber`, /repo/src/Cell.cpp:674-685. -/
def leafNumber : Cell P → ℕ → Cell P
  | .leaf d os, _ => .leaf d os
  | .node _ _ l r, i => if i < l.n then leafNumber l i else leafNumber r (i - l.n)

/-- The loop over the cells in search of leaf number `m`, /repo/src/KMeans.cpp:134-144 and :252-262, from cell `k` on: the number of the cell and
the leaf; `none` if the loop runs to its end. -/
def findLeaf : List (Cell P) → ℕ → ℕ → Option (ℕ × Cell P)
  | [], _, _ => none
  | c :: cs, k, m => if m < c.n then some (k, leafNumber c m) else findLeaf cs (k + 1) (m - c.n)

/-- `ntot`, /repo/src/KMeans.cpp:119-120 and :242-243. -/
def ntot (cells : List (Cell P)) : ℕ := (cells.map Cell.n).sum
end

variable {E : Type} [NormedAddCommGroup E] [InnerProductSpace ℝ E]

/-- The loop against repeated centres, /repo/src/KMeans.cpp:150-155: centre `i`, and the number of calls of `urand()`. -/
def shiftRepeated (u : ℕ → ℝ) (cen : ℕ → E) (i : ℕ) (p : E) (k : ℕ) : E × ℕ :=
  (List.range i).foldl (fun st i1 => if cen i1 = st.1 then ((1 + u st.2 * (1 / 10 ^ 8)) • st.1, st.2 + 1) else st) (p, k)

/-- One turn of the loop of `InitializeCentersRand`, /repo/src/KMeans.cpp:131-156.  If no leaf is found `centers[i]` keeps its value. -/
def initRandStep (u : ℕ → ℝ) (cells : List (Cell E)) (index : List ℕ) (st : (ℕ → E) × ℕ) (i : ℕ) : (ℕ → E) × ℕ :=
  let p := match index[i]?.bind (findLeaf cells 0) with
    | some x => x.2.pos
    | none => st.1 i
  let y := shiftRepeated u st.1 i p st.2
  (Function.update st.1 i y.1, y.2)

/-- `InitializeCentersRand`, /repo/src/KMeans.cpp:111-157, for `nc` centres. -/
def initRand (u : ℕ → ℝ) (fuel : ℕ) (cells : List (Cell E)) (nc : ℕ) : Option (ℕ → E) :=
  (selectRandomFrom u fuel (ntot cells) nc 0).map fun index =>
    ((List.range nc).foldl (initRandStep u cells index.1) (fun _ => 0, index.2)).1

/-- The smallest squared distance of `p` from the first `n` centres, /repo/src/KMeans.cpp:184-192 and :271-277. -/
def minDsq (cen : ℕ → E) (n : ℕ) (p : E) : ℝ :=
  (List.range' 1 (n - 1)).foldl (fun m j => if ‖p - cen j‖ ^ 2 < m then ‖p - cen j‖ ^ 2 else m) (‖p - cen 0‖ ^ 2)

/-- A cell of size zero in the recursive `InitializeCentersKMPP`, /repo/src/KMeans.cpp:167-177; `none` is `throw LeafAlreadyUsed()`. -/
def kmppLeaf (cen : ℕ → E) (ncen : ℕ) (p : E) : Option E := if ∃ j < ncen, p = cen j then none else some p

/-- The recursive `InitializeCentersKMPP`, /repo/src/KMeans.cpp:159-218: the position, or `none` for `LeafAlreadyUsed`, and the number of calls of
`urand()`. -/
def kmppCell (u : ℕ → ℝ) (cen : ℕ → E) (ncen : ℕ) : Cell E → ℕ → Option E × ℕ
  | .leaf d _, k => (kmppLeaf cen ncen d.pos, k)
  | .node d s l r, k =>
    if s = 0 then (kmppLeaf cen ncen d.pos, k)
    else
      let dsq1 := minDsq cen ncen l.pos
      let dsq2 := minDsq cen ncen r.pos
      if dsq1 + dsq2 = 0 then (none, k)
      else if u k * (dsq1 + dsq2) < dsq1 then
        match kmppCell u cen ncen l (k + 1) with
        | (some p, k') => (some p, k')
        | (none, k') => kmppCell u cen ncen r k'
      else
        match kmppCell u cen ncen r (k + 1) with
        | (some p, k') => (some p, k')
        | (none, k') => kmppCell u cen ncen l k'

/-- The state of the outer `InitializeCentersKMPP`: `centers`, `centers_per_cell` and the number of calls of `urand()`. -/
structure Kmpp (E : Type) where
  cen : ℕ → E
  perCell : ℕ → ℕ
  calls : ℕ

/-- The first centre, /repo/src/KMeans.cpp:242-262.  The centre stays at the origin if no leaf is found. -/
def kmppFirst (u : ℕ → ℝ) (cells : List (Cell E)) : Kmpp E :=
  match findLeaf cells 0 ⌊u 0 * ntot cells⌋₊ with
  | some x => ⟨Function.update (fun _ => 0) 0 x.2.pos, Function.update (fun _ => 0) x.1 1, 1⟩
  | none => ⟨fun _ => 0, fun _ => 0, 1⟩

/-- `p[k]` before it is divided by `sump`, /repo/src/KMeans.cpp:270-295; `coef` is 0.6 for 3d positions and 0.5 otherwise. -/
def kmppProb (coef : ℝ) (st : Kmpp E) (i k : ℕ) (c : Cell E) : ℝ :=
  ((c.n : ℝ) - st.perCell k) * (minDsq st.cen i c.pos + coef * (c.size * c.size))

/-- The choice of a cell, /repo/src/KMeans.cpp:296-313, from cell `k` on; `ps` are the `p[k]`.  `none`: no cell is chosen and the `Assert` at the
end prints its message (outside of debug mode it does no more, /repo/include/dbg.h:88-89).  With `sump = 0` all `p[k]` are NaN. -/
def kmppChoose (sump : ℝ) : List ℝ → ℕ → ℝ → Option ℕ
  | [], _, _ => none
  | p :: ps, k, v => if sump = 0 then none else if v < p / sump then some k else kmppChoose sump ps (k + 1) (v - p / sump)

/-- One turn of the loop over the other centres, /repo/src/KMeans.cpp:265-314; `none`: `LeafAlreadyUsed` is not caught.
The recursive function is given all `nc` centres, also those not chosen yet (:304). -/
def kmppStep (u : ℕ → ℝ) (coef : ℝ) (cells : List (Cell E)) (nc : ℕ) (st : Kmpp E) (i : ℕ) : Option (Kmpp E) :=
  let ps := cells.zipIdx.map fun ck => kmppProb coef st i ck.2 ck.1
  match kmppChoose ps.sum ps 0 (u st.calls) with
  | none => some { st with calls := st.calls + 1 }
  | some k =>
    match cells[k]? with
    | none => none
    | some c =>
      match kmppCell u st.cen nc c (st.calls + 1) with
      | (none, _) => none
      | (some p, calls) => some ⟨Function.update st.cen i p, Function.update st.perCell k (st.perCell k + 1), calls⟩

/-- The outer `InitializeCentersKMPP`, /repo/src/KMeans.cpp:220-315: the centres. -/
def initKmpp (u : ℕ → ℝ) (coef : ℝ) (cells : List (Cell E)) (nc : ℕ) : Option (ℕ → E) :=
  ((List.range' 1 (nc - 1)).foldlM (kmppStep u coef cells nc) (kmppFirst u cells)).map Kmpp.cen

end
end TreeCorr.KMeans
