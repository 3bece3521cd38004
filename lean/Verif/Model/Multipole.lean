import Mathlib.Data.Complex.Basic
import Verif.Model.Corr3

/-!
# The multipole algorithm

Models `/repo/src/Corr3.cpp:816-1495` (the three `multipole` functions, `splitC2Cells`, `multipoleSplit1`,
`splitC2CellsOrCalculateGn`, `multipoleFinish`, `calculateGn`, `calculateZeta`), the counts-only and scalar versions of
`CalculateGn` and `CalculateZeta` (`:1526-1655, :1697-1853`), `MultipoleScratch` (`/repo/include/MultipoleScratch.h:36-142`) and
`calculateSumWSq`, `calculateSumWKSq` (`/repo/src/Cell.cpp:138-152`).  The binning tests are those of `BinTypeHelper<Log>`
(`/repo/src/Corr3.cpp:2684-2690`).

Simplifications: doubles are reals; the metric is a plain distance (`Euclidean`, `Periodic` and so on with no line-of-sight limits);
one thread; the flat arrays of shape `(nbins, nbins, 2*maxn+1)` are functions of the three indices, and a real and an imaginary array
are one complex one; `Assert` only prints (`/repo/include/dbg.h:89`).
-/

namespace TreeCorr
open Classical
noncomputable section
variable {P : Type}

/-! ## The traversal -/

/-- What `splitC2CellsOrCalculateGn` does with one cell of the list. -/
inductive MpPair where
  /-- cannot contribute -/
  | skip : MpPair
  /-- `calculateGn` is called with `k`, `r`, `logr` -/
  | use (k : ℤ) (r logr : ℝ) : MpPair
  /-- kept for later, `rtot = r + s1 + s2`, `split1`, `split2` -/
  | keep (rtot : ℝ) (split1 split2 : Bool) : MpPair

/-- The tests of `tooSmallDist` and `tooLargeDist`, /repo/src/Corr3.cpp:1019-1027, 1154-1162. -/
def mpOut [PseudoMetricSpace P] (p : Params) (c1 c2 : Cell P) : Prop :=
  (logBin P).tooSmall (dist c1.pos c2.pos ^ 2) (c1.size + c2.size) p ∨
    (logBin P).tooLarge (dist c1.pos c2.pos ^ 2) (c1.size + c2.size) p

/-- The decisions in the loop of `splitC2CellsOrCalculateGn`, /repo/src/Corr3.cpp:1141-1193. -/
def mpPair [PseudoMetricSpace P] (p : Params) (c1 c2 : Cell P) : MpPair :=
  let rsq := dist c1.pos c2.pos ^ 2
  let s1ps2 := c1.size + c2.size
  if mpOut p c1 c2 then .skip
  else
    match (logBin P).singleBin rsq s1ps2 c1.pos c2.pos p with
    | some o =>
      if (logBin P).inRange rsq c1.pos c2.pos p then
        if o.k < 0 then
          let r := Real.sqrt rsq
          let logr := Real.log r
          .use ((logBin P).binK c1.pos c2.pos r logr p) r logr
        else .use o.k o.r o.logr
      else .skip
    | none =>
      let sp := calcSplitSq c1.size c2.size ((logBin P).effBSq rsq p)
      .keep (Real.sqrt rsq + s1ps2) sp.1 sp.2

/-- The body of the loop of `splitC2Cells`, /repo/src/Corr3.cpp:1007-1045: the cells put on the new list.  `none`: a null child is
dereferenced. -/
def splitC2One [PseudoMetricSpace P] (p : Params) (c1 c2 : Cell P) : Option (List (Cell P)) :=
  if mpOut p c1 c2 then some []
  else if (logBin P).singleBin (dist c1.pos c2.pos ^ 2) (c1.size + c2.size) c1.pos c2.pos p = none ∧ c2.size > c1.size then
    match c2.children with
    | none => none
    | some (l, r) => some [l, r]
  else some [c2]

/-- `splitC2Cells`, /repo/src/Corr3.cpp:997-1046. -/
def splitC2Cells [PseudoMetricSpace P] (p : Params) (c1 : Cell P) (c2list : List (Cell P)) : Option (List (Cell P)) :=
  concatM (splitC2One p c1) c2list

/-- The variables of `splitC2CellsOrCalculateGn`: `newc2list`, `anysplit1`, the scratch arrays, `max_remaining_r`. -/
structure MpStep (P S : Type) where
  lst : List (Cell P)
  any : Bool
  mp : S
  maxr : ℝ

/-- The body of the loop of `splitC2CellsOrCalculateGn`, /repo/src/Corr3.cpp:1141-1206. -/
def gnOne [PseudoMetricSpace P] {S : Type} (p : Params) (gn : Cell P → Cell P → ℝ → ℝ → ℤ → S → S) (c1 : Cell P)
    (thresh1 : ℝ) (st : MpStep P S) (c2 : Cell P) : Option (MpStep P S) :=
  match mpPair p c1 c2 with
  | .skip => some st
  | .use k r logr => some { st with mp := gn c1 c2 r logr k st.mp }
  | .keep rtot split1 split2 =>
    let any := st.any || (split1 && decide (rtot > thresh1))
    if split2 then
      match c2.children with
      | none => none
      | some (l, r) => some { st with lst := st.lst ++ [l, r], any := any, maxr := max rtot st.maxr }
    else some { st with lst := st.lst ++ [c2], any := any, maxr := max rtot st.maxr }

/-- `splitC2CellsOrCalculateGn`, /repo/src/Corr3.cpp:1114-1208. -/
def splitOrGn [PseudoMetricSpace P] {S : Type} (p : Params) (gn : Cell P → Cell P → ℝ → ℝ → ℤ → S → S) (c1 : Cell P)
    (c2list : List (Cell P)) (any : Bool) (mp : S) (prevMax : ℝ) : Option (MpStep P S) :=
  c2list.foldlM (gnOne p gn c1 ((1 - p.binsize) * prevMax)) { lst := [], any := any, mp := mp, maxr := 0 }

/-- The lowest `k` for which `calculateZeta` can be called early, /repo/src/Corr3.cpp:1243-1246. -/
def earlyK (p : Params) (maxr : ℝ) : ℤ :=
  if maxr < p.minsep then 0 else truncInt ((Real.log maxr - Real.log p.minsep) / p.binsize) + 1

/-- The early call of `calculateZeta` and the new `mink_zeta`, /repo/src/Corr3.cpp:1242-1252. -/
def earlyZeta {A : Type} (p : Params) (zeta : ℤ → ℤ → List A) (mink : ℤ) (maxr : ℝ) : List A × ℤ :=
  if maxr < p.maxsep then
    if earlyK p maxr < mink then (zeta (earlyK p maxr) mink, earlyK p maxr) else ([], mink)
  else ([], mink)

/-- `multipoleFinish` for one list, /repo/src/Corr3.cpp:1210-1274, as the additions it makes to the output arrays.  The first
argument bounds the depth of the recursion; `none`: a null child is dereferenced, or the depth is used up. -/
def multipoleFinishN [PseudoMetricSpace P] {S A : Type} (p : Params) (gn : Cell P → Cell P → ℝ → ℝ → ℤ → S → S)
    (zeta : Cell P → S → ℤ → ℤ → List A) :
    ℕ → Cell P → List (Cell P) → S → ℤ → ℝ → Option (List A)
  | 0, _, _, _, _, _ => none
  | n + 1, c1, c2list, mp, mink, maxr =>
    match splitOrGn p gn c1 c2list false mp maxr with
    | none => none
    | some st =>
      if st.lst = [] then some (zeta c1 st.mp 0 mink)
      else
        let ez := earlyZeta p (zeta c1 st.mp) mink st.maxr
        if st.any then
          match c1.children with
          | none => none
          | some (l, r) =>
            match multipoleFinishN p gn zeta n l st.lst st.mp ez.2 st.maxr,
                multipoleFinishN p gn zeta n r st.lst st.mp ez.2 st.maxr with
            | some a, some b => some (ez.1 ++ (a ++ b))
            | _, _ => none
        else
          match multipoleFinishN p gn zeta n c1 st.lst st.mp ez.2 st.maxr with
          | some a => some (ez.1 ++ a)
          | none => none

/-- The number of tree nodes in a list of cells: termination measure only. -/
def listNodes (l : List (Cell P)) : ℕ := (l.map Cell.nodes).sum

/-- `multipoleFinish` with a depth taken from the number of nodes (`Props/MpSlop.lean` shows that it is enough). -/
def multipoleFinish [PseudoMetricSpace P] {S A : Type} (p : Params) (gn : Cell P → Cell P → ℝ → ℝ → ℤ → S → S)
    (zeta : Cell P → S → ℤ → ℤ → List A) (c1 : Cell P) (c2list : List (Cell P)) (mp : S) (mink : ℤ) (maxr : ℝ) :
    Option (List A) :=
  multipoleFinishN p gn zeta (2 * (c1.nodes + listNodes c2list) + 2) c1 c2list mp mink maxr

/-- `multipoleSplit1` for one list, /repo/src/Corr3.cpp:1048-1077.  `clear` is the cleared scratch. -/
def multipoleSplit1 [PseudoMetricSpace P] {S A : Type} (p : Params) (gn : Cell P → Cell P → ℝ → ℝ → ℤ → S → S)
    (zeta : Cell P → S → ℤ → ℤ → List A) (clear : S) : Cell P → List (Cell P) → Option (List A)
  | .leaf d os, c2list =>
    match splitC2Cells p (.leaf d os) c2list with
    | none => none
    | some new =>
      if (0 : ℝ) ^ 2 > (logBin P).effBSq (p.maxsep ^ 2) p then none
      else multipoleFinish p gn zeta (.leaf d os) new clear p.nbins 0
  | .node d s l r, c2list =>
    match splitC2Cells p (.node d s l r) c2list with
    | none => none
    | some new =>
      if s ^ 2 > (logBin P).effBSq (p.maxsep ^ 2) p then
        match multipoleSplit1 p gn zeta clear l new, multipoleSplit1 p gn zeta clear r new with
        | some a, some b => some (a ++ b)
        | _, _ => none
      else multipoleFinish p gn zeta (.node d s l r) new clear p.nbins 0

/-- The loop over the top-level cells of the first field, /repo/src/Corr3.cpp:816-927 (auto: the same field twice). -/
def multipoleRun [PseudoMetricSpace P] {S A : Type} (p : Params) (gn : Cell P → Cell P → ℝ → ℝ → ℤ → S → S)
    (zeta : Cell P → S → ℤ → ℤ → List A) (clear : S) (cells1 cells2 : List (Cell P)) : Option (List A) :=
  concatM (fun c1 => multipoleSplit1 p gn zeta clear c1 cells2) cells1

/-- `multipoleFinish` for two lists, /repo/src/Corr3.cpp:1276-1338. -/
def multipoleFinish2N [PseudoMetricSpace P] {S A : Type} (p : Params) (gn : Cell P → Cell P → ℝ → ℝ → ℤ → S → S)
    (zeta : Cell P → S → S → ℤ → ℤ → List A) :
    ℕ → Cell P → List (Cell P) → List (Cell P) → S → S → ℤ → ℝ → ℝ → Option (List A)
  | 0, _, _, _, _, _, _, _, _ => none
  | n + 1, c1, c2list, c3list, mp2, mp3, mink, maxr2, maxr3 =>
    match splitOrGn p gn c1 c2list false mp2 maxr2 with
    | none => none
    | some st2 =>
      match splitOrGn p gn c1 c3list st2.any mp3 maxr3 with
      | none => none
      | some st3 =>
        if st2.lst = [] ∧ st3.lst = [] then some (zeta c1 st2.mp st3.mp 0 mink)
        else
          let ez := earlyZeta p (zeta c1 st2.mp st3.mp) mink (max st2.maxr st3.maxr)
          if st3.any then
            match c1.children with
            | none => none
            | some (l, r) =>
              match multipoleFinish2N p gn zeta n l st2.lst st3.lst st2.mp st3.mp ez.2 st2.maxr st3.maxr,
                  multipoleFinish2N p gn zeta n r st2.lst st3.lst st2.mp st3.mp ez.2 st2.maxr st3.maxr with
              | some a, some b => some (ez.1 ++ (a ++ b))
              | _, _ => none
          else
            match multipoleFinish2N p gn zeta n c1 st2.lst st3.lst st2.mp st3.mp ez.2 st2.maxr st3.maxr with
            | some a => some (ez.1 ++ a)
            | none => none

/-- `multipoleFinish` for two lists, likewise. -/
def multipoleFinish2 [PseudoMetricSpace P] {S A : Type} (p : Params) (gn : Cell P → Cell P → ℝ → ℝ → ℤ → S → S)
    (zeta : Cell P → S → S → ℤ → ℤ → List A) (c1 : Cell P) (c2list c3list : List (Cell P)) (mp2 mp3 : S) (mink : ℤ)
    (maxr2 maxr3 : ℝ) : Option (List A) :=
  multipoleFinish2N p gn zeta (2 * (c1.nodes + listNodes c2list + listNodes c3list) + 2) c1 c2list c3list mp2 mp3 mink maxr2 maxr3

/-- `multipoleSplit1` for two lists, /repo/src/Corr3.cpp:1079-1112. -/
def multipoleSplit12 [PseudoMetricSpace P] {S A : Type} (p : Params) (gn : Cell P → Cell P → ℝ → ℝ → ℤ → S → S)
    (zeta : Cell P → S → S → ℤ → ℤ → List A) (clear : S) : Cell P → List (Cell P) → List (Cell P) → Option (List A)
  | .leaf d os, c2list, c3list =>
    match splitC2Cells p (.leaf d os) c2list, splitC2Cells p (.leaf d os) c3list with
    | some new2, some new3 =>
      if (0 : ℝ) ^ 2 > (logBin P).effBSq (p.maxsep ^ 2) p then none
      else multipoleFinish2 p gn zeta (.leaf d os) new2 new3 clear clear p.nbins 0 0
    | _, _ => none
  | .node d s l r, c2list, c3list =>
    match splitC2Cells p (.node d s l r) c2list, splitC2Cells p (.node d s l r) c3list with
    | some new2, some new3 =>
      if s ^ 2 > (logBin P).effBSq (p.maxsep ^ 2) p then
        match multipoleSplit12 p gn zeta clear l new2 new3, multipoleSplit12 p gn zeta clear r new2 new3 with
        | some a, some b => some (a ++ b)
        | _, _ => none
      else multipoleFinish2 p gn zeta (.node d s l r) new2 new3 clear clear p.nbins 0 0
    | _, _ => none

/-- The loop over the top-level cells of the first of three fields, /repo/src/Corr3.cpp:929-995. -/
def multipoleRun2 [PseudoMetricSpace P] {S A : Type} (p : Params) (gn : Cell P → Cell P → ℝ → ℝ → ℤ → S → S)
    (zeta : Cell P → S → S → ℤ → ℤ → List A) (clear : S) (cells1 cells2 cells3 : List (Cell P)) : Option (List A) :=
  concatM (fun c1 => multipoleSplit12 p gn zeta clear c1 cells2 cells3) cells1

/-! ## The scratch arrays -/

/-- `MultipoleScratch<KData,KData>`, /repo/include/MultipoleScratch.h:36-142: arrays over the bins, `Wn` and `Gn` also over
`n = 0 … maxn`.  (`MultipoleScratch<NData,NData>` is the same without `Gn` and `sumwwkk`.) -/
structure Scratch where
  npairs : ℤ → ℝ
  sumw : ℤ → ℝ
  sumwr : ℤ → ℝ
  sumwlogr : ℤ → ℝ
  sumww : ℤ → ℝ
  sumwwr : ℤ → ℝ
  sumwwlogr : ℤ → ℝ
  sumwwkk : ℤ → ℝ
  Wn : ℤ → ℕ → ℂ
  Gn : ℤ → ℕ → ℂ

/-- `clear`, /repo/include/MultipoleScratch.h:57-75, 131-138. -/
def Scratch.clear : Scratch :=
  ⟨fun _ => 0, fun _ => 0, fun _ => 0, fun _ => 0, fun _ => 0, fun _ => 0, fun _ => 0, fun _ => 0, fun _ _ => 0, fun _ _ => 0⟩

/-- `calculateSumWSq`, /repo/src/Cell.cpp:138-144. -/
def Cell.sumWSq : Cell P → ℝ
  | .leaf d _ => d.w ^ 2
  | .node d s l r => if s = 0 then d.w ^ 2 else if d.n = 1 then d.w ^ 2 else l.sumWSq + r.sumWSq

/-- `calculateSumWKSq`, /repo/src/Cell.cpp:146-152. -/
def Cell.sumWKSq : Cell P → ℝ
  | .leaf d _ => d.wk ^ 2
  | .node d s l r => if s = 0 then d.wk ^ 2 else if d.n = 1 then d.wk ^ 2 else l.sumWKSq + r.sumWKSq

/-- `f[k*(maxn+1)+n] += v * z^n` for `n = 0 … maxn`, /repo/src/Corr3.cpp:1707-1718. -/
def addPowers (f : ℤ → ℕ → ℂ) (maxn : ℕ) (k : ℤ) (v : ℝ) (z : ℂ) : ℤ → ℕ → ℂ :=
  fun j n => if j = k ∧ n ≤ maxn then f j n + (v : ℂ) * z ^ n else f j n

/-- `calculateGn` with `CalculateGn` for scalars (for counts: without `Gn`, `sumwwkk`), /repo/src/Corr3.cpp:1344-1371, 1526-1540,
1697-1719.  `expIPhi` is `ProjectHelper<C>::ExpIPhi`, `ww` whether the sums of squares are wanted. -/
def calculateGn (expIPhi : P → P → ℂ) (maxn : ℕ) (ww : Bool) (c1 c2 : Cell P) (r logr : ℝ) (k : ℤ) (mp : Scratch) : Scratch :=
  let w := c2.w
  let wsq := c2.sumWSq
  let z := expIPhi c1.pos c2.pos
  { npairs := addAt mp.npairs k (c2.n : ℝ)
    sumw := addAt mp.sumw k w
    sumwr := addAt mp.sumwr k (w * r)
    sumwlogr := addAt mp.sumwlogr k (w * logr)
    sumww := if ww then addAt mp.sumww k wsq else mp.sumww
    sumwwr := if ww then addAt mp.sumwwr k (wsq * r) else mp.sumwwr
    sumwwlogr := if ww then addAt mp.sumwwlogr k (wsq * logr) else mp.sumwwlogr
    sumwwkk := if ww then addAt mp.sumwwkk k c2.sumWKSq else mp.sumwwkk
    Wn := addPowers mp.Wn maxn k w z
    Gn := addPowers mp.Gn maxn k c2.wk z }

/-! ## The output arrays -/

/-- One entry `[k2,k3]` of the output arrays.  `ntri` and the means are stored at `n = 0` only; `weight` and `zeta` for
`-maxn ≤ n ≤ maxn`, with their imaginary parts. -/
structure MpVals where
  ntri : ℝ
  meand2 : ℝ
  meanlogd2 : ℝ
  meand3 : ℝ
  meanlogd3 : ℝ
  weight : ℤ → ℂ
  zeta : ℤ → ℂ

/-- The additions to `[n]` and `[-n]` of a complex `f n`, `n = 0 … maxn`, of which `[-n]` gets the conjugate. -/
def spread (maxn : ℕ) (f : ℕ → ℂ) : ℤ → ℂ :=
  fun n => if n.natAbs ≤ maxn then (if 0 ≤ n then f n.natAbs else (starRingEnd ℂ) (f n.natAbs)) else 0

/-- `for (int k=a; k<b; ++k)`. -/
def irange (a b : ℤ) : List ℤ := (List.range (b - a).toNat).map fun (i : ℕ) => a + (i : ℤ)

/-- The additions made to `[k2,k2]`, /repo/src/Corr3.cpp:1388-1396 and :1569-1574, :1736-1757. -/
def zetaDiag (maxn : ℕ) (c1 : Cell P) (mp : Scratch) (k2 : ℤ) : MpVals :=
  { ntri := (c1.n : ℝ) * mp.npairs k2 * (mp.npairs k2 - 1)
    meand2 := c1.w * (mp.sumw k2 * mp.sumwr k2 - mp.sumwwr k2)
    meanlogd2 := c1.w * (mp.sumw k2 * mp.sumwlogr k2 - mp.sumwwlogr k2)
    meand3 := c1.w * (mp.sumw k2 * mp.sumwr k2 - mp.sumwwr k2)
    meanlogd3 := c1.w * (mp.sumw k2 * mp.sumwlogr k2 - mp.sumwwlogr k2)
    weight := spread maxn fun n => ((c1.w * (Complex.normSq (mp.Wn k2 n) - mp.sumww k2) : ℝ) : ℂ)
    zeta := spread maxn fun n => ((c1.wk * (Complex.normSq (mp.Gn k2 n) - mp.sumwwkk k2) : ℝ) : ℂ) }

/-- The additions made to `[k2,k3]`, `k2 < k3`, /repo/src/Corr3.cpp:1397-1416 and :1575-1603, :1758-1795. -/
def zeta23 (maxn : ℕ) (c1 : Cell P) (mp : Scratch) (k2 k3 : ℤ) : MpVals :=
  { ntri := (c1.n : ℝ) * mp.npairs k2 * mp.npairs k3
    meand2 := c1.w * mp.sumw k3 * mp.sumwr k2
    meanlogd2 := c1.w * mp.sumw k3 * mp.sumwlogr k2
    meand3 := c1.w * mp.sumw k2 * mp.sumwr k3
    meanlogd3 := c1.w * mp.sumw k2 * mp.sumwlogr k3
    weight := spread maxn fun n => (c1.w : ℂ) * mp.Wn k2 n * (starRingEnd ℂ) (mp.Wn k3 n)
    zeta := spread maxn fun n => (c1.wk : ℂ) * mp.Gn k2 n * (starRingEnd ℂ) (mp.Gn k3 n) }

/-- The additions made to `[k3,k2]`, `k2 < k3`, by the same statements. -/
def zeta32 (maxn : ℕ) (c1 : Cell P) (mp : Scratch) (k2 k3 : ℤ) : MpVals :=
  { ntri := (c1.n : ℝ) * mp.npairs k2 * mp.npairs k3
    meand3 := c1.w * mp.sumw k3 * mp.sumwr k2
    meanlogd3 := c1.w * mp.sumw k3 * mp.sumwlogr k2
    meand2 := c1.w * mp.sumw k2 * mp.sumwr k3
    meanlogd2 := c1.w * mp.sumw k2 * mp.sumwlogr k3
    weight := spread maxn fun n => (starRingEnd ℂ) ((c1.w : ℂ) * mp.Wn k2 n * (starRingEnd ℂ) (mp.Wn k3 n))
    zeta := spread maxn fun n => (starRingEnd ℂ) ((c1.wk : ℂ) * mp.Gn k2 n * (starRingEnd ℂ) (mp.Gn k3 n)) }

/-- `calculateZeta` for one scratch, /repo/src/Corr3.cpp:1373-1426 with `CalculateZeta`, :1542-1605, :1721-1797: the entries added
to, and what is added.  (The order in which the code adds to different arrays is immaterial.) -/
def calculateZeta (maxn : ℕ) (nbins : ℤ) (c1 : Cell P) (mp : Scratch) (kstart mink : ℤ) : List (ℤ × ℤ × MpVals) :=
  (irange kstart mink).flatMap fun k2 =>
    (k2, k2, zetaDiag maxn c1 mp k2) ::
      (irange (k2 + 1) nbins).flatMap fun k3 => [(k2, k3, zeta23 maxn c1 mp k2 k3), (k3, k2, zeta32 maxn c1 mp k2 k3)]

/-- The additions made to `[k2,k3]` when points 2 and 3 are kept apart (`ordered == 3`), /repo/src/Corr3.cpp:1441-1463, 1625-1651,
1818-1849. -/
def zetaOrd3 (maxn : ℕ) (c1 : Cell P) (mp2 mp3 : Scratch) (k2 k3 : ℤ) : MpVals :=
  { ntri := (c1.n : ℝ) * mp3.npairs k2 * mp2.npairs k3
    meand2 := c1.w * mp2.sumw k3 * mp3.sumwr k2
    meanlogd2 := c1.w * mp2.sumw k3 * mp3.sumwlogr k2
    meand3 := c1.w * mp3.sumw k2 * mp2.sumwr k3
    meanlogd3 := c1.w * mp3.sumw k2 * mp2.sumwlogr k3
    weight := spread maxn fun n => (c1.w : ℂ) * mp3.Wn k2 n * (starRingEnd ℂ) (mp2.Wn k3 n)
    zeta := spread maxn fun n => (c1.wk : ℂ) * mp3.Gn k2 n * (starRingEnd ℂ) (mp2.Gn k3 n) }

/-- The additions made to `[k2,k3]` when points 2 and 3 may swap (`ordered == 1`), /repo/src/Corr3.cpp:1464-1486, 1625-1651,
1818-1849, index by index as written. -/
def zetaOrd1 (maxn : ℕ) (c1 : Cell P) (mp2 mp3 : Scratch) (k2 k3 : ℤ) : MpVals :=
  { ntri := (c1.n : ℝ) * (mp2.npairs k2 * mp3.npairs k3 + mp3.npairs k2 * mp2.npairs k3)
    meand2 := c1.w * (mp2.sumw k3 * mp3.sumwr k2 + mp3.sumw k3 * mp2.sumwr k2)
    meanlogd2 := c1.w * (mp2.sumw k3 * mp3.sumwlogr k2 + mp3.sumw k3 * mp2.sumwlogr k2)
    meand3 := c1.w * (mp2.sumw k2 * mp3.sumwr k3 + mp3.sumw k2 * mp2.sumwr k3)
    meanlogd3 := c1.w * (mp2.sumw k2 * mp3.sumwlogr k3 + mp3.sumw k3 * mp2.sumwlogr k3)
    weight := spread maxn fun n => (c1.w : ℂ) * mp3.Wn k2 n * (starRingEnd ℂ) (mp2.Wn k3 n) +
      (c1.w : ℂ) * mp2.Wn k2 n * (starRingEnd ℂ) (mp3.Wn k3 n)
    zeta := spread maxn fun n => (c1.wk : ℂ) * mp3.Gn k2 n * (starRingEnd ℂ) (mp2.Gn k3 n) +
      (c1.wk : ℂ) * mp2.Gn k2 n * (starRingEnd ℂ) (mp3.Gn k3 n) }

/-- `calculateZeta` for two scratches, /repo/src/Corr3.cpp:1428-1494 with `CalculateZeta`, :1607-1655, :1799-1853.  `swap23` is
`ordered == 1`. -/
def calculateZeta2 (maxn : ℕ) (nbins : ℤ) (swap23 : Bool) (c1 : Cell P) (mp2 mp3 : Scratch) (kstart mink : ℤ) :
    List (ℤ × ℤ × MpVals) :=
  (irange kstart nbins).flatMap fun k2 =>
    (irange kstart (if k2 < mink then nbins else mink)).map fun k3 =>
      (k2, k3, if swap23 then zetaOrd1 maxn c1 mp2 mp3 k2 k3 else zetaOrd3 maxn c1 mp2 mp3 k2 k3)

/-- An output array that starts at 0: the sum of the additions to `[k2,k3]`. -/
def mpTotal {W V : Type} [AddCommMonoid V] (f : W → V) (out : List (ℤ × ℤ × W)) (k2 k3 : ℤ) : V :=
  ((out.filter fun x => x.1 = k2 ∧ x.2.1 = k3).map fun x => f x.2.2).sum

/-! ## The runs -/

/-- `ProcessAuto` for `LogMultipole`, /repo/src/Corr3.cpp:2692-2706, 816-867. -/
def multipoleAuto [PseudoMetricSpace P] (p : Params) (maxn : ℕ) (expIPhi : P → P → ℂ) (cells : List (Cell P)) :
    Option (List (ℤ × ℤ × MpVals)) :=
  multipoleRun p (calculateGn expIPhi maxn true) (calculateZeta maxn p.nbins) Scratch.clear cells cells

/-- `multipole` of three fields, /repo/src/Corr3.cpp:929-995. -/
def multipole3 [PseudoMetricSpace P] (p : Params) (maxn : ℕ) (expIPhi : P → P → ℂ) (swap23 : Bool) (cs1 cs2 cs3 : List (Cell P)) :
    Option (List (ℤ × ℤ × MpVals)) :=
  multipoleRun2 p (calculateGn expIPhi maxn false) (calculateZeta2 maxn p.nbins swap23) Scratch.clear cs1 cs2 cs3

/-- `ProcessCross12` for `LogMultipole`, /repo/src/Corr3.cpp:2745-2764, 869-927.  `ordered`: the first point is in the first field. -/
def multipoleCross12 [PseudoMetricSpace P] (p : Params) (maxn : ℕ) (expIPhi : P → P → ℂ) (ordered : Bool)
    (cs1 cs2 : List (Cell P)) : Option (List (ℤ × ℤ × MpVals)) :=
  match (if ordered then some [] else multipole3 p maxn expIPhi true cs2 cs1 cs2),
      multipoleRun p (calculateGn expIPhi maxn true) (calculateZeta maxn p.nbins) Scratch.clear cs1 cs2 with
  | some a, some b => some (a ++ b)
  | _, _ => none

/-- `ProcessCross` for `LogMultipole`, /repo/src/Corr3.cpp:2820-2845. -/
def multipoleCross123 [PseudoMetricSpace P] (p : Params) (maxn : ℕ) (expIPhi : P → P → ℂ) (O : Ord3)
    (cs1 cs2 cs3 : List (Cell P)) : Option (List (ℤ × ℤ × MpVals)) :=
  match O with
  | .any =>
    match multipole3 p maxn expIPhi true cs2 cs1 cs3, multipole3 p maxn expIPhi true cs3 cs1 cs2,
        multipole3 p maxn expIPhi true cs1 cs2 cs3 with
    | some a, some b, some c => some (a ++ (b ++ c))
    | _, _, _ => none
  | .first => multipole3 p maxn expIPhi true cs1 cs2 cs3
  | .fixed => multipole3 p maxn expIPhi false cs1 cs2 cs3

end
end TreeCorr
