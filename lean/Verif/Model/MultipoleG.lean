import Verif.Model.Multipole
import Verif.Model.Spin

/-!
# The multipole algorithm for shear

Models the shear versions of `CalculateGn`, `CalculateZeta` and `ProcessMultipole` (`/repo/src/Corr3.cpp:1907-2505`),
`MultipoleScratch<GData,GData>` (`/repo/include/MultipoleScratch.h:145-189`), `calculateSumWGSq` and `calculateSumAbsWGSq`
(`/repo/src/Cell.cpp:154-168`) and `ProjectHelper<Flat>::ProjectX` (`/repo/include/ProjectHelper.h:128-151`).  The traversal, the weights
and the sums of the sides are those of `Model/Multipole.lean`, with the same simplifications; the loops that are switched off by `#if 0`
are left out.
-/

namespace TreeCorr
open Classical ComplexConjugate
noncomputable section
variable {P : Type}

/-- `MultipoleScratch<GData,GData>`, /repo/include/MultipoleScratch.h:145-189: the arrays of the base class, `Gn` for
`-maxn-1 ≤ n ≤ maxn+1`, and three more sums of squares.  The fields `Gn` and `sumwwkk` of `base` belong to the scalar class and are not
used. -/
structure GScratch where
  base : Scratch
  Gn : ℤ → ℤ → ℂ
  gg0 : ℤ → ℂ
  gg1 : ℤ → ℂ
  gg2 : ℤ → ℂ

/-- `clear`, /repo/include/MultipoleScratch.h:170-181. -/
def GScratch.clear : GScratch := ⟨Scratch.clear, fun _ _ => 0, fun _ => 0, fun _ => 0, fun _ => 0⟩

/-- `calculateSumWGSq`, /repo/src/Cell.cpp:154-160.  `wg` is `getWG`: `simpleSum` for flat cells, `transportSum` for the others. -/
def Cell.sumWGSq (wg : Cell P → ℂ) : Cell P → ℂ
  | .leaf d os => wg (.leaf d os) ^ 2
  | .node d s l r => if s = 0 then wg (.node d s l r) ^ 2 else if d.n = 1 then wg (.node d s l r) ^ 2 else l.sumWGSq wg + r.sumWGSq wg

/-- `calculateSumAbsWGSq`, /repo/src/Cell.cpp:162-168 (`std::norm` is the squared absolute value). -/
def Cell.sumAbsWGSq (wg : Cell P → ℂ) : Cell P → ℝ
  | .leaf d os => Complex.normSq (wg (.leaf d os))
  | .node d s l r =>
    if s = 0 then Complex.normSq (wg (.node d s l r))
    else if d.n = 1 then Complex.normSq (wg (.node d s l r)) else l.sumAbsWGSq wg + r.sumAbsWGSq wg

/-- `f[k] += v` for complex arrays. -/
def addAtC (f : ℤ → ℂ) (k : ℤ) (v : ℂ) : ℤ → ℂ := fun j => if j = k then f j + v else f j

/-- `Gn[ig + n] += wg * z^n`, `Gn[ig - n] += wg * conj(z)^n` for `n = 0 … maxn+1`, /repo/src/Corr3.cpp:2014-2029. -/
def addPowersG (f : ℤ → ℤ → ℂ) (maxn : ℕ) (k : ℤ) (v z : ℂ) : ℤ → ℤ → ℂ := fun j n =>
  if j = k ∧ n.natAbs ≤ maxn + 1 then f j n + v * (if 0 ≤ n then z ^ n.natAbs else conj z ^ n.natAbs) else f j n

/-- `calculateGn` with `CalculateGn` for shear, /repo/src/Corr3.cpp:1344-1371, 1979-2030.  `factor` is the projection of the second
shear onto the line to the first point (`Project`, `ProjectWithSq`, /repo/include/ProjectHelper.h:78-97, 234-261). -/
def calculateGnG (expIPhi factor : P → P → ℂ) (wg : Cell P → ℂ) (maxn : ℕ) (ww : Bool) (c1 c2 : Cell P) (r logr : ℝ) (k : ℤ)
    (mp : GScratch) : GScratch :=
  let z := expIPhi c1.pos c2.pos
  let f := factor c1.pos c2.pos
  let g := wg c2 * f
  let wgsq := c2.sumWGSq wg * f ^ 2
  let abswgsq := (c2.sumAbsWGSq wg : ℂ)
  let zsq := z * z
  { base := calculateGn expIPhi maxn ww c1 c2 r logr k mp.base
    gg0 := if ww then addAtC mp.gg0 k (wgsq * conj zsq) else mp.gg0
    gg1 := if ww then addAtC mp.gg1 k (wgsq * zsq) else mp.gg1
    gg2 := if ww then addAtC mp.gg2 k (abswgsq * conj zsq) else mp.gg2
    Gn := addPowersG mp.Gn maxn k g z }

/-- One entry `[k2,k3]` of the output arrays: those of `MpVals` (`zeta` is not used), and `gam0` to `gam3` for `-maxn ≤ n ≤ maxn`. -/
structure GVals where
  base : MpVals
  gam0 : ℤ → ℂ
  gam1 : ℤ → ℂ
  gam2 : ℤ → ℂ
  gam3 : ℤ → ℂ

/-- What is added at `n = 0`, at `[n]` and at `[-n]`, `1 ≤ n ≤ maxn`. -/
def spreadG (maxn : ℕ) (f0 : ℂ) (fp fm : ℤ → ℂ) : ℤ → ℂ := fun n =>
  if n = 0 then f0 else if 0 < n then (if n ≤ maxn then fp n else 0) else (if -n ≤ maxn then fm (-n) else 0)

/-- The additions made to `[k2,k2]`, /repo/src/Corr3.cpp:1388-1396 and :2060-2161. -/
def gamDiag (maxn : ℕ) (wg : Cell P → ℂ) (c1 : Cell P) (mp : GScratch) (k2 : ℤ) : GVals :=
  let wg1 := wg c1
  let G := mp.Gn k2
  let g1wwgg0 := wg1 * mp.gg0 k2
  let g1cwwgg1 := conj wg1 * mp.gg1 k2
  let g1wwgg2 := wg1 * mp.gg2 k2
  let g1G2m := wg1 * G (-1)
  let g1cG2p := conj wg1 * G 1
  let gam0 := g1G2m * G (-1) - g1wwgg0
  let gam1 := g1cG2p * G 1 - g1cwwgg1
  let gam2 := g1G2m * conj (G 1) - g1wwgg2
  let g1G2mm := fun n : ℤ => wg1 * G (-n - 1)
  let g1cG2pp := fun n : ℤ => conj wg1 * G (n + 1)
  let gam0n := fun n : ℤ => g1G2mm n * G (n - 1) - g1wwgg0
  let gam1n := fun n : ℤ => g1cG2pp n * G (-n + 1) - g1cwwgg1
  let gam2n := fun n : ℤ => conj (g1cG2pp n) * G (n - 1) - g1wwgg2
  let gam3n := fun n : ℤ => g1G2mm n * conj (G (-n + 1)) - g1wwgg2
  { base := zetaDiag maxn c1 mp.base k2
    gam0 := spreadG maxn gam0 gam0n gam0n
    gam1 := spreadG maxn gam1 gam1n gam1n
    gam2 := spreadG maxn gam2 gam2n gam3n
    gam3 := spreadG maxn gam2 gam3n gam2n }

/-- The eight products of the loop over `n ≥ 1`, /repo/src/Corr3.cpp:2270-2320 (`A = Gn` at `ig2`, `B = Gn` at `ig3`): `gam0p … gam3p`,
`gam0m … gam3m`, in the naming of these lines. -/
structure GamPM where
  gam0p : ℂ
  gam1p : ℂ
  gam2p : ℂ
  gam3p : ℂ
  gam0m : ℂ
  gam1m : ℂ
  gam2m : ℂ
  gam3m : ℂ

/-- /repo/src/Corr3.cpp:2270-2310. -/
def gamPM (wg1 : ℂ) (A B : ℤ → ℂ) (n : ℤ) : GamPM :=
  let g1G2pm := wg1 * A (n - 1)
  let g1cG2pp := conj wg1 * A (n + 1)
  let g1G2mpc := wg1 * conj (A (-n + 1))
  let g1G2mm := wg1 * A (-n - 1)
  { gam0p := g1G2pm * B (-n - 1)
    gam1p := g1cG2pp * B (-n + 1)
    gam2p := g1G2pm * conj (B (n + 1))
    gam3p := g1G2mpc * B (-n - 1)
    gam0m := g1G2mm * B (n - 1)
    gam1m := conj g1G2mpc * B (n + 1)
    gam2m := conj g1cG2pp * B (n - 1)
    gam3m := g1G2mm * conj (B (-n + 1)) }

/-- The additions made to `[k2,k3]`, `k2 < k3`, /repo/src/Corr3.cpp:1397-1416 and :2167-2322. -/
def gam23 (maxn : ℕ) (wg : Cell P → ℂ) (c1 : Cell P) (mp : GScratch) (k2 k3 : ℤ) : GVals :=
  let wg1 := wg c1
  let g1G2m := wg1 * mp.Gn k2 (-1)
  let g1cG2p := conj wg1 * mp.Gn k2 1
  let gam0 := g1G2m * mp.Gn k3 (-1)
  let gam1 := g1cG2p * mp.Gn k3 1
  let gam2 := g1G2m * conj (mp.Gn k3 1)
  let gam3 := conj g1cG2p * mp.Gn k3 (-1)
  let pm := gamPM wg1 (mp.Gn k2) (mp.Gn k3)
  { base := zeta23 maxn c1 mp.base k2 k3
    gam0 := spreadG maxn gam0 (fun n => (pm n).gam0p) fun n => (pm n).gam0m
    gam1 := spreadG maxn gam1 (fun n => (pm n).gam1p) fun n => (pm n).gam1m
    gam2 := spreadG maxn gam2 (fun n => (pm n).gam2p) fun n => (pm n).gam3m
    gam3 := spreadG maxn gam3 (fun n => (pm n).gam3p) fun n => (pm n).gam2m }

/-- The additions made to `[k3,k2]`, `k2 < k3`, by the same statements. -/
def gam32 (maxn : ℕ) (wg : Cell P → ℂ) (c1 : Cell P) (mp : GScratch) (k2 k3 : ℤ) : GVals :=
  let wg1 := wg c1
  let g1G2m := wg1 * mp.Gn k2 (-1)
  let g1cG2p := conj wg1 * mp.Gn k2 1
  let gam0 := g1G2m * mp.Gn k3 (-1)
  let gam1 := g1cG2p * mp.Gn k3 1
  let gam2 := g1G2m * conj (mp.Gn k3 1)
  let gam3 := conj g1cG2p * mp.Gn k3 (-1)
  let pm := gamPM wg1 (mp.Gn k2) (mp.Gn k3)
  { base := zeta32 maxn c1 mp.base k2 k3
    gam0 := spreadG maxn gam0 (fun n => (pm n).gam0m) fun n => (pm n).gam0p
    gam1 := spreadG maxn gam1 (fun n => (pm n).gam1m) fun n => (pm n).gam1p
    gam2 := spreadG maxn gam3 (fun n => (pm n).gam2m) fun n => (pm n).gam3p
    gam3 := spreadG maxn gam2 (fun n => (pm n).gam3m) fun n => (pm n).gam2p }

/-- `calculateZeta` for one scratch, /repo/src/Corr3.cpp:1373-1426 with `CalculateZeta`, :2032-2326. -/
def calculateZetaG (maxn : ℕ) (nbins : ℤ) (wg : Cell P → ℂ) (c1 : Cell P) (mp : GScratch) (kstart mink : ℤ) : List (ℤ × ℤ × GVals) :=
  (irange kstart mink).flatMap fun k2 =>
    (k2, k2, gamDiag maxn wg c1 mp k2) ::
      (irange (k2 + 1) nbins).flatMap fun k3 => [(k2, k3, gam23 maxn wg c1 mp k2 k3), (k3, k2, gam32 maxn wg c1 mp k2 k3)]

/-- The additions made to `[k2,k3]` for two scratches, /repo/src/Corr3.cpp:1441-1486 and :2367-2500.  In these lines `gam2m`, `gam3m` are
named the other way round than in the ones above. -/
def gamOrd (maxn : ℕ) (wg : Cell P → ℂ) (swap23 : Bool) (c1 : Cell P) (mp2 mp3 : GScratch) (k2 k3 : ℤ) : GVals :=
  let wg1 := wg c1
  let g1G32m := wg1 * mp3.Gn k2 (-1)
  let g1cG32p := conj wg1 * mp3.Gn k2 1
  let g1G22m := wg1 * mp2.Gn k2 (-1)
  let g1cG22p := conj wg1 * mp2.Gn k2 1
  let also := fun v : ℂ => if swap23 then v else 0
  let pm := gamPM wg1 (mp3.Gn k2) (mp2.Gn k3)
  let pm' := gamPM wg1 (mp2.Gn k2) (mp3.Gn k3)
  { base := if swap23 then zetaOrd1 maxn c1 mp2.base mp3.base k2 k3 else zetaOrd3 maxn c1 mp2.base mp3.base k2 k3
    gam0 := spreadG maxn (g1G32m * mp2.Gn k3 (-1) + also (g1G22m * mp3.Gn k3 (-1)))
      (fun n => (pm n).gam0p + also (pm' n).gam0p) fun n => (pm n).gam0m + also (pm' n).gam0m
    gam1 := spreadG maxn (g1cG32p * mp2.Gn k3 1 + also (g1cG22p * mp3.Gn k3 1))
      (fun n => (pm n).gam1p + also (pm' n).gam1p) fun n => (pm n).gam1m + also (pm' n).gam1m
    gam2 := spreadG maxn (g1G32m * conj (mp2.Gn k3 1) + also (g1G22m * conj (mp3.Gn k3 1)))
      (fun n => (pm n).gam2p + also (pm' n).gam2p) fun n => (pm n).gam3m + also (pm' n).gam3m
    gam3 := spreadG maxn (conj g1cG32p * mp2.Gn k3 (-1) + also (conj g1cG22p * mp3.Gn k3 (-1)))
      (fun n => (pm n).gam3p + also (pm' n).gam3p) fun n => (pm n).gam2m + also (pm' n).gam2m }

/-- `calculateZeta` for two scratches, /repo/src/Corr3.cpp:1428-1494 with `CalculateZeta`, :2328-2505.  `swap23` is `ordered == 1`. -/
def calculateZetaG2 (maxn : ℕ) (nbins : ℤ) (wg : Cell P → ℂ) (swap23 : Bool) (c1 : Cell P) (mp2 mp3 : GScratch) (kstart mink : ℤ) :
    List (ℤ × ℤ × GVals) :=
  (irange kstart nbins).flatMap fun k2 =>
    (irange kstart (if k2 < mink then nbins else mink)).map fun k3 => (k2, k3, gamOrd maxn wg swap23 c1 mp2 mp3 k2 k3)

/-! ## The runs -/

section
variable [PseudoMetricSpace P] (p : Params) (maxn : ℕ) (expIPhi factor : P → P → ℂ) (wg : Cell P → ℂ)

/-- `multipole` of two fields, the first for point 1, /repo/src/Corr3.cpp:816-927 (auto: the same field twice). -/
def multipoleG (cs1 cs2 : List (Cell P)) : Option (List (ℤ × ℤ × GVals)) :=
  multipoleRun p (calculateGnG expIPhi factor wg maxn true) (calculateZetaG maxn p.nbins wg) GScratch.clear cs1 cs2

/-- `multipole` of three fields, /repo/src/Corr3.cpp:929-995. -/
def multipoleG3 (swap23 : Bool) (cs1 cs2 cs3 : List (Cell P)) : Option (List (ℤ × ℤ × GVals)) :=
  multipoleRun2 p (calculateGnG expIPhi factor wg maxn false) (calculateZetaG2 maxn p.nbins wg swap23) GScratch.clear cs1 cs2 cs3

/-- `ProcessAuto` for `LogMultipole`, /repo/src/Corr3.cpp:2692-2706. -/
def multipoleAutoG (cells : List (Cell P)) : Option (List (ℤ × ℤ × GVals)) := multipoleG p maxn expIPhi factor wg cells cells

/-- `ProcessCross12` for `LogMultipole`, /repo/src/Corr3.cpp:2745-2764. -/
def multipoleCross12G (ordered : Bool) (cs1 cs2 : List (Cell P)) : Option (List (ℤ × ℤ × GVals)) :=
  match (if ordered then some [] else multipoleG3 p maxn expIPhi factor wg true cs2 cs1 cs2),
      multipoleG p maxn expIPhi factor wg cs1 cs2 with
  | some a, some b => some (a ++ b)
  | _, _ => none

/-- `ProcessCross` for `LogMultipole`, /repo/src/Corr3.cpp:2820-2845. -/
def multipoleCross123G (O : Ord3) (cs1 cs2 cs3 : List (Cell P)) : Option (List (ℤ × ℤ × GVals)) :=
  match O with
  | .any =>
    match multipoleG3 p maxn expIPhi factor wg true cs2 cs1 cs3, multipoleG3 p maxn expIPhi factor wg true cs3 cs1 cs2,
        multipoleG3 p maxn expIPhi factor wg true cs1 cs2 cs3 with
    | some a, some b, some c => some (a ++ (b ++ c))
    | _, _, _ => none
  | .first => multipoleG3 p maxn expIPhi factor wg true cs1 cs2 cs3
  | .fixed => multipoleG3 p maxn expIPhi factor wg false cs1 cs2 cs3

end

/-! ## The sum over triangles -/

/-- `ProjectHelper<Flat>::ProjectX`, /repo/include/ProjectHelper.h:128-151. -/
def flatProjectX (D : Spin) (p1 p2 p3 : EuclideanSpace ℝ (Fin 2)) (d2 d3 : ℝ) (z : ℂ × ℂ × ℂ) : ℂ × ℂ × ℂ :=
  let r2 := (cplx p2 - cplx p1) / (d3 : ℂ)
  let r3 := (cplx p3 - cplx p1) / (d2 : ℂ)
  let r1 := r2 + r3
  (z.1 * expm D r1, z.2.1 * expm D r2, z.2.2 * expm D r3)

/-- `std::complex z(cosphi, -sinphi)`, /repo/src/Corr3.cpp:1924, with `cosphi`, `sinphi` of /repo/include/BinType.h:1471-1475. -/
def triangleZ (expIPhi : P → P → ℂ) (p1 p2 p3 : P) : ℂ :=
  let r3 := expIPhi p1 p2
  let r2 := expIPhi p1 p3
  let expiphi := r3 * conj r2
  ⟨expiphi.re, -expiphi.im⟩

/-- `DirectHelper<GData,GData,GData>::ProcessMultipole`, /repo/src/Corr3.cpp:1907-1976: what one triangle adds to `gam0 … gam3` at `n`;
`g` are the three shears after `ProjectX`, `z` is `triangleZ`. -/
def processMultipoleG (maxn : ℕ) (g : ℂ × ℂ × ℂ) (z : ℂ) : Fin 4 → ℤ → ℂ := fun μ n =>
  let gam : ℂ := match μ with
    | 0 => g.1 * g.2.1 * g.2.2
    | 1 => conj g.1 * g.2.1 * g.2.2
    | 2 => g.1 * conj g.2.1 * g.2.2
    | 3 => g.1 * g.2.1 * conj g.2.2
  spreadG maxn gam (fun m => gam * z ^ m.natAbs) (fun m => gam * conj z ^ m.natAbs) n

end
end TreeCorr
