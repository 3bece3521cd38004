import Verif.Model.Parallel
import Verif.Model.Patch3
import Verif.Model.MultipoleG

/-!
Model of the OpenMP loops of the three-point code, `/repo/src/Corr3.cpp:231-425, 816-995`.

As in the two-point code `schedule(dynamic)` gives every index of the outer loop to exactly one thread; each thread fills its own
cleared copy (`duplicate()`, /repo/include/Corr3.h:275-276, /repo/src/Corr3.cpp:167-188), and the copies are added to the object one after
the other (`omp critical`, `addData`, `operator+=`).  Simplified: the scratch arrays of the multipole algorithm, one set per thread, are
cleared before each use (/repo/src/Corr3.cpp:1073, 1107-1108), so that each row starts with cleared ones.
-/

namespace TreeCorr
open Classical
noncomputable section
variable {P : Type}

/-- One thread: the additions of its rows into a cleared copy.  `row i` is the body of the loop for index `i`, as the list of its
additions; `put` does one addition. -/
def threadSum {E A : Type} (zero : A) (put : A → E → A) (row : ℕ → Option (List E)) (is : List ℕ) : Option A := do
  let ess ← is.mapM row
  pure (ess.flatten.foldl put zero)

/-- The parallel loop, starting from the contents `A0` of the object. -/
def parLoop {E A : Type} (zero : A) (put : A → E → A) (add : A → A → A) (row : ℕ → Option (List E)) (s : Schedule) (A0 : A) :
    Option A := do
  let accs ← s.mapM (threadSum zero put row)
  pure (accs.foldl add A0)

/-! ## The triangle algorithm -/

/-- The body of the loop of the auto-correlation, /repo/src/Corr3.cpp:259-280. -/
def autoRow3 (B : Bin3 P) (M : Metric3 P) (minsep : ℝ) (cells : List (Cell P)) (i : ℕ) : Option (List (Emit3 P)) :=
  match cells.drop i with
  | [] => none
  | c1 :: rest => do
    let x1 ← process3 B M minsep c1
    let x2 ← autoLoop2 B M c1 rest
    pure (x1 ++ x2)

/-- The body of the loop for one field against another twice, /repo/src/Corr3.cpp:327-346. -/
def cross12Row3 (B : Bin3 P) (M : Metric3 P) (O : Ord3) (cs1 cs2 : List (Cell P)) (i : ℕ) : Option (List (Emit3 P)) :=
  match cs1[i]? with
  | none => none
  | some c1 => cross12Loop2 B M O c1 cs2

/-- The body of the loop for three fields, /repo/src/Corr3.cpp:397-415. -/
def cross123Row3 (B : Bin3 P) (M : Metric3 P) (O : Ord3) (cs1 cs2 cs3 : List (Cell P)) (i : ℕ) : Option (List (Emit3 P)) :=
  match cs1[i]? with
  | none => none
  | some c1 => concatM (fun c2 => loop111 B M O c1 c2 cs3) cs2

/-- The auto-correlation with any number of threads, /repo/src/Corr3.cpp:231-290. -/
def processAuto3Par (B : Bin3 P) (M : Metric3 P) (minsep : ℝ) (cells : List (Cell P)) (s : Schedule) (A : Acc3) : Option Acc3 :=
  parLoop Acc3.zero finish3 Acc3.add (autoRow3 B M minsep cells) s A

/-- One field against another twice, /repo/src/Corr3.cpp:292-356. -/
def processCross12Par (B : Bin3 P) (M : Metric3 P) (O : Ord3) (cs1 cs2 : List (Cell P)) (s : Schedule) (A : Acc3) : Option Acc3 :=
  parLoop Acc3.zero finish3 Acc3.add (cross12Row3 B M O cs1 cs2) s A

/-- Three fields, /repo/src/Corr3.cpp:358-425. -/
def processCross123Par (B : Bin3 P) (M : Metric3 P) (O : Ord3) (cs1 cs2 cs3 : List (Cell P)) (s : Schedule) (A : Acc3) :
    Option Acc3 :=
  parLoop Acc3.zero finish3 Acc3.add (cross123Row3 B M O cs1 cs2 cs3) s A

/-! ## The multipole algorithm -/

/-- The output arrays over the pairs of bins. -/
abbrev MpArr (W : Type) := ℤ → ℤ → W

/-- One addition to `[k2,k3]`. -/
def mpPut {W : Type} (add : W → W → W) (A : MpArr W) (x : ℤ × ℤ × W) : MpArr W := fun k2 k3 =>
  if k2 = x.1 ∧ k3 = x.2.1 then add (A k2 k3) x.2.2 else A k2 k3

/-- `operator+=`. -/
def mpAdd {W : Type} (add : W → W → W) (A B : MpArr W) : MpArr W := fun k2 k3 => add (A k2 k3) (B k2 k3)

/-- The entries of `operator+=`, /repo/src/Corr3.cpp:2610-2629. -/
def MpVals.add (a b : MpVals) : MpVals where
  ntri := a.ntri + b.ntri
  meand2 := a.meand2 + b.meand2
  meanlogd2 := a.meanlogd2 + b.meanlogd2
  meand3 := a.meand3 + b.meand3
  meanlogd3 := a.meanlogd3 + b.meanlogd3
  weight n := a.weight n + b.weight n
  zeta n := a.zeta n + b.zeta n

/-- The entries of `clear`. -/
def MpVals.zero : MpVals := ⟨0, 0, 0, 0, 0, fun _ => 0, fun _ => 0⟩

/-- The entries of `operator+=` for three shears, with `ZetaData<GData,GData,GData>::add`. -/
def GVals.add (a b : GVals) : GVals where
  base := a.base.add b.base
  gam0 n := a.gam0 n + b.gam0 n
  gam1 n := a.gam1 n + b.gam1 n
  gam2 n := a.gam2 n + b.gam2 n
  gam3 n := a.gam3 n + b.gam3 n

/-- The entries of `clear`. -/
def GVals.zero : GVals := ⟨MpVals.zero, fun _ => 0, fun _ => 0, fun _ => 0, fun _ => 0⟩

/-- The body of the loop of the multipole algorithm for one or two fields, /repo/src/Corr3.cpp:846-858, 906-918. -/
def mpRow [PseudoMetricSpace P] {S A : Type} (p : Params) (gn : Cell P → Cell P → ℝ → ℝ → ℤ → S → S)
    (zeta : Cell P → S → ℤ → ℤ → List A) (clear : S) (cs1 cs2 : List (Cell P)) (i : ℕ) : Option (List A) :=
  match cs1[i]? with
  | none => none
  | some c1 => multipoleSplit1 p gn zeta clear c1 cs2

/-- The body of the loop of the multipole algorithm for three fields, /repo/src/Corr3.cpp:974-986. -/
def mpRow3 [PseudoMetricSpace P] {S A : Type} (p : Params) (gn : Cell P → Cell P → ℝ → ℝ → ℤ → S → S)
    (zeta : Cell P → S → S → ℤ → ℤ → List A) (clear : S) (cs1 cs2 cs3 : List (Cell P)) (i : ℕ) : Option (List A) :=
  match cs1[i]? with
  | none => none
  | some c1 => multipoleSplit12 p gn zeta clear c1 cs2 cs3

/-- The multipole algorithm for one field (twice the same) or two with any number of threads, /repo/src/Corr3.cpp:816-927; scalars. -/
def multipolePar [PseudoMetricSpace P] (p : Params) (maxn : ℕ) (expIPhi : P → P → ℂ) (cs1 cs2 : List (Cell P)) (s : Schedule)
    (A : MpArr MpVals) : Option (MpArr MpVals) :=
  parLoop (fun _ _ => MpVals.zero) (mpPut MpVals.add) (mpAdd MpVals.add)
    (mpRow p (calculateGn expIPhi maxn true) (calculateZeta maxn p.nbins) Scratch.clear cs1 cs2) s A

/-- The same for three fields, /repo/src/Corr3.cpp:929-995. -/
def multipole3Par [PseudoMetricSpace P] (p : Params) (maxn : ℕ) (expIPhi : P → P → ℂ) (swap23 : Bool) (cs1 cs2 cs3 : List (Cell P))
    (s : Schedule) (A : MpArr MpVals) : Option (MpArr MpVals) :=
  parLoop (fun _ _ => MpVals.zero) (mpPut MpVals.add) (mpAdd MpVals.add)
    (mpRow3 p (calculateGn expIPhi maxn false) (calculateZeta2 maxn p.nbins swap23) Scratch.clear cs1 cs2 cs3) s A

/-- The multipole algorithm for shears with any number of threads, one or two fields. -/
def multipoleGPar [PseudoMetricSpace P] (p : Params) (maxn : ℕ) (expIPhi factor : P → P → ℂ) (wg : Cell P → ℂ)
    (cs1 cs2 : List (Cell P)) (s : Schedule) (A : MpArr GVals) : Option (MpArr GVals) :=
  parLoop (fun _ _ => GVals.zero) (mpPut GVals.add) (mpAdd GVals.add)
    (mpRow p (calculateGnG expIPhi factor wg maxn true) (calculateZetaG maxn p.nbins wg) GScratch.clear cs1 cs2) s A

/-- The same for three fields. -/
def multipoleG3Par [PseudoMetricSpace P] (p : Params) (maxn : ℕ) (expIPhi factor : P → P → ℂ) (wg : Cell P → ℂ) (swap23 : Bool)
    (cs1 cs2 cs3 : List (Cell P)) (s : Schedule) (A : MpArr GVals) : Option (MpArr GVals) :=
  parLoop (fun _ _ => GVals.zero) (mpPut GVals.add) (mpAdd GVals.add)
    (mpRow3 p (calculateGnG expIPhi factor wg maxn false) (calculateZetaG2 maxn p.nbins wg swap23) GScratch.clear cs1 cs2 cs3) s A

end
end TreeCorr
