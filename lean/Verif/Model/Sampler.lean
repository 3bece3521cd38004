import Verif.Model.Corr2
import Verif.Model.Select

/-!
Model of `sample_pairs`: `Sampler`, `/repo/src/Corr2.cpp:700-930`, `SamplePairs`, `:1110-1135`, and
`Corr2.sample_pairs`, `/repo/treecorr/corr2base.py:1441-1542`.

`none` stands for a failed assertion, access outside of an array, or a random selection that has not come to an end.
-/

namespace TreeCorr
open Classical
noncomputable section
variable {P : Type}

/-- An entry of the three output arrays: `_i1[j], _i2[j], _sep[j]`. -/
abbrev SampledPair := ℕ × ℕ × ℝ

/-- The state of a `Sampler` with arrays of length `n`: the arrays (`none`: not written yet), `_k`, and the number of random numbers
used so far. -/
structure Sampler where
  arr : ℕ → Option SampledPair
  k : ℕ
  used : ℕ

namespace Sampler

/-- The constructor's change of the parameters, /repo/src/Corr2.cpp:700-717: `nbins`, `binsize`, `b` stay as they are. -/
def params (p : Params) (minsep maxsep : ℝ) : Params := { p with minsep := minsep, maxsep := maxsep }

/-- `_i1[j] = ..; _i2[j] = ..; _sep[j] = ..`. -/
def put (n : ℕ) (a : ℕ → Option SampledPair) (j : ℕ) (v : SampledPair) : Option (ℕ → Option SampledPair) :=
  if j < n then some (fun i => if i = j then some v else a i) else none

/-- The separation written for a pair of cells, /repo/src/Corr2.cpp:805-809. -/
def sepOf (e : Emit P) : ℝ := if e.r = 0 then Real.sqrt e.rsq else e.r

/-- The pairs of rows of two cells, in the order of the loops in /repo/src/Corr2.cpp:816-838, one list per row of the first cell. -/
def rowsOf (e : Emit P) : List (List SampledPair) :=
  e.c1.objs.map fun o1 => e.c2.objs.map fun o2 => (o1.idx, o2.idx, sepOf e)

/-- Body of the loops of case 1, /repo/src/Corr2.cpp:830-833. -/
def takeStep (n : ℕ) (st : Sampler) (v : SampledPair) : Option Sampler :=
  (put n st.arr st.k v).map fun a => { st with arr := a, k := st.k + 1 }

/-- Body of the loops of case 2, /repo/src/Corr2.cpp:850-861. -/
def oneStep (u : ℕ → ℝ) (n : ℕ) (st : Sampler) (v : SampledPair) : Option Sampler :=
  let j := if st.k ≥ n then ⌊u st.used * ((st.k : ℝ) + 1)⌋₊ else st.k
  let used := if st.k ≥ n then st.used + 1 else st.used
  if j < n then (put n st.arr j v).map fun a => { arr := a, k := st.k + 1, used := used }
  else some { arr := st.arr, k := st.k + 1, used := used }

/-- One turn of the loop that puts old items into their place, /repo/src/Corr2.cpp:873-876. -/
def fixStep (n : ℕ) (sel : List ℕ) (i : ℕ) : Option (List ℕ) :=
  sel[i]?.bind fun j => if j < n then swapIdx sel i j else some sel

/-- `places[j] = i` for a `std::map`, as a list in the order of the keys. -/
def mapInsert (j i : ℕ) : List (ℕ × ℕ) → List (ℕ × ℕ)
  | [] => [(j, i)]
  | (j', i') :: l =>
    if j < j' then (j, i) :: (j', i') :: l
    else if j = j' then (j, i) :: l
    else (j', i') :: mapInsert j i l

/-- The map `places`, /repo/src/Corr2.cpp:879-883. -/
def placesOf (k n : ℕ) (sel : List ℕ) : Option (List (ℕ × ℕ)) :=
  (List.range n).foldlM (fun m i => sel[i]?.map fun j => if j ≥ k then mapInsert j i m else m) []

/-- The loops over the second cell in case 3, /repo/src/Corr2.cpp:906-923.  State: `i`, the places from `next` on, the arrays. -/
def walkRow (n : ℕ) : List SampledPair → ℕ → List (ℕ × ℕ) → (ℕ → Option SampledPair) →
    Option (ℕ × List (ℕ × ℕ) × (ℕ → Option SampledPair))
  | [], i, next, a => some (i, next, a)
  | _ :: _, _, [], _ => none
  | v :: vs, i, (j, p) :: rest, a =>
    if i = j then
      (put n a p v).bind fun a => if rest = [] then some (i, [], a) else walkRow n vs (i + 1) rest a
    else walkRow n vs (i + 1) ((j, p) :: rest) a

/-- The loops over the first cell in case 3, /repo/src/Corr2.cpp:892-926. -/
def walk (n n2 : ℕ) : List (List SampledPair) → ℕ → List (ℕ × ℕ) → (ℕ → Option SampledPair) →
    Option (ℕ → Option SampledPair)
  | [], _, _, a => some a
  | _ :: _, _, [], _ => none
  | row :: rows, i, (j, p) :: rest, a =>
    if i ≤ j then
      if j > i + n2 then walk n n2 rows (i + n2) ((j, p) :: rest) a
      else
        (walkRow n row i ((j, p) :: rest) a).bind fun x =>
          if x.2.1 = [] then some x.2.2 else walk n n2 rows x.1 x.2.1 x.2.2
    else none

/-- `Sampler::finishProcess`, /repo/src/Corr2.cpp:761-930. -/
def finish (u : ℕ → ℝ) (fuel n : ℕ) (st : Sampler) (e : Emit P) : Option Sampler :=
  let m := e.c1.n * e.c2.n
  if st.k + m ≤ n then (rowsOf e).flatten.foldlM (takeStep n) st
  else if m ≤ n then (rowsOf e).flatten.foldlM (oneStep u n) st
  else
    (selectRandomFrom u fuel (st.k + m) n st.used).bind fun su =>
      ((List.range' st.k (n - st.k)).foldlM (fixStep n) su.1).bind fun sel =>
        (placesOf st.k n sel).bind fun places =>
          if places = [] then some { st with k := st.k + m, used := su.2 }
          else
            (walk n e.c2.n (rowsOf e) st.k places st.arr).map fun a =>
              { arr := a, k := st.k + m, used := su.2 }

/-- `SamplePairs`, /repo/src/Corr2.cpp:1110-1135: the cross-correlation with one thread, every pair of cells handed to the
sampler. -/
def run (u : ℕ → ℝ) (fuel n : ℕ) (es : List (Emit P)) : Option Sampler :=
  es.foldlM (finish u fuel n) { arr := fun _ => none, k := 0, used := 0 }

end Sampler

/-- `Corr2.sample_pairs`, /repo/treecorr/corr2base.py:1503-1541, for the fields of the two catalogues: arrays of zeros of length `n`, the call
of `SamplePairs`, and the cut to `ntot` entries.  The units are taken to be 1. -/
def samplePairsPy (B : BinHelper P) (M : MetricHelper P) (p : Params) (u : ℕ → ℝ) (fuel n : ℕ) (f1 f2 : Field P)
    (minsep maxsep : ℝ) : Option (List SampledPair) :=
  (processCross B M (Sampler.params p minsep maxsep) f1 f2).bind fun es =>
    (Sampler.run u fuel n es).map fun st =>
      (List.range (min n st.k)).map fun i => (st.arr i).getD (0, 0, 0)

/-! ### The number of threads -/

/-- The part of the state of OpenMP that `omp_set_num_threads` sets and `omp_get_max_threads` returns. -/
structure Omp where
  threads : ℕ

namespace Omp

/-- `SetOMPThreads`, /repo/src/Corr2.cpp:1091-1099, compiled with OpenMP: the new state and the returned number.  OpenMP may also comply
only in part; here it complies. -/
def set (_ : Omp) (num : ℕ) : Omp × ℕ := ({ threads := num }, num)

/-- `GetOMPThreads`, /repo/src/Corr2.cpp:1101-1108. -/
def get (s : Omp) : ℕ := s.threads

/-- The effect of `SamplePairs` on the number of threads, /repo/src/Corr2.cpp:1130-1132. -/
def samplePairs (s : Omp) : Omp :=
  let x := s.set 1
  (x.1.set x.2).1

/-- `set_omp_threads`, /repo/treecorr/util.py, with `cpu_count` processors and the module variable `max_omp_threads`: what it asks
OpenMP for. -/
def request (cpu : ℕ) (maxThreads : Option ℕ) (num : Option ℤ) : ℕ :=
  let n : ℕ := match num with
    | none => cpu
    | some k => if k ≤ 0 then cpu else k.toNat
  match maxThreads with
  | none => n
  | some m => if n > m then m else n

end Omp

end
end TreeCorr
