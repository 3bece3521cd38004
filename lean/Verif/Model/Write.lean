import Mathlib.Analysis.Real.Sqrt
import Mathlib.Data.List.Basic

/-!
# Writing a two-point correlation to a file and reading it back

`write` / `from_file` of the two-point classes, over the three file types.
A file is a list of *chunks*: tables with a header of parameters, and bare arrays.
FITS and HDF5 files give access to a chunk by its name and keep doubles as they are.
An ASCII file is a list of lines which is read from front to back; the doubles were printed with a
given number of digits, which is the function `ρ`.

Simplifications.  The libraries under the readers and writers (fitsio, h5py, `np.savetxt`,
`np.genfromtxt`) are taken to do what their documentation says; the numbers in the header of a FITS
file (15 digits) count as exact; `repr` and `eval` of numbers, strings and tuples are exact inverses.
-/

namespace TreeCorr
namespace IO

open Classical

/-- A column of numbers: a numpy array, flattened. -/
abbrev Arr := List ℝ

/-- The values that occur in the parameters of a table. -/
inductive Val where
  | str (s : String)
  | num (x : ℝ)
  | int (i : ℤ)
  | flag (b : Bool)
  | null
  /-- `repr(key)` of a pair of patch numbers (corr2base.py:1740). -/
  | key (k : ℤ × ℤ)
  /-- `repr((key, corr.tot))` (corr2base.py:1723). -/
  | keyTot (k : ℤ × ℤ) (tot : ℝ)
  /-- A shape (corr2base.py:1729). -/
  | shape (s : ℕ × ℕ)
  /-- `repr(key)` of three patch numbers (corr3base.py:2463). -/
  | key3 (k : ℤ × ℤ × ℤ)
  /-- `repr((key, corr.tot))` for three patch numbers (corr3base.py:2446). -/
  | keyTot3 (k : ℤ × ℤ × ℤ) (tot : ℝ)

/-- A Python dict with string keys. -/
abbrev Dict := String → Option Val

def Dict.set (d : Dict) (k : String) (v : Val) : Dict := fun j => if j = k then some v else d j

/-- The names and default values of the constructor parameters, corr2base.py:234-300
(third entry of each tuple).  `none`: not a valid parameter. -/
def dflt : Dict := fun k =>
  match k with
  | "nbins" | "bin_size" | "min_sep" | "max_sep" | "sep_units" | "bin_slop" | "angle_slop"
  | "log_file" | "output_dots" | "min_top" | "min_rpar" | "max_rpar"
  | "period" | "xperiod" | "yperiod" | "zperiod" | "num_threads" => some .null
  | "brute" => some (.flag false)
  | "verbose" => some (.int 1)
  | "split_method" => some (.str "mean")
  | "max_top" => some (.int 10)
  | "precision" => some (.int 4)
  | "m2_uform" => some (.str "Crittenden")
  | "metric" => some (.str "Euclidean")
  | "bin_type" => some (.str "Log")
  | "var_method" => some (.str "shot")
  | "num_bootstrap" => some (.int 500)
  | _ => none

/-- config.py:422-432 `make_minimal_config`: the valid parameters whose value is not the default. -/
noncomputable def minimal (d : Dict) : Dict := fun k =>
  match dflt k, d k with
  | some dv, some v => if v = dv then none else some v
  | _, _ => none

/-- The value of every constructor parameter, defaults filled in.
The constructor (corr2base.py:302-519) reads each parameter with a default equal to the one in
`_valid_params`, and reads nothing else of its arguments. -/
def effective (d : Dict) : Dict := fun k =>
  match dflt k with
  | none => none
  | some dv => some ((d k).getD dv)

/-- The part of a class that matters for its files: the letters (`_letters`), the names of the
columns with the components of xi and with the errors, the name of the weight column, and whether
it is the NN class.  The order of columns in the file is not kept for the ZZ classes
(`xip, xim, xip_im, xim_im`); columns are read by name. -/
structure Kind where
  letters : String
  xi : List String
  sigma : List String
  weight : String
  nn : Bool

/-- `NNCorrelation`, nncorrelation.py:95, 571-590. -/
def kindNN : Kind := ⟨"NN", ["xi"], ["sigma_xi"], "DD", true⟩
/-- `NKCorrelation`, nkcorrelation.py:310-326. -/
def kindNK : Kind := ⟨"NK", ["kappa"], ["sigma"], "weight", false⟩
/-- `KKCorrelation`, kkcorrelation.py:226-240. -/
def kindKK : Kind := ⟨"KK", ["xi"], ["sigma_xi"], "weight", false⟩
/-- `BaseNZCorrelation`, nzcorrelation.py:172-190: NZ, NV, NG, NT, NQ. -/
def kindN (letters re im : String) : Kind := ⟨letters, [re, im], ["sigma"], "weight", false⟩
/-- `BaseKZCorrelation`, kzcorrelation.py:95-111: KZ, KV, KG, KT, KQ. -/
def kindK (letters re im : String) : Kind := ⟨letters, [re, im], ["sigma"], "weight", false⟩
/-- `BaseZZCorrelation`, zzcorrelation.py:195-216: ZZ, VV, GG, TT, QQ. -/
def kindZ (letters : String) : Kind :=
  ⟨letters, ["xip", "xip_im", "xim", "xim_im"], ["sigma_xip", "sigma_xim"], "weight", false⟩

/-- `Corr2._lookup_dict`, corr2base.py:523-524, with `_zreal`, `_xireal` etc. of each class
(ngcorrelation.py:104, nqcorrelation.py:103, ntcorrelation.py:103, nvcorrelation.py:103,
nzcorrelation.py:271, kgcorrelation.py:106, kqcorrelation.py:99, ktcorrelation.py:99,
kvcorrelation.py:100, kzcorrelation.py:189). -/
def kinds : List Kind :=
  [kindNN, kindNK, kindKK,
   kindN "NZ" "z_real" "z_imag", kindN "NV" "vR" "vT", kindN "NG" "gamT" "gamX",
   kindN "NT" "tR" "tR_im", kindN "NQ" "qR" "qR_im",
   kindK "KZ" "xi" "xi_im", kindK "KV" "xi" "xi_im", kindK "KG" "kgamT" "kgamX",
   kindK "KT" "xi" "xi_im", kindK "KQ" "xi" "xi_im",
   kindZ "ZZ", kindZ "VV", kindZ "GG", kindZ "TT", kindZ "QQ"]

/-- The data of one correlation object: the arrays, `coords`, `metric` and `tot` (NN only).
`xi` holds `_xi1`.. (for NN: `[xi]` if `calculateXi` was called, else `[]`), `var` likewise. -/
@[ext] structure Core where
  coords : Option String
  metric : Option String
  meanr : Arr
  meanlogr : Arr
  weight : Arr
  npairs : Arr
  xi : List Arr
  var : List Arr
  tot : ℝ

/-- A correlation object. `results` is the dict of patch results in its order of insertion,
`cov` the stored covariance matrix (`_cov`, as the property `cov` returns it, corr2base.py:606-620),
`varNum` is `_var_num`. -/
structure Corr where
  cfg : Dict
  rnom : Arr
  core : Core
  npatch1 : ℕ
  npatch2 : ℕ
  results : List ((ℤ × ℤ) × Core)
  cov : Option (List Arr)
  varNum : ℝ

/-- What is written to a file, in order. `prec` is the precision in force, used by ASCII only. -/
inductive Chunk where
  /-- writer.py:47-75 `write` -/
  | table (name : Option String) (prec : ℕ) (params : Dict) (cols : List (String × Arr))
  /-- writer.py:77-87 `write_array` -/
  | array (name : String) (prec : ℕ) (rows : List Arr)

/-- nncorrelation.py:204-212 `_nonzero`: whether any pair was counted. -/
def Core.nonzero (c : Core) : Prop := ∃ x ∈ c.npairs, x ≠ 0

/-- `_write_col_names`, `_write_data` (e.g. kkcorrelation.py:226-234, nncorrelation.py:571-617).
`extra` are the columns RR, DR, RD of NN (nncorrelation.py:579-585). -/
noncomputable def columns (K : Kind) (rnom : Arr) (c : Core) (extra : List (String × Arr)) :
    List (String × Arr) :=
  [("r_nom", rnom), ("meanr", c.meanr), ("meanlogr", c.meanlogr)] ++
  (K.xi.zip c.xi ++ (K.sigma.zip (c.var.map (List.map Real.sqrt)) ++
  ((K.weight, c.weight) :: extra ++ [("npairs", c.npairs)])))

/-- A string or None. -/
def optStr : Option String → Val
  | none => .null
  | some s => .str s

/-- corr2base.py:1690-1698 `_write_params`, with nncorrelation.py:619-627 for NN
(`flags`: the values `_rr`, `_dr`, `_rd` when patch results are written). -/
noncomputable def writeParams (K : Kind) (cfg : Dict) (c : Core) (flags : Option (Bool × Bool × Bool)) :
    Dict :=
  let d := (((minimal cfg).set "coords" (optStr c.coords)).set "metric" (optStr c.metric)).set
    "corr" (.str K.letters)
  let d := if K.nn then d.set "tot" (.num c.tot) else d
  match flags with
  | none => d
  | some (a, b, e) => ((d.set "_rr" (.flag a)).set "_dr" (.flag b)).set "_rd" (.flag e)

/-- corr2base.py:1722, 1757 -/
def zpName (name : String) (i : ℕ) : String := name ++ ("_zp_" ++ Nat.repr i)
/-- corr2base.py:1741, 1761 -/
def ppName (name : String) (i : ℕ) : String := name ++ ("_pp_" ++ Nat.repr i)

/-- The loop corr2base.py:1720-1725. -/
def setZeros (name : String) : ℕ → List ((ℤ × ℤ) × Core) → Dict → Dict
  | _, [], d => d
  | i, (k, c) :: rs, d => setZeros name (i + 1) rs (d.set (zpName name i) (.keyTot k c.tot))

/-- The loop corr2base.py:1734-1743 (precision 16 from line 1733). -/
noncomputable def ppTables (K : Kind) (cfg : Dict) (rnom : Arr) (name : String) :
    ℕ → List ((ℤ × ℤ) × Core) → List Chunk
  | _, [] => []
  | i, (k, c) :: rs =>
    .table (some (ppName name i)) 16 ((writeParams K cfg c none).set "key" (.key k))
      (columns K rnom c []) :: ppTables K cfg rnom name (i + 1) rs

/-- The results written as tables, and those written as a header entry (corr2base.py:1720, 1736). -/
noncomputable def tabled (zt : Bool) (rs : List ((ℤ × ℤ) × Core)) : List ((ℤ × ℤ) × Core) :=
  if zt then rs.filter fun r => r.2.nonzero else rs
noncomputable def zeroed (rs : List ((ℤ × ℤ) × Core)) : List ((ℤ × ℤ) × Core) :=
  rs.filter fun r => ¬ r.2.nonzero

/-- The parameters of the main table, corr2base.py:1709-1729. -/
noncomputable def mainParams (K : Kind) (x : Corr) (flags : Option (Bool × Bool × Bool))
    (name : String) (wpr zt : Bool) (cov : Option (List Arr)) : Dict :=
  let d := writeParams K x.cfg x.core flags
  let d := if wpr then
      let d := ((d.set "npatch1" (.int x.npatch1)).set "npatch2" (.int x.npatch2)).set
        "num_rows" (.int x.rnom.length)
      let d := if zt then
          (setZeros name 0 (zeroed x.results) d).set "num_zero_patch"
            (.int (zeroed x.results).length)
        else d
      d.set "num_patch_pairs" (.int (tabled zt x.results).length)
    else d
  match cov with
  | none => d
  | some m => d.set "cov_shape" (.shape (m.length, (m.headD []).length))

/-- corr2base.py:1700-1747 `_write`.  `prec` is the precision of the writer at the call.
With `write_cov` the property `cov` is evaluated first; here the matrix must be there. -/
noncomputable def writeCorr (K : Kind) (x : Corr) (extra : List (String × Arr))
    (flags : Option (Bool × Bool × Bool)) (name : Option String) (wpr wcov zt : Bool) (prec : ℕ) :
    Option (List Chunk) :=
  let name := if name = none ∧ (wpr ∨ wcov) then some "main" else name
  let nm := name.getD ""
  if wcov then
    match x.cov with
    | none => none
    | some m => some (.table name prec (mainParams K x flags nm wpr zt (some m))
          (columns K x.rnom x.core extra) ::
        ((if wpr then ppTables K x.cfg x.rnom nm 0 (tabled zt x.results) else []) ++
          [.array "cov" (if wpr then 16 else prec) m]))
  else some (.table name prec (mainParams K x flags nm wpr zt none)
      (columns K x.rnom x.core extra) ::
    (if wpr then ppTables K x.cfg x.rnom nm 0 (tabled zt x.results) else []))

/-- A reader: reader.py. `contains` is `in`; the state is the position in the file.
`none` is an exception. -/
structure Reader (σ : Type) where
  contains : String → σ → Bool
  readParams : Option String → σ → Option (Dict × σ)
  readData : Option String → Option ℕ → σ → Option (List (String × Arr) × σ)
  readArray : ℕ × ℕ → String → σ → Option (List Arr × σ)

/-! ## FITS and HDF5: access by name -/

def Chunk.name : Chunk → Option String
  | .table n _ _ _ => n
  | .array n _ _ => some n

/-- FitsReader (reader.py:464-640), HdfReader (643-790): `ext=None` is the first extension,
respectively the root group. `max_rows` is ignored. HDF's `read_array` broadcasts, FITS asserts
the shape; both accept only the written shape here. -/
def findChunk (f : List Chunk) (ext : Option String) : Option Chunk :=
  match ext with
  | none => f.head?
  | some s => f.find? fun c => c.name == some s

def isShape (s : ℕ × ℕ) (m : List Arr) : Prop := m.length = s.1 ∧ ∀ r ∈ m, r.length = s.2

noncomputable def named : Reader (List Chunk) where
  contains s f := f.any fun c => c.name == some s
  readParams ext f := match findChunk f ext with
    | some (.table _ _ d _) => some (d, f)
    | _ => none
  readData ext _ f := match findChunk f ext with
    | some (.table _ _ _ cols) => some (cols, f)
    | _ => none
  readArray s ext f := match findChunk f (some ext) with
    | some (.array _ _ m) => if isShape s m then some (m, f) else none
    | _ => none

/-! ## ASCII: a list of lines -/

/-- The lines of an ASCII file: `## name`, `## {params}`, `# column names`, a row of numbers. -/
inductive Line where
  | name (s : String)
  | params (d : Dict)
  | head (names : List String)
  | row (xs : Arr)

/-- One chunk as lines, writer.py:57-75, 84-87.  `ρ p x`: the number read from the string printed
for `x` with `p` digits after the point. -/
noncomputable def render (ρ : ℕ → ℝ → ℝ) : Chunk → List Line
  | .table name p d cols =>
    (match name with | none => [] | some s => [Line.name s]) ++
    [.params d, .head (cols.map Prod.fst)] ++
    (List.range (cols.headD ("", [])).2.length).map fun i =>
      .row (cols.map fun c => ρ p (c.2.getD i 0))
  | .array name p m => .name name :: m.map fun r => .row (r.map (ρ p))

/-- The state of the ASCII reader: the column names last read and the lines left. -/
abbrev AscState := List String × List Line

/-- The rows `np.genfromtxt` takes: skips comments, at most `max` rows, error unless every row has
the width `w`. -/
def takeRows (w : ℕ) : Option ℕ → List Line → Option (List Arr × List Line)
  | some 0, ls => some ([], ls)
  | _, [] => some ([], [])
  | mx, .row xs :: ls =>
    if xs.length = w then
      (takeRows w (mx.map (· - 1)) ls).map fun (rs, rest) => (xs :: rs, rest)
    else none
  | mx, _ :: ls => takeRows w mx ls

/-- reader.py:142-169 `read_params`. -/
def ascParams (ext : Option String) (s : AscState) : Option (Dict × AscState) :=
  match s.2 with
  | .name n :: ls =>
    if ext ≠ none ∧ ext ≠ some n then none
    else match ls with
      | .params d :: .head h :: rest => some (d, h, rest)
      | .head h :: rest => some (fun _ => none, h, rest)
      | _ => none
  | .params d :: .head h :: rest => some (d, h, rest)
  | .head h :: rest => some (fun _ => none, h, rest)
  | _ => none

/-- reader.py:171-182 `read_data`: `genfromtxt` with the names of the header. -/
def ascData (mx : Option ℕ) (s : AscState) : Option (List (String × Arr) × AscState) :=
  (takeRows s.1.length mx s.2).map fun (rows, rest) =>
    (s.1.zipIdx.map fun (nm, j) => (nm, rows.map fun r => r.getD j 0), s.1, rest)

/-- The first row of numbers. -/
def firstRow : List Line → Option Arr
  | [] => none
  | .row xs :: _ => some xs
  | _ :: ls => firstRow ls

/-- reader.py:184-196 `read_array`: `genfromtxt` squeezes the result, so the two-dimensional shape
is found only when there are at least two rows and two columns; then the shape is asserted. -/
noncomputable def ascArray (shape : ℕ × ℕ) (s : AscState) : Option (List Arr × AscState) :=
  match firstRow s.2 with
  | none => none
  | some r0 => match takeRows r0.length (some shape.1) s.2 with
    | none => none
    | some (rows, rest) =>
      if 2 ≤ rows.length ∧ 2 ≤ r0.length ∧ isShape shape rows then some (rows, s.1, rest) else none

/-- AsciiReader, reader.py:31-200. `'main' in reader` is False (line 68). -/
noncomputable def ascii : Reader AscState where
  contains _ _ := false
  readParams := ascParams
  readData _ mx s := ascData mx s
  readArray shape _ s := ascArray shape s

/-! ## Reading -/

/-- A column of the data, reshaped to the shape of `logr` (`n` elements). -/
def getCol (n : ℕ) (cols : List (String × Arr)) (nm : String) : Option Arr :=
  match cols.lookup nm with
  | some a => if a.length = n then some a else none
  | none => none

/-- `params['coords'].strip()`: an exception for None. `strip` does nothing to the names written. -/
def getStr (d : Dict) (k : String) : Option String :=
  match d k with
  | some (.str s) => some s
  | _ => none

/-- `params.get(k, default)` for an integer. -/
def getNat (d : Dict) (k : String) (df : ℕ) : Option ℕ :=
  match d k with
  | none => some df
  | some (.int i) => some i.toNat
  | _ => none

/-- The components of xi and the variances: kkcorrelation.py:236-240, kzcorrelation.py:106-111,
nkcorrelation.py:320-326, nzcorrelation.py:182-190, zzcorrelation.py:208-216. NN
(nncorrelation.py:714-716) keeps what the object has if the file has no column `xi`. -/
def readXi (K : Kind) (n : ℕ) (old : Core) (cols : List (String × Arr)) :
    Option (List Arr × List Arr) :=
  if K.nn = true ∧ cols.lookup "xi" = none then some (old.xi, old.var) else
    match K.xi.mapM (getCol n cols), K.sigma.mapM (getCol n cols) with
    | some xi, some sg => some (xi, sg.map (List.map fun s => s ^ 2))
    | _, _ => none

/-- nncorrelation.py:713. -/
def readTot (K : Kind) (old : Core) (d : Dict) : Option ℝ :=
  if K.nn then (match d "tot" with | some (.num t) => some t | _ => none) else some old.tot

/-- corr2base.py:1775-1791 `_read_from_data` and its overrides (see `readXi`, `readTot`).
`old` is the object read into. -/
noncomputable def readFromData (K : Kind) (n : ℕ) (old : Core) (cols : List (String × Arr))
    (d : Dict) : Option Core := do
  let meanr ← getCol n cols "meanr"
  let meanlogr ← getCol n cols "meanlogr"
  let weight ← getCol n cols K.weight
  let npairs ← getCol n cols "npairs"
  let coords ← getStr d "coords"
  let metric ← getStr d "metric"
  let (xi, var) ← readXi K n old cols
  let tot ← readTot K old d
  some { coords := some coords, metric := some metric, meanr, meanlogr, weight, npairs, xi, var, tot }

/-- Assignment into a dict. -/
def dictSet (l : List ((ℤ × ℤ) × Core)) (k : ℤ × ℤ) (c : Core) : List ((ℤ × ℤ) × Core) :=
  l.filter (fun r => r.1 ≠ k) ++ [(k, c)]

/-- nncorrelation.py:139-159 `_zero_copy`. -/
def zeroCore (c : Core) (n : ℕ) (tot : ℝ) : Core :=
  { coords := c.coords, metric := c.metric, meanr := List.replicate n 0,
    meanlogr := List.replicate n 0, weight := List.replicate n 0, npairs := List.replicate n 0,
    xi := [], var := [], tot := tot }

/-- The loop corr2base.py:1756-1759. `name` None: `None + str` is a TypeError. -/
def readZeros (name : Option String) (c : Core) (n : ℕ) (d : Dict) :
    ℕ → ℕ → List ((ℤ × ℤ) × Core) → Option (List ((ℤ × ℤ) × Core))
  | _, 0, res => some res
  | i, m + 1, res =>
    match name with
    | none => none
    | some nm => match d (zpName nm i) with
      | some (.keyTot k t) => readZeros name c n d (i + 1) m (dictSet res k (zeroCore c n t))
      | _ => none

/-- The loop corr2base.py:1760-1767. -/
noncomputable def readPairs {σ : Type} (r : Reader σ) (K : Kind) (name : Option String) (c : Core)
    (n : ℕ) (mx : Option ℕ) :
    ℕ → ℕ → List ((ℤ × ℤ) × Core) → σ → Option (List ((ℤ × ℤ) × Core) × σ)
  | _, 0, res, s => some (res, s)
  | i, m + 1, res, s =>
    match name with
    | none => none
    | some nm => do
      let (d, s) ← r.readParams (some (ppName nm i)) s
      let (cols, s) ← r.readData (some (ppName nm i)) mx s
      let c' ← readFromData K n c cols d
      match d "key" with
      | some (.key k) => readPairs r K name c n mx (i + 1) m (dictSet res k c') s
      | _ => none

/-- `params.get('num_rows', None)`, corr2base.py:1753. -/
def getRows (d : Dict) : Option (Option ℕ) :=
  match d "num_rows" with
  | none => some none
  | some (.int i) => some (some i.toNat)
  | _ => none

/-- corr2base.py:1768-1771. -/
noncomputable def readCov {σ : Type} (r : Reader σ) (d : Dict) (old : Option (List Arr)) (s : σ) :
    Option (Option (List Arr) × σ) :=
  match d "cov_shape" with
  | none => some (old, s)
  | some (.shape sh) => (r.readArray sh "cov" s).map fun (m, s) => (some m, s)
  | _ => none

/-- corr2base.py:1749-1771 `_read`, `params` given; `x` is the object read into. -/
noncomputable def readWith {σ : Type} (r : Reader σ) (K : Kind) (x : Corr) (name : Option String)
    (d : Dict) (s : σ) : Option (Corr × σ) := do
  let mx ← getRows d
  let npp ← getNat d "num_patch_pairs" 0
  let nzp ← getNat d "num_zero_patch" 0
  let name := if npp ≠ 0 ∧ name = none then some "main" else name
  let (cols, s) ← r.readData name mx s
  let n := x.rnom.length
  let c ← readFromData K n x.core cols d
  let np1 ← getNat d "npatch1" 1
  let np2 ← getNat d "npatch2" 1
  let res ← readZeros name c n d 0 nzp []
  let (res, s) ← readPairs r K name c n mx 0 npp res s
  let (cov, s) ← readCov r d x.cov s
  some ({ x with core := c, npatch1 := np1, npatch2 := np2, results := res, cov := cov }, s)

/-- corr2base.py:1749-1752: `_read(reader, name)` with the parameters read first. -/
noncomputable def readNamed {σ : Type} (r : Reader σ) (K : Kind) (x : Corr) (name : String) (s : σ) :
    Option (Corr × σ) := do
  let (d, s) ← r.readParams (some name) s
  readWith r K x (some name) d s

/-- A new object: arrays of zeros; NN has no `xi` yet (nncorrelation.py:104-118). -/
noncomputable def fresh (K : Kind) (kwargs : Dict) (rnom : Arr) : Corr :=
  let z := List.replicate rnom.length 0
  { cfg := kwargs, rnom := rnom
    core := { coords := none, metric := none, meanr := z, meanlogr := z, weight := z, npairs := z,
              xi := if K.nn then [] else K.xi.map fun _ => z,
              var := if K.nn then [] else K.sigma.map fun _ => z, tot := 0 }
    npatch1 := 1, npatch2 := 1, results := [], cov := none, varNum := 0 }

/-- The constructor: `mk` gives the nominal bin centres for the parameter values
(corr2base.py:302-519; the binning is modelled in Model/Binning). -/
noncomputable def construct (K : Kind) (mk : Dict → Option Arr) (kwargs : Dict) : Option Corr :=
  (mk (effective kwargs)).map (fresh K kwargs)

/-- corr2base.py:1851-1865 `from_file` of a class. -/
noncomputable def fromFile {σ : Type} (r : Reader σ) (K : Kind) (mk : Dict → Option Arr) (s : σ) :
    Option (Corr × Dict × σ) := do
  let name := if r.contains "main" s then some "main" else none
  let (d, s) ← r.readParams name s
  match d "corr" with
  | some (.str l) =>
    if l = K.letters then do
      let x ← construct K mk (minimal d)
      let (y, s) ← readWith r K x name d s
      some (y, d, s)
    else none
  | _ => none

/-- corr2base.py:1839-1850 `Corr2.from_file`: the class is found from the letters in the file,
then the file is opened again. -/
noncomputable def fromFileAny {σ : Type} (r : Reader σ) (mk : Dict → Option Arr) (s : σ) :
    Option (Kind × Corr × Dict × σ) := do
  let name := if r.contains "main" s then some "main" else none
  let (d, _) ← r.readParams name s
  match d "corr" with
  | some (.str l) => do
    let K ← kinds.find? fun K => K.letters == l
    let (y, d, s) ← fromFile r K mk s
    some (K, y, d, s)
  | _ => none

/-- corr2base.py:2078-2094 `_cov_shot` for one object: what `cov` gives for `var_method='shot'` when no covariance
matrix is stored (corr2base.py:606-616), as its diagonal. -/
noncomputable def Corr.covShot (x : Corr) : Arr := x.core.weight.map fun w => if w ≠ 0 then x.varNum / w else w

/-! ## The NN class: the random correlations are stored too -/

/-- An NN object with the randoms given to `calculateXi`. -/
structure CorrNN where
  main : Corr
  rr : Option Corr
  dr : Option Corr
  rd : Option Corr

/-- The randoms of nncorrelation.py:556-562. -/
noncomputable def writeOpt (x : Option Corr) (name : String) : Option (List Chunk) :=
  match x with
  | none => some []
  | some y => writeCorr kindNN y [] none (some name) true false true 16

/-- nncorrelation.py:503-566 `write`. `extra`: the columns RR, DR, RD, when `rr` etc. are given
as arguments.  After the main object the precision is 16 (corr2base.py:1733). -/
noncomputable def writeNN (x : CorrNN) (extra : List (String × Arr)) (wpr wcov : Bool) (prec : ℕ) :
    Option (List Chunk) := do
  let flags := if wpr then some (x.rr.isSome, x.dr.isSome, x.rd.isSome) else none
  let m ← writeCorr kindNN x.main extra flags none wpr wcov true prec
  if wpr then
    let a ← writeOpt x.rr "_rr"
    let b ← writeOpt x.dr "_dr"
    let c ← writeOpt x.rd "_rd"
    some (m ++ (a ++ (b ++ c)))
  else some m

/-- One of the blocks of nncorrelation.py:695-707, 715-718. -/
noncomputable def readOpt {σ : Type} (r : Reader σ) (x : Corr) (d : Dict) (name : String) (s : σ) :
    Option (Option Corr × σ) :=
  match d name with
  | some (.flag true) => (readNamed r kindNN x name s).map fun (y, s) => (some y, s)
  | _ => some (none, s)

/-- nncorrelation.py:629-669, 693-707 `from_file`, `_do_read`: each of the randoms is a copy of the
object just read, into which its table is read. -/
noncomputable def fromFileNN {σ : Type} (r : Reader σ) (mk : Dict → Option Arr) (s : σ) :
    Option (CorrNN × σ) := do
  let (x, d, s) ← fromFile r kindNN mk s
  let (rr, s) ← readOpt r x d "_rr" s
  let (dr, s) ← readOpt r x d "_dr" s
  let (rd, s) ← readOpt r x d "_rd" s
  some ({ main := x, rr := rr, dr := dr, rd := rd }, s)

end IO
end TreeCorr
