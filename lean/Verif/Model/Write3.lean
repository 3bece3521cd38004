import Verif.Model.Write

/-!
# Writing a three-point correlation to a file and reading it back

`write` / `from_file` of NNN, KKK and GGG with their three kinds of bins.
Files, chunks and readers are those of Model/Write, with the simplifications named there; arrays of
several dimensions are flattened (`col.flatten()`, `reshape(s)`).
-/

namespace TreeCorr
namespace IO3

open Classical
open TreeCorr.IO (Arr Val Dict optStr zpName ppName Chunk Reader AscState named ascii render getCol getStr getNat getRows readCov)

/-- The kinds of bins, corr3base.py:363. -/
inductive BinT where
  | ruv
  | sas
  | multi
  deriving DecidableEq

/-- The classes registered at corr3base.py:743. -/
inductive Cls where
  | nnn
  | kkk
  | ggg
  deriving DecidableEq

/-- The names and default values of the constructor parameters, corr3base.py:294-376
(third entry of each tuple).  `none`: not a valid parameter. -/
def dflt : Dict := fun k =>
  match k with
  | "nbins" | "bin_size" | "min_sep" | "max_sep" | "sep_units" | "bin_slop" | "angle_slop"
  | "nubins" | "ubin_size" | "min_u" | "max_u" | "nvbins" | "vbin_size" | "min_v" | "max_v"
  | "nphi_bins" | "phi_bin_size" | "min_phi" | "max_phi" | "phi_units" | "max_n"
  | "log_file" | "output_dots" | "min_top"
  | "period" | "xperiod" | "yperiod" | "zperiod" | "num_threads" => some .null
  | "brute" => some (.flag false)
  | "verbose" => some (.int 1)
  | "split_method" => some (.str "mean")
  | "max_top" => some (.int 10)
  | "precision" => some (.int 4)
  | "metric" => some (.str "Euclidean")
  | "bin_type" => some (.str "LogSAS")
  | "var_method" => some (.str "shot")
  | "num_bootstrap" => some (.int 500)
  | _ => none

/-- config.py:422-432 `make_minimal_config` for these parameters. -/
noncomputable def minimal (d : Dict) : Dict := fun k =>
  match dflt k, d k with
  | some dv, some v => if v = dv then none else some v
  | _, _ => none

/-- The value of every constructor parameter, defaults filled in.
The constructor (corr3base.py:378-738) refuses some parameters that are given as None (471-474,
526-529, 562-566); an object made with such parameters does not exist. -/
def effective (d : Dict) : Dict := fun k =>
  match dflt k with
  | none => none
  | some dv => some ((d k).getD dv)

/-- corr3base.py:408: the kind of bins. -/
def binType (d : Dict) : Option BinT :=
  match d "bin_type" with
  | some (.str "LogRUV") => some .ruv
  | some (.str "LogSAS") => some .sas
  | some (.str "LogMultipole") => some .multi
  | _ => none

/-- The columns of a class with its kind of bins: the nominal values, the means, the components of
the correlation, the errors, the weights, whether the column DDD is added with the modulus of a
complex weight, and whether it is the NNN class. -/
structure Kind where
  letters : String
  nom : List String
  means : List String
  xi : List String
  sigma : List String
  weight : List String
  modulus : Bool
  nn : Bool

/-- kkkcorrelation.py:419-430, the same in nnncorrelation.py:794-806 and gggcorrelation.py:638-649. -/
def nomNames : BinT → List String
  | .ruv => ["r_nom", "u_nom", "v_nom"]
  | .sas => ["d2_nom", "d3_nom", "phi_nom"]
  | .multi => ["d2_nom", "d3_nom", "n"]

/-- The same lines, the rest of each list; read at corr3base.py:2506-2516. -/
def meanNames (b : BinT) : List String :=
  ["meand1", "meanlogd1", "meand2", "meanlogd2", "meand3", "meanlogd3"] ++
  match b with
  | .ruv => ["meanu", "meanv"]
  | .sas => ["meanphi"]
  | .multi => []

/-- kkkcorrelation.py:431-434, gggcorrelation.py:653-656, nnncorrelation.py:810-814 (`weighti` has
entries for LogMultipole only, corr3base.py:717-720); read at corr3base.py:2517-2525,
nnncorrelation.py:949-950. -/
def weightNames : Cls → BinT → List String
  | _, .multi => ["weight_re", "weight_im"]
  | .nnn, _ => ["DDD"]
  | _, _ => ["weight"]

/-- `_write_col_names` of the classes: kkkcorrelation.py:417-435, nnncorrelation.py:789-818,
gggcorrelation.py:636-657. -/
def kind : Cls → BinT → Kind
  | .nnn, b => ⟨"NNN", nomNames b, meanNames b, ["zeta"], ["sigma_zeta"], weightNames .nnn b,
      decide (b = .multi), true⟩
  | .kkk, b => ⟨"KKK", nomNames b, meanNames b,
      (if b = .multi then ["zeta_re", "zeta_im"] else ["zeta"]), ["sigma_zeta"],
      weightNames .kkk b, false, false⟩
  | .ggg, b => ⟨"GGG", nomNames b, meanNames b,
      ["gam0r", "gam0i", "gam1r", "gam1i", "gam2r", "gam2i", "gam3r", "gam3i"],
      ["sigma_gam0", "sigma_gam1", "sigma_gam2", "sigma_gam3"], weightNames .ggg b, false, false⟩

/-- `_letters` of a class (nnncorrelation.py:162, kkkcorrelation.py:167, gggcorrelation.py:193). -/
def Cls.letters : Cls → String
  | .nnn => "NNN"
  | .kkk => "KKK"
  | .ggg => "GGG"

/-- The data of one correlation object: `coords`, `metric`, the means, the weights (real and
imaginary part for LogMultipole), the numbers of triangles, the components of the correlation
(for NNN: `[zeta]` if `calculateZeta` was called, else `[]`), the variances and `tot` (NNN only). -/
@[ext] structure Core where
  coords : Option String
  metric : Option String
  means : List Arr
  weight : List Arr
  ntri : Arr
  xi : List Arr
  var : List Arr
  tot : ℝ

/-- A correlation object: the nominal values of the bins are `nom`; `results` is the dict of patch
results in its order of insertion, `cov` the stored covariance matrix. -/
structure Corr where
  cfg : Dict
  bin : BinT
  nom : List Arr
  core : Core
  npatch1 : ℕ
  npatch2 : ℕ
  npatch3 : ℕ
  results : List ((ℤ × ℤ × ℤ) × Core)
  cov : Option (List Arr)

/-- `_nbins`, corr3base.py:662, 681, 697: the number of bins, flattened. -/
def size (nom : List Arr) : ℕ := (nom.headD []).length

/-- nnncorrelation.py:315-318 `_nonzero`: whether any triangle was counted. -/
def Core.nonzero (c : Core) : Prop := ∃ x ∈ c.ntri, x ≠ 0

/-- `np.abs(self.weight)` of a complex weight, nnncorrelation.py:845 (`weight` of
corr3base.py:936-941). -/
noncomputable def modulus : List Arr → Arr
  | [re, im] => List.zipWith (fun a b => Real.sqrt (a ^ 2 + b ^ 2)) re im
  | _ => []

/-- The column DDD of nnncorrelation.py:812, 845-848 when the weights are in `weight_re`, `weight_im`. -/
noncomputable def modCol (K : Kind) (c : Core) : List (String × Arr) :=
  if K.modulus then [("DDD", modulus c.weight)] else []

/-- `_write_col_names`, `_write_data`: kkkcorrelation.py:417-457, nnncorrelation.py:789-861,
gggcorrelation.py:636-682.  `extra` are the columns RRR, DRR, RDD of NNN
(nnncorrelation.py:814-817, 853-858). -/
noncomputable def columns (K : Kind) (nom : List Arr) (c : Core) (extra : List (String × Arr)) :
    List (String × Arr) :=
  K.nom.zip nom ++ (K.means.zip c.means ++ (K.xi.zip c.xi ++
  (K.sigma.zip (c.var.map (List.map Real.sqrt)) ++ (K.weight.zip c.weight ++
  (modCol K c ++ (extra ++ [("ntri", c.ntri)]))))))

/-- corr3base.py:2416-2423 `_write_params`, with nnncorrelation.py:863-871 for NNN
(`flags`: the values `_rrr`, `_drr`, `_rdd` when patch results are written). -/
noncomputable def writeParams (K : Kind) (cfg : Dict) (c : Core) (flags : Option (Bool × Bool × Bool)) :
    Dict :=
  let d := (((minimal cfg).set "coords" (optStr c.coords)).set "metric" (optStr c.metric)).set
    "corr" (.str K.letters)
  let d := if K.nn then d.set "tot" (.num c.tot) else d
  match flags with
  | none => d
  | some (a, b, e) => ((d.set "_rrr" (.flag a)).set "_drr" (.flag b)).set "_rdd" (.flag e)

/-- The loop corr3base.py:2442-2448. -/
def setZeros (name : String) : ℕ → List ((ℤ × ℤ × ℤ) × Core) → Dict → Dict
  | _, [], d => d
  | i, (k, c) :: rs, d => setZeros name (i + 1) rs (d.set (zpName name i) (.keyTot3 k c.tot))

/-- The loop corr3base.py:2458-2466 (precision 16 from line 2456). -/
noncomputable def ppTables (K : Kind) (cfg : Dict) (nom : List Arr) (name : String) :
    ℕ → List ((ℤ × ℤ × ℤ) × Core) → List Chunk
  | _, [] => []
  | i, (k, c) :: rs =>
    .table (some (ppName name i)) 16 ((writeParams K cfg c none).set "key" (.key3 k))
      (columns K nom c []) :: ppTables K cfg nom name (i + 1) rs

/-- The results written as tables, and those written as a header entry (corr3base.py:2444, 2459). -/
noncomputable def tabled (zt : Bool) (rs : List ((ℤ × ℤ × ℤ) × Core)) :
    List ((ℤ × ℤ × ℤ) × Core) :=
  if zt then rs.filter fun r => r.2.nonzero else rs
noncomputable def zeroed (rs : List ((ℤ × ℤ × ℤ) × Core)) : List ((ℤ × ℤ × ℤ) × Core) :=
  rs.filter fun r => ¬ r.2.nonzero

/-- The parameters of the main table, corr3base.py:2431-2452. -/
noncomputable def mainParams (K : Kind) (x : Corr) (flags : Option (Bool × Bool × Bool))
    (name : String) (wpr zt : Bool) (cov : Option (List Arr)) : Dict :=
  let d := writeParams K x.cfg x.core flags
  let d := if wpr then
      let d := (((d.set "npatch1" (.int x.npatch1)).set "npatch2" (.int x.npatch2)).set
        "npatch3" (.int x.npatch3)).set "num_rows" (.int (size x.nom))
      let d := if zt then
          (setZeros name 0 (zeroed x.results) d).set "num_zero_patch"
            (.int (zeroed x.results).length)
        else d
      d.set "num_patch_tri" (.int (tabled zt x.results).length)
    else d
  match cov with
  | none => d
  | some m => d.set "cov_shape" (.shape (m.length, (m.headD []).length))

/-- corr3base.py:2425-2469 `_write`.  `prec` is the precision of the writer at the call.
With `write_cov` the property `cov` is evaluated first; here the matrix must be there, and be real. -/
noncomputable def writeCorr (K : Kind) (x : Corr) (extra : List (String × Arr))
    (flags : Option (Bool × Bool × Bool)) (name : Option String) (wpr wcov zt : Bool) (prec : ℕ) :
    Option (List Chunk) :=
  let name := if name = none ∧ (wpr ∨ wcov) then some "main" else name
  let nm := name.getD ""
  if wcov then
    match x.cov with
    | none => none
    | some m => some (.table name prec (mainParams K x flags nm wpr zt (some m))
          (columns K x.nom x.core extra) ::
        ((if wpr then ppTables K x.cfg x.nom nm 0 (tabled zt x.results) else []) ++
          [.array "cov" (if wpr then 16 else prec) m]))
  else some (.table name prec (mainParams K x flags nm wpr zt none)
      (columns K x.nom x.core extra) ::
    (if wpr then ppTables K x.cfg x.nom nm 0 (tabled zt x.results) else []))

/-! ## Reading -/

/-- kkkcorrelation.py:459-468, gggcorrelation.py:684-698. NNN (nnncorrelation.py:946-948) keeps what
the object has if the file has no column `zeta`. -/
def readXi (K : Kind) (n : ℕ) (old : Core) (cols : List (String × Arr)) :
    Option (List Arr × List Arr) :=
  if K.nn = true ∧ cols.lookup "zeta" = none then some (old.xi, old.var) else
    match K.xi.mapM (getCol n cols), K.sigma.mapM (getCol n cols) with
    | some xi, some sg => some (xi, sg.map (List.map fun s => s ^ 2))
    | _, _ => none

/-- nnncorrelation.py:951. -/
def readTot (K : Kind) (old : Core) (d : Dict) : Option ℝ :=
  if K.nn then (match d "tot" with | some (.num t) => some t | _ => none) else some old.tot

/-- corr3base.py:2504-2530 `_read_from_data` and its overrides (see `readXi`, `readTot`).
`old` is the object read into. -/
noncomputable def readFromData (K : Kind) (n : ℕ) (old : Core) (cols : List (String × Arr))
    (d : Dict) : Option Core := do
  let means ← K.means.mapM (getCol n cols)
  let weight ← K.weight.mapM (getCol n cols)
  let ntri ← getCol n cols "ntri"
  let coords ← getStr d "coords"
  let metric ← getStr d "metric"
  let (xi, var) ← readXi K n old cols
  let tot ← readTot K old d
  some { coords := some coords, metric := some metric, means, weight, ntri, xi, var, tot }

/-- Assignment into a dict. -/
def dictSet (l : List ((ℤ × ℤ × ℤ) × Core)) (k : ℤ × ℤ × ℤ) (c : Core) :
    List ((ℤ × ℤ × ℤ) × Core) :=
  l.filter (fun r => r.1 ≠ k) ++ [(k, c)]

/-- nnncorrelation.py:204-235 `_zero_copy`. -/
def zeroCore (K : Kind) (c : Core) (n : ℕ) (tot : ℝ) : Core :=
  { coords := c.coords, metric := c.metric, means := K.means.map fun _ => List.replicate n 0,
    weight := K.weight.map fun _ => List.replicate n 0, ntri := List.replicate n 0,
    xi := [], var := [], tot := tot }

/-- The loop corr3base.py:2487-2490. `name` None: `None + str` is a TypeError. -/
def readZeros (K : Kind) (name : Option String) (c : Core) (n : ℕ) (d : Dict) :
    ℕ → ℕ → List ((ℤ × ℤ × ℤ) × Core) → Option (List ((ℤ × ℤ × ℤ) × Core))
  | _, 0, res => some res
  | i, m + 1, res =>
    match name with
    | none => none
    | some nm => match d (zpName nm i) with
      | some (.keyTot3 k t) => readZeros K name c n d (i + 1) m (dictSet res k (zeroCore K c n t))
      | _ => none

/-- The loop corr3base.py:2491-2498. -/
noncomputable def readTris {σ : Type} (r : Reader σ) (K : Kind) (name : Option String) (c : Core)
    (n : ℕ) (mx : Option ℕ) :
    ℕ → ℕ → List ((ℤ × ℤ × ℤ) × Core) → σ → Option (List ((ℤ × ℤ × ℤ) × Core) × σ)
  | _, 0, res, s => some (res, s)
  | i, m + 1, res, s =>
    match name with
    | none => none
    | some nm => do
      let (d, s) ← r.readParams (some (ppName nm i)) s
      let (cols, s) ← r.readData (some (ppName nm i)) mx s
      let c' ← readFromData K n c cols d
      match d "key" with
      | some (.key3 k) => readTris r K name c n mx (i + 1) m (dictSet res k c') s
      | _ => none

/-- corr3base.py:2471-2502 `_read`, `params` given; `x` is the object read into. -/
noncomputable def readWith {σ : Type} (r : Reader σ) (K : Kind) (x : Corr) (name : Option String)
    (d : Dict) (s : σ) : Option (Corr × σ) := do
  let mx ← getRows d
  let npt ← getNat d "num_patch_tri" 0
  let nzp ← getNat d "num_zero_patch" 0
  let name := if npt ≠ 0 ∧ name = none then some "main" else name
  let (cols, s) ← r.readData name mx s
  let n := size x.nom
  let c ← readFromData K n x.core cols d
  let np1 ← getNat d "npatch1" 1
  let np2 ← getNat d "npatch2" 1
  let np3 ← getNat d "npatch3" 1
  let res ← readZeros K name c n d 0 nzp []
  let (res, s) ← readTris r K name c n mx 0 npt res s
  let (cov, s) ← readCov r d x.cov s
  some ({ x with core := c, npatch1 := np1, npatch2 := np2, npatch3 := np3, results := res,
                 cov := cov }, s)

/-- corr3base.py:2471-2474: `_read(reader, name)` with the parameters read first. -/
noncomputable def readNamed {σ : Type} (r : Reader σ) (K : Kind) (x : Corr) (name : String) (s : σ) :
    Option (Corr × σ) := do
  let (d, s) ← r.readParams (some name) s
  readWith r K x (some name) d s

/-- A new object: arrays of zeros, corr3base.py:665-738; NNN has no `zeta` yet
(nnncorrelation.py:186). -/
noncomputable def fresh (K : Kind) (b : BinT) (kwargs : Dict) (nom : List Arr) : Corr :=
  let z := List.replicate (size nom) 0
  { cfg := kwargs, bin := b, nom := nom
    core := { coords := none, metric := none, means := K.means.map fun _ => z,
              weight := K.weight.map fun _ => z, ntri := z,
              xi := if K.nn then [] else K.xi.map fun _ => z,
              var := if K.nn then [] else K.sigma.map fun _ => z, tot := 0 }
    npatch1 := 1, npatch2 := 1, npatch3 := 1, results := [], cov := none }

/-- The constructor: `mk` gives the nominal values of the bins for the parameter values
(corr3base.py:378-738). -/
noncomputable def construct (C : Cls) (mk : Dict → Option (List Arr)) (kwargs : Dict) :
    Option Corr := do
  let nom ← mk (effective kwargs)
  let b ← binType (effective kwargs)
  some (fresh (kind C b) b kwargs nom)

/-- corr3base.py:2592-2606 `from_file` of a class. -/
noncomputable def fromFile {σ : Type} (r : Reader σ) (C : Cls) (mk : Dict → Option (List Arr)) (s : σ) :
    Option (Corr × Dict × σ) := do
  let name := if r.contains "main" s then some "main" else none
  let (d, s) ← r.readParams name s
  match d "corr" with
  | some (.str l) =>
    if l = C.letters then do
      let x ← construct C mk (minimal d)
      let (y, s) ← readWith r (kind C x.bin) x name d s
      some (y, d, s)
    else none
  | _ => none

/-- `Corr3._lookup_dict`, corr3base.py:743. -/
def lookup (l : String) : Option Cls :=
  if l = "NNN" then some .nnn else if l = "KKK" then some .kkk else
  if l = "GGG" then some .ggg else none

/-- corr3base.py:2579-2589 `Corr3.from_file`: the class is found from the letters in the file,
then the file is opened again. -/
noncomputable def fromFileAny {σ : Type} (r : Reader σ) (mk : Dict → Option (List Arr)) (s : σ) :
    Option (Cls × Corr × Dict × σ) := do
  let name := if r.contains "main" s then some "main" else none
  let (d, _) ← r.readParams name s
  match d "corr" with
  | some (.str l) => do
    let C ← lookup l
    let (y, d, s) ← fromFile r C mk s
    some (C, y, d, s)
  | _ => none

/-! ## The NNN class: the random correlations are stored too -/

/-- An NNN object with the randoms given to `calculateZeta`. -/
structure CorrNNN where
  main : Corr
  rrr : Option Corr
  drr : Option Corr
  rdd : Option Corr

/-- The randoms of nnncorrelation.py:774-783.  They have the bins of the main object. -/
noncomputable def writeOpt (K : Kind) (x : Option Corr) (name : String) : Option (List Chunk) :=
  match x with
  | none => some []
  | some y => writeCorr K y [] none (some name) true false true 16

/-- nnncorrelation.py:650-787 `write`. `extra`: the columns RRR, DRR, RDD, when `rrr` etc. are given
as arguments, which is refused for LogMultipole (nnncorrelation.py:492-493).
After the main object the precision is 16 (corr3base.py:2456). -/
noncomputable def writeNNN (x : CorrNNN) (extra : List (String × Arr)) (wpr wcov : Bool) (prec : ℕ) :
    Option (List Chunk) := do
  if x.main.bin = .multi ∧ extra ≠ [] then none else
  let K := kind .nnn x.main.bin
  let flags := if wpr then some (x.rrr.isSome, x.drr.isSome, x.rdd.isSome) else none
  let m ← writeCorr K x.main extra flags none wpr wcov true prec
  if wpr then
    let a ← writeOpt K x.rrr "_rrr"
    let b ← writeOpt K x.drr "_drr"
    let c ← writeOpt K x.rdd "_rdd"
    some (m ++ (a ++ (b ++ c)))
  else some m

/-- One of the blocks of nnncorrelation.py:930-941, 952-955. -/
noncomputable def readOpt {σ : Type} (r : Reader σ) (K : Kind) (x : Corr) (d : Dict) (name : String)
    (s : σ) : Option (Option Corr × σ) :=
  match d name with
  | some (.flag true) => (readNamed r K x name s).map fun (y, s) => (some y, s)
  | _ => some (none, s)

/-- nnncorrelation.py:873-905, 928-941 `from_file`, `_do_read`: each of the randoms is a copy of the
object just read, into which its table is read. -/
noncomputable def fromFileNNN {σ : Type} (r : Reader σ) (mk : Dict → Option (List Arr)) (s : σ) :
    Option (CorrNNN × σ) := do
  let (x, d, s) ← fromFile r .nnn mk s
  let K := kind .nnn x.bin
  let (rrr, s) ← readOpt r K x d "_rrr" s
  let (drr, s) ← readOpt r K x d "_drr" s
  let (rdd, s) ← readOpt r K x d "_rdd" s
  some ({ main := x, rrr := rrr, drr := drr, rdd := rdd }, s)

/-! ## A covariance matrix of complex numbers in an ASCII file -/

/-- The cells of a text file as `np.genfromtxt` sees them: a number, or a text that is none (nan). -/
inductive Cell where
  | num (x : ℝ)
  | text

/-- writer.py:77-87 `np.savetxt` of a complex matrix with the format `%w.pe`, `w` = `p` + 8: a number
is ` (` re `+` im `j)`, where re and im are padded with blanks, so that `(`, `re+` and `imj)` are
three cells (exponents of three digits, which leave no room for a blank, are left out).  The matrix is complex for GGG (gggcorrelation.py:410-412) and for KKK with
LogMultipole, unless `var_method` is shot. -/
def cplxRow (row : List (ℝ × ℝ)) : List Cell := row.flatMap fun _ => [.text, .text, .text]

/-- reader.py:184-196 `read_array`: the shape of what was found is asserted. -/
noncomputable def readCells (shape : ℕ × ℕ) (rows : List (List Cell)) : Option (List (List Cell)) :=
  if 2 ≤ rows.length ∧ rows.length = shape.1 ∧ ∀ r ∈ rows, r.length = shape.2 then some rows else none

end IO3
end TreeCorr
