import Verif.Model.Binning

/-!
Model of the reading of the columns of a file by `Catalog` (treecorr/catalog.py, `_check_file` and `_read_file`), and of the functions
that say which columns `corr2` needs.  The numbers in a column are of any type `D` (a whole column); row selections and the reading of
single patches are in `Model/Rows.lean`.  An extension that is not in the file has no columns here; the code raises the error of the
file library.
-/

namespace TreeCorr
namespace ReadCols

/-- The quantities with a column, in the order of /repo/treecorr/catalog.py:2030-2035. -/
inductive Key where
  | x | y | z | ra | dec | r | patch | w | wpos | flag | k | z1 | z2 | v1 | v2 | g1 | g2 | t1 | t2 | q1 | q2
  deriving DecidableEq

/-- The list `all_cols`, /repo/treecorr/catalog.py:2030-2035. -/
def allKeys : List Key :=
  [.x, .y, .z, .ra, .dec, .r, .patch, .w, .wpos, .flag, .k, .z1, .z2, .v1, .v2, .g1, .g2, .t1, .t2, .q1, .q2]

/-- The kinds of values. -/
inductive Fld where
  | K | Z | V | G | T | Q
  deriving DecidableEq

/-- The columns of a kind of values. -/
def Fld.keys : Fld → List Key
  | .K => [.k]
  | .Z => [.z1, .z2]
  | .V => [.v1, .v2]
  | .G => [.g1, .g2]
  | .T => [.t1, .t2]
  | .Q => [.q1, .q2]

def Fld.all : List Fld := [.K, .Z, .V, .G, .T, .Q]

/-- A file: extension, name of a column, its numbers. -/
abbrev File (D : Type) := String → String → Option D

/-- `n in reader.names(ext=e)`. -/
def File.names {D : Type} (f : File D) (e n : String) : Bool := (f e n).isSome

/-- What the configuration says about one file, after `get_from_list` with the number of the catalogue: `col` is `x_col` etc. (`"0"` if
not given), `eval` is `x_eval` etc. as a function of the columns read, `ext` is `x_ext` etc. (by default `ext`), `need` are the functions
`isKColRequired` etc. for the configuration and the number, `corr2` says that `corr2` is running.
/repo/treecorr/catalog.py:1668-1710, 1775-1776, 1976-2018, 2043-2064. -/
structure Conf (D : Type) where
  col : Key → String
  eval : Key → Option ((String → Option D) → Except PyErr D)
  ext : Key → String
  dflt : String
  extra : List String
  allowXyz : Bool
  need : Fld → Bool
  corr2 : Bool

variable {D : Type} (c : Conf D) (f : File D)

/-- `x_col != '0'`. -/
def Conf.given (key : Key) : Bool := c.col key ≠ "0"

/-- `x_col != '0' or x_eval is not None`. -/
def Conf.has (key : Key) : Bool := c.given key || (c.eval key).isSome

/-- `x_col not in reader.names(ext=x_ext)`. -/
def Conf.bad (key : Key) : Bool := !f.names (c.ext key) (c.col key)

/-- The errors about positions, /repo/treecorr/catalog.py:1712-1731. -/
def posBad : Bool :=
  if c.has .x || c.has .y then
    !c.has .x || !c.has .y || ((c.has .ra || c.has .dec || c.has .r) && !c.allowXyz)
  else if c.has .ra || c.has .dec then
    !c.has .ra || !c.has .dec || (c.has .z && !c.allowXyz)
  else true

/-- The errors about missing columns, /repo/treecorr/catalog.py:1733-1754. -/
def missing (F : Fld) : Bool := F.keys.any fun key => !c.has key && c.need F

/-- The pairs of columns, of which both or none should be given. -/
def pairs : List (Key × Key) := [(.z1, .z2), (.v1, .v2), (.g1, .g2), (.t1, .t2), (.q1, .q2)]

/-- The errors about half a pair, /repo/treecorr/catalog.py:1756-1771 (`z1_eval` in both places, as there). -/
def half (q : Key × Key) : Bool :=
  (!c.given q.1 && (c.eval q.1).isNone) != (!c.given q.2 && (c.eval q.1).isNone)

/-- The errors about columns of positions which the file does not have, /repo/treecorr/catalog.py:1785-1806. -/
def posAbsent : Bool :=
  if c.given .x && c.given .y then
    c.bad f .x || c.bad f .y || (c.given .z && c.bad f .z)
  else if c.given .ra && c.given .dec then
    c.bad f .ra || c.bad f .dec || (c.given .r && c.bad f .r)
  else false

/-- The errors about the columns of weights, flags and patches, /repo/treecorr/catalog.py:1808-1826. -/
def otherAbsent : Bool := [Key.w, .wpos, .flag, .patch].any fun key => c.given key && c.bad f key

/-- The errors about columns of values which the file does not have, /repo/treecorr/catalog.py:1830-1914. -/
def valueAbsent (F : Fld) : Bool :=
  match F.keys with
  | key :: l => c.given key && (c.bad f key || l.any (c.bad f)) && (c.need F || !c.corr2)
  | [] => false

/-- `_check_file`, /repo/treecorr/catalog.py:1664-1914.  All its errors are `ValueError`. -/
def checkFile (isRand : Bool) : Except PyErr Unit :=
  if posBad c || Fld.all.any (missing c) || pairs.any (half c) || posAbsent c f || otherAbsent c f ||
      (!isRand && Fld.all.any (valueAbsent c f)) then .error .valueError
  else .ok ()

/-- `col_by_ext[n]`, /repo/treecorr/catalog.py:2071: for a name given for several quantities the last one counts. -/
def colByExt (n : String) : Option String := ((allKeys.filter fun key => c.col key = n).getLast?).map c.ext

/-- `use_cols1`, /repo/treecorr/catalog.py:2114-2116. -/
def useCols (e : String) : List String :=
  ((allKeys.map c.col).filter fun n => n ≠ "0" && decide (colByExt c n = some e) && f.names e n) ++ c.extra.filter (f.names e)

/-- The loop over the extensions, /repo/treecorr/catalog.py:2113-2121; `order` is the order in which Python goes through the set
`all_exts`. -/
def readData (order : List String) : String → Option D :=
  order.foldl (fun d e => (useCols c f e).foldl (fun d n => fun m => if m = n then f e n else d m) d) fun _ => none

/-- The set `all_exts`, /repo/treecorr/catalog.py:2072. -/
def allExts : List String := (allKeys.map c.ext ++ [c.dflt]).dedup

/-- `parse_value`, /repo/treecorr/catalog.py:1938-1944. -/
def parseValue (d : String → Option D) (key : Key) : Except PyErr D :=
  match c.eval key with
  | some g => g d
  | none =>
    match d (c.col key) with
    | some v => .ok v
    | none => .error .keyError

/-- Whether a quantity is read, /repo/treecorr/catalog.py:1946-1964 (positions), 1969-1971 (patch), 2130-2143 (weights, flag),
2146-2185 (values). -/
def isRead (isRand : Bool) (d : String → Option D) : Key → Bool
  | .x | .y => c.has .x
  | .z => c.has .x && c.has .z
  | .ra | .dec => c.has .ra
  | .r => c.has .ra && c.has .r
  | .patch => c.given .patch && (d (c.col .patch)).isSome
  | .w => c.has .w
  | .wpos => c.has .wpos
  | .flag => c.has .flag
  | .k => !isRand && (!c.bad f .k || (c.eval .k).isSome)
  | .z1 | .z2 => !isRand && (!c.bad f .z1 || (c.eval .z1).isSome)
  | .v1 | .v2 => !isRand && (!c.bad f .v1 || (c.eval .v1).isSome)
  | .g1 | .g2 => !isRand && (!c.bad f .g1 || (c.eval .g1).isSome)
  | .t1 | .t2 => !isRand && (!c.bad f .t1 || (c.eval .t1).isSome)
  | .q1 | .q2 => !isRand && (!c.bad f .q1 || (c.eval .q1).isSome)

/-- One quantity of the catalogue. -/
def readKey (isRand : Bool) (d : String → Option D) (key : Key) : Except PyErr (Option D) :=
  if isRead c f isRand d key then (parseValue c d key).map some else .ok none

/-- `_read_file` for a whole file, /repo/treecorr/catalog.py:1925-2185. -/
def readFile (isRand : Bool) (order : List String) : Except PyErr (List (Key × Option D)) :=
  allKeys.mapM fun key => (readKey c f isRand (readData c f order) key).map fun v => (key, v)

/-! ### Which columns `corr2` needs -/

/-- The outputs of `corr2`: `nk` stands for the parameter `nk_file_name`, and so on, /repo/treecorr/exec_corr2.py:73-145. -/
inductive OutKey where
  | nn | nk | kk | nz | kz | zz | nv | kv | vv | ng | kg | gg | nt | kt | tt | nq | kq | qq | m2 | nm | norm
  deriving DecidableEq

/-- `isKColRequired` … `isQColRequired`, /repo/treecorr/catalog.py:3438-3563; `has .kk` is `'kk_file_name' in config`. -/
def colRequired (has : OutKey → Bool) (num : ℕ) : Fld → Bool
  | .K => has .kk || (num == 0 && has .kv) || (num == 0 && has .kg) || (num == 0 && has .kt) || (num == 0 && has .kq) ||
      (num == 1 && has .nk)
  | .Z => has .zz || (num == 1 && has .nz) || (num == 1 && has .kz)
  | .V => has .vv || (num == 1 && has .nv) || (num == 1 && has .kv)
  | .G => has .gg || has .m2 || (num == 1 && has .norm) || (num == 1 && has .ng) || (num == 1 && has .nm) || (num == 1 && has .kg)
  | .T => has .tt || (num == 1 && has .nt) || (num == 1 && has .kt)
  | .Q => has .qq || (num == 1 && has .nq) || (num == 1 && has .kq)

end ReadCols
end TreeCorr
