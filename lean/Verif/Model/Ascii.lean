import Mathlib.Data.Int.Log
import Mathlib.Algebra.Order.Round
import Mathlib.Data.Rat.Floor
import Mathlib.Algebra.Ring.Int.Parity

/-!
# Numbers in ASCII files

/repo/treecorr/writer.py:39-87 (AsciiWriter) and the part of `numpy.genfromtxt` that AsciiReader uses (/repo/treecorr/reader.py:117-119, 181, 194).  C's
`printf` with the format `%w.pe` and `strtod` round to nearest, ties to even.  Not modelled: NaN, infinities in the data, and the sign of zero.
-/

namespace TreeCorr
namespace Ascii

/-- Rounding to nearest, ties to even. -/
def roundEven (y : ℚ) : ℤ :=
  if Int.fract y < 1 / 2 then ⌊y⌋
  else if 1 / 2 < Int.fract y then ⌊y⌋ + 1
  else if Even ⌊y⌋ then ⌊y⌋ else ⌊y⌋ + 1

/-- The digits (as an integer, with the sign) and the exponent that `%.pe` prints. -/
def sci (p : ℕ) (x : ℚ) : ℤ × ℤ :=
  if x = 0 then (0, 0)
  else
    let k := Int.log 10 |x|
    let n := roundEven (x / 10 ^ (k - p))
    if n.natAbs = 10 ^ (p + 1) then (n / 10, k + 1) else (n, k)

/-- The last `w` decimal digits of a number. -/
def digits : ℕ → ℕ → List Char
  | 0, _ => []
  | w + 1, n => digits w (n / 10) ++ [Char.ofNat (48 + n % 10)]

/-- The exponent has at least two digits. -/
def expText (k : ℤ) : List Char :=
  (if k < 0 then '-' else '+') :: digits (max 2 (Nat.log 10 k.natAbs + 1)) k.natAbs

/-- `'%.pe' % x` -/
def text (p : ℕ) (x : ℚ) : List Char :=
  let (n, k) := sci p x
  let m := digits (p + 1) n.natAbs
  (if n < 0 then ['-'] else []) ++ m.take 1 ++ (if p = 0 then [] else '.' :: m.drop 1) ++ 'e' :: expText k

/-- The width of a column, /repo/treecorr/writer.py:41. -/
def width (p : ℕ) : ℕ := p + 8

/-- `fmt % x`, /repo/treecorr/writer.py:42: padded on the left. -/
def cell (p : ℕ) (x : ℚ) : List Char := List.replicate (width p - (text p x).length) ' ' ++ text p x

/-- A line of `numpy.savetxt`: the cells with a space between them, /repo/treecorr/writer.py:76. -/
def line (p : ℕ) : List ℚ → List Char
  | [] => []
  | [x] => cell p x
  | x :: l => cell p x ++ ' ' :: line p l

/-- Python's `split()` of a line, for spaces; the first argument is the word so far. -/
def words : List Char → List Char → List (List Char)
  | cur, [] => if cur = [] then [] else [cur]
  | cur, c :: l =>
    if c = ' ' then (if cur = [] then words [] l else cur :: words [] l)
    else words (cur ++ [c]) l

/-- A digit. -/
def digit (c : Char) : Option ℕ := if 48 ≤ c.toNat ∧ c.toNat ≤ 57 then some (c.toNat - 48) else none

/-- A decimal number without sign. -/
def natOf (l : List Char) : Option ℕ := (l.mapM digit).map (List.foldl (fun a d => 10 * a + d) 0)

/-- A decimal number, perhaps with a sign. -/
def intOf : List Char → Option ℤ
  | '-' :: l => (natOf l).map fun n : ℕ => -(n : ℤ)
  | '+' :: l => (natOf l).map fun n : ℕ => (n : ℤ)
  | l => (natOf l).map fun n : ℕ => (n : ℤ)

/-- The value of `ddd.ddd`, without sign. -/
def unsigned (l : List Char) (e : ℤ) : Option ℚ :=
  let a := l.takeWhile (· ≠ '.')
  let b := (l.dropWhile (· ≠ '.')).drop 1
  (natOf (a ++ b)).map fun n : ℕ => (n : ℚ) * 10 ^ (e - b.length)

/-- The number that a word stands for, before it is rounded to a double. -/
def valueOf (l : List Char) : Option ℚ :=
  let m := l.takeWhile (· ≠ 'e')
  let e := (l.dropWhile (· ≠ 'e')).drop 1
  match intOf e with
  | none => none
  | some e => match m with
    | '-' :: m => (unsigned m e).map fun v => -v
    | m => unsigned m e

/-- The double that a number is rounded to; `none` is an infinity. -/
def toDouble (y : ℚ) : Option ℚ :=
  let e := max (Int.log 2 |y| - 52) (-1074)
  let v : ℚ := roundEven (y / 2 ^ e) * 2 ^ e
  if 2 ^ 1024 ≤ |v| then none else some v

/-- `float(word)`: the outer `none` is an error (for `genfromtxt`, NaN). -/
def float (l : List Char) : Option (Option ℚ) := (valueOf l).map toDouble

/-- A line of a file read back. -/
def readLine (l : List Char) : List (Option (Option ℚ)) := (words [] l).map float

/-- The table of `write`, /repo/treecorr/writer.py:59-76, as rows; the header is a comment and is skipped by the reader. -/
def writeRows (p : ℕ) (t : List (List ℚ)) : List (List Char) := t.map (line p)

def readRows (t : List (List Char)) : List (List (Option (Option ℚ))) := t.map readLine

/-- The precision of catalogues (/repo/treecorr/catalog.py:742, 3124-3125), of patch centers (2714) and of results (/repo/treecorr/util.py:133). -/
def catPrecision (given : Option ℕ) : ℕ := given.getD 16

def centerPrecision : ℕ := 16

def resultPrecision (given : Option ℕ) : ℕ := given.getD 4

/-- An ASCII file: the names in its header and its lines. -/
structure AFile where
  names : List String
  rows : List (List Char)

/-- `write_patch_centers`, /repo/treecorr/catalog.py:2705-2715, to an ASCII file. -/
def writeCenters (flat : Bool) (c : List (List ℚ)) : AFile where
  names := ["patch", "x", "y"] ++ if flat then [] else ["z"]
  rows := writeRows centerPrecision (c.mapIdx fun i q => (i : ℚ) :: q)

/-- The finite number in a column of a line. -/
def at? (r : List (Option (Option ℚ))) (i : ℕ) : Option ℚ := r[i]?.join.join

/-- `read_patch_centers`, /repo/treecorr/catalog.py:2729-2735: `none` if a number is missing or not finite. -/
def readCenters (f : AFile) : Option (List (List ℚ)) :=
  let cols := if "z" ∈ f.names then ["x", "y", "z"] else ["x", "y"]
  (readRows f.rows).mapM fun r => cols.mapM fun n => at? r (f.names.idxOf n)

end Ascii
end TreeCorr
