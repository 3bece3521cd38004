import Verif.Model.Binning

/-!
# Which kind of file is written and read

`parse_file_type`, `make_writer`, `make_reader` of /repo/treecorr/util.py, and the choice of a reader in the constructor of Catalog.
-/

namespace TreeCorr
namespace FileType

/-- `os.path.splitext(name)[1]` of Python, used in /repo/treecorr/util.py:118-119: the part from the last dot of the last component on, unless only
dots come before it.  (Python's loop over indices is written as operations on lists.) -/
def ext (name : List Char) : List Char :=
  let b := name.reverse.takeWhile (· ≠ '/')
  let e := b.takeWhile (· ≠ '.')
  match b.dropWhile (· ≠ '.') with
  | [] => []
  | _ :: stem => if stem.any (· ≠ '.') then '.' :: e.reverse else []

/-- `parse_file_type`, /repo/treecorr/util.py:106-131.  `lower` and `upper` for the letters of ASCII. -/
def parse (given : Option (List Char)) (name : List Char) (output : Bool) : List Char :=
  match given with
  | some t => t.map Char.toUpper
  | none =>
    let e := (ext name).map Char.toLower
    if ".fit".toList.isPrefixOf e then "FITS".toList
    else if ".hdf".toList.isPrefixOf e || ".h5".toList.isPrefixOf e then "HDF".toList
    else if !output && ".par".toList.isPrefixOf e then "PARQUET".toList
    else "ASCII".toList

/-- The kinds of writers and readers. -/
inductive Kind where
  | fits | hdf | ascii | parquet
deriving DecidableEq

/-- `make_writer`, /repo/treecorr/util.py:133-146. -/
def makeWriter (given : Option (List Char)) (name : List Char) : Except PyErr Kind :=
  let t := parse given name true
  if t = "FITS".toList then .ok .fits
  else if t = "HDF".toList then .ok .hdf
  else if t = "ASCII".toList then .ok .ascii
  else .error .valueError

/-- `make_reader`, /repo/treecorr/util.py:148-162. -/
def makeReader (given : Option (List Char)) (name : List Char) : Except PyErr Kind :=
  let t := parse given name false
  if t = "FITS".toList then .ok .fits
  else if t = "HDF".toList then .ok .hdf
  else if t = "ASCII".toList then .ok .ascii
  else .error .valueError

/-- The reader of Catalog, /repo/treecorr/catalog.py:875-895: everything else is ASCII. -/
def catReader (given : Option (List Char)) (name : List Char) : Kind :=
  let t := parse given name false
  if t = "FITS".toList then .fits
  else if t = "HDF".toList then .hdf
  else if t = "PARQUET".toList then .parquet
  else .ascii

end FileType
end TreeCorr
