import Verif.Model.Core
import Verif.Model.Equals
/-!
# netCDF files and the disk

The part of the package netCDF4 that sofar uses (sofar/io.py:6, 123-184, 289-339; sofar/sofastream.py:76-301). The
binary format of the files and the compression are not modelled: a file is its list of dimensions, global
attributes and variables.
-/
namespace Sofar

/-- What is left open about the netCDF library; all theorems quantify over it. (sofar/io.py:112-427) -/
structure Nc where
  /-- valid names of dimensions, variables and attributes (sofar/io.py:293, 298, 322, 337). Names that the library
  would normalise (Unicode NFC) count as invalid. -/
  okName : Str → Bool
  /-- attribute names that `netCDF4` refuses because they are members of its classes, e.g. `dimensions`
  (sofar/io.py:298, 337) -/
  reserved : Str → Bool
  /-- attribute names that `netCDF4` interprets, e.g. `_FillValue`, `scale_factor`, `valid_min`; variables with such
  attributes are not modelled (sofar/io.py:165, 337) -/
  special : Str → Bool
  /-- default fill value of a data type, i.e., the number that marks missing data (sofar/io.py:165) -/
  isFill : Kind → Num → Bool

/-- A dimension of a file (sofar/io.py:293, sofar/sofastream.py:223). -/
structure NcDim where
  size : Nat
  unlimited : Bool
deriving DecidableEq

/-- A variable of a file: names of its dimensions, the data, and the attributes (sofar/io.py:322-338). `S1` data is an
array of kind `S` whose elements are texts with a single character. Numbers that are missing are `masked`. -/
structure NcVar where
  dims : List Str
  data : Arr
  attrs : Dict Val
deriving DecidableEq

/-- An open file (sofar/io.py:289). -/
structure NcFile where
  dims : Dict NcDim
  attrs : Dict Val
  vars : Dict NcVar
deriving DecidableEq

/-- What a path contains: a netCDF file or something else that can not be read (sofar/io.py:131). -/
inductive DiskFile where
  | nc (f : NcFile)
  | other (tag : Nat)
deriving DecidableEq

/-- The disk: existing files by path, and the paths that can be opened for writing (sofar/io.py:117, 289). Failures
during writing (e.g., a full disk) are not modelled. -/
structure FS where
  files : Dict DiskFile
  canWrite : Str → Bool

namespace NcFile

/-- A new file (sofar/io.py:289). -/
def empty : NcFile := ⟨[], [], []⟩

end NcFile

/-- sofar/io.py:293 `file.createDimension(dim, size)`; a size of zero gives an unlimited dimension. -/
def createDimension (nc : Nc) (f : NcFile) (name : Str) (size : Nat) : Except Exc NcFile :=
  if ! nc.okName name then .error (.netcdfError (py% "NetCDF: Name contains illegal characters"))
  else if Dict.has f.dims name then .error (.netcdfError (py% "NetCDF: String match to name in use"))
  else .ok { f with dims := Dict.put f.dims name ⟨size, decide (size = 0)⟩ }

/-- The NUL character. (removed when strings are read, sofar/io.py:411-416) -/
def nul : Char := Char.ofNat 0

/-- What is read back of a text that was written as attribute (sofar/io.py:298, 337 and 151, 180): all NUL characters
are removed if the text is ASCII, otherwise the text ends at the first NUL. -/
def ncText (s : Str) : Str :=
  if Str.isAscii s then s.filter (fun c => c ≠ nul) else s.takeWhile (fun c => c ≠ nul)

/-- sofar/io.py:298, 337 `setattr(file, name, text)` -/
def putAttr (nc : Nc) (attrs : Dict Val) (name text : Str) : Except Exc (Dict Val) :=
  if nc.reserved name then .error (.attributeError (py% "'" ++ name ++ py% "' is one of the reserved attributes"))
  else if nc.special name then .error .unmodelled
  else if ! nc.okName name then .error (.netcdfError (py% "NetCDF: Name contains illegal characters"))
  else .ok (Dict.put attrs name (.str (ncText text)))

/-- sizes of the dimensions of a new variable (sofar/io.py:322) -/
def dimSizes (f : NcFile) : List Str → Except Exc (List NcDim)
  | [] => .ok []
  | d :: ds =>
    match Dict.get? f.dims d with
    | none => .error (.keyError (py% "cannot find dimension " ++ d))
    | some n =>
      match dimSizes f ds with
      | .error e => .error e
      | .ok r => .ok (n :: r)

/-- sofar/io.py:322-324 `file.createVariable`; only variables with dimensions are compressed. The new variable is
given by its kind and dimensions. -/
def createVariable (nc : Nc) (f : NcFile) (name : Str) (kind : Kind) (dims : List Str) (compression : Nat) :
    Except Exc NcFile :=
  match dimSizes f dims with
  | .error e => .error e
  | .ok _ =>
    if ! nc.okName name then .error (.netcdfError (py% "NetCDF: Name contains illegal characters"))
    else if Dict.has f.vars name then .error (.netcdfError (py% "NetCDF: String match to name in use"))
    else if dims ≠ [] ∧ 9 < compression then .error (.netcdfError (py% "NetCDF: Invalid argument"))
    else .ok { f with vars := Dict.put f.vars name ⟨dims, ⟨kind, [], []⟩, []⟩ }

/-- shape of the slice `var[:]` that data of the given shape is written to (sofar/io.py:326, 328): unlimited dimensions
take the size of the data at the same position -/
def targetShape : List NcDim → List Nat → Except Exc (List Nat)
  | [], _ => .ok []
  | d :: ds, s =>
    match (if d.unlimited then s.head? else some d.size) with
    | none => .error .indexError
    | some n =>
      match targetShape ds s.tail with
      | .error e => .error e
      | .ok r => .ok (n :: r)

/-- `var[:] = a` for a slice of shape `t` (sofar/io.py:326, 328, done by netCDF4): data of the same size is reshaped,
other data is broadcast; one-dimensional data must fit. -/
def conform (a : Arr) (t : List Nat) : Except Exc (List Elem) :=
  if a.shape = t then .ok a.data
  else if a.shape.length = 1 ∧ t.length = 1 then .error .indexError
  else if a.size = t.foldr (· * ·) 1 then .ok a.data
  else if Arr.broadcastShape a.shape t = some t then .ok (a.broadcastTo t)
  else .error (.valueError (py% "operands could not be broadcast together"))

/-- An unlimited dimension grows with the data (sofar/io.py:326, 328). Data that was written to other variables before
is not extended. -/
def growDims (dims : Dict NcDim) : List Str → List Nat → Dict NcDim
  | d :: ds, n :: ns =>
    growDims (match Dict.get? dims d with
      | some x => Dict.put dims d { x with size := max x.size n }
      | none => dims) ds ns
  | _, _ => dims

/-- sofar/io.py:326, 328 `tmp_var[:] = value` -/
def assignVariable (f : NcFile) (name : Str) (kind : Kind) (dims : List Str) (a : Arr) : Except Exc NcFile :=
  match dimSizes f dims with
  | .error e => .error e
  | .ok sizes =>
    match targetShape sizes a.shape with
    | .error e => .error e
    | .ok t =>
      match conform a t with
      | .error e => .error e
      | .ok data =>
        .ok { f with dims := growDims f.dims dims t,
                     vars := Dict.put f.vars name ⟨dims, ⟨kind, t, data⟩, []⟩ }

/-- sofar/io.py:326: conversion of an element to a double. Complex numbers and text are not modelled. -/
def toDouble (env : Env) (kind : Kind) (e : Elem) : Except Exc Elem :=
  match kind, e with
  | _, .masked => .ok .masked
  | .f, .num x => .ok (.num x)
  | .i, .num (.fin q) => .ok (.num (.fin (env.rnd q)))
  | .u, .num (.fin q) => .ok (.num (.fin (env.rnd q)))
  | .b, .num (.fin q) => .ok (.num (.fin (env.rnd q)))
  | _, _ => .error .unmodelled

/-- sofar/io.py:328 `stringtochar`: an element as a list of `width` characters (NUL at the end) -/
def toChars (width : Nat) : Elem → List Elem
  | .str s => ((s ++ List.replicate (width - s.length) nul).take width).map (fun c => .str [c])
  | _ => List.replicate width (.str [nul])

/-- character of an element of `S1` data (sofar/io.py:416) -/
def charText : Elem → Str
  | .str s => if s = [] then [nul] else s
  | _ => [nul]

/-- sofar/io.py:416 `chartostring(value, encoding="ascii")`: groups of `width` characters give one text without
trailing NUL -/
def joinChars (width : Nat) : Nat → List Elem → List Elem
  | 0, _ => []
  | n + 1, l => .str (stripNul ((l.take width).map charText).flatten) :: joinChars width n (l.drop width)

end Sofar
