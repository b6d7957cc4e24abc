import Verif.Model.NetCDF
/-!
# Reading single entries from disk (sofar/sofastream.py)

The state of a `SofaStream` object between `__enter__` and `__exit__` is the open file. Access outside of a `with`
statement is modelled in `Model/StreamLife`.
-/
namespace Sofar

/-- What `SofaStream.__getattr__` returns (sofar/sofastream.py:107, 109, 114): a netCDF variable, whose values are
read by slicing it, or the value of an attribute. -/
inductive Got where
  | variable_ (x : NcVar)
  | value (v : Val)
deriving DecidableEq

/-- sofar/sofastream.py:71-77 `SofaStream.__enter__`: the file is opened under the given name, i.e., without adding
the suffix `.sofa` (contrary to sofar/io.py:115, 266). -/
def openStream (fs : FS) (filename : Str) : Except Exc NcFile :=
  match Dict.get? fs.files filename with
  | none => .error (.osError (py% "No such file or directory"))
  | some (.other _) => .error (.osError (py% "NetCDF: Unknown file format"))
  | some (.nc f) => .ok f

/-- Names that Python finds in the object or its class, so that `__getattr__` is not called
(sofar/sofastream.py:67-301; `_data` exists after the first access, 107). -/
def streamMembers : List Str :=
  [py% "_filename", py% "_file", py% "_data", py% "list_dimensions", py% "get_dimension", py% "inspect"]

/-- sofar/sofastream.py:96-97: name in the file -/
def streamName (name : Str) : Str :=
  Str.replace (Str.replace name (py% "GLOBAL_") []) (py% "Data_") (py% "Data.")

/-- sofar/sofastream.py:109 `getattr(variable, attr)`; members of the class `netCDF4.Variable` are not modelled -/
def variableAttr (nc : Nc) (x : NcVar) (a : Str) : Except Exc Got :=
  if nc.reserved a then .error .unmodelled
  else
    match Dict.get? x.attrs a with
    | some v => .ok (.value v)
    | none => .error (.attributeError (py% "NetCDF: Attribute not found"))

/-- sofar/sofastream.py:104-117: look up the variable (with its attribute), or the global attribute. The attribute part
of the name is not used for global attributes. -/
def streamLookup (nc : Nc) (f : NcFile) (name n : Str) (attr : Option Str) : Except Exc Got :=
  match Dict.get? f.vars n with
  | some x =>
    match attr with
    | none => .ok (.variable_ x)
    | some a => variableAttr nc x a
  | none =>
    match Dict.get? f.attrs n with
    | some v => .ok (.value v)
    | none => .error (.attributeError (name ++ py% " is not contained in SOFA-file"))

/-- sofar/sofastream.py:86-119 `SofaStream.__getattr__`. Members of the class and names with leading double underscores
are not modelled; names with trailing NUL characters (which numpy ignores in the comparison) are not considered. -/
def streamGet (nc : Nc) (f : NcFile) (name : Str) : Except Exc Got :=
  if streamMembers.contains name || Str.startsWith name (py% "__") then .error .unmodelled
  else
    match Str.splitChar '_' (streamName name) with
    | [n] => streamLookup nc f name n none
    | [n, a] => streamLookup nc f name n (some a)
    | _ => .error (.valueError (py% "too many values to unpack"))

/-- sofar/sofastream.py:195-223 `SofaStream.get_dimension` -/
def streamDimension (f : NcFile) (dimension : Str) : Except Exc Nat :=
  match Dict.get? f.dims dimension with
  | none => .error (.valueError (dimension ++ py% " is not a valid dimension."))
  | some d => .ok d.size

end Sofar
