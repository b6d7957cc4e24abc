import Verif.Model.Text
import Verif.Model.Stream
/-!
# `SofaStream` objects inside and outside of `with` statements (sofar/sofastream.py)
-/
namespace Sofar

/-- The attribute `_file` of a `SofaStream` (sofar/sofastream.py:67-84): it does not exist before the first `__enter__`, then
it is an open netCDF dataset, which `__exit__` closes. -/
inductive Handle where
  | missing
  | opened (f : NcFile)
  | closed (f : NcFile)

/-- A `SofaStream` (sofar/sofastream.py:69, 76). The attribute `_data` (107-114) only holds the latest result and is not
modelled. -/
structure Stream where
  filename : Str
  file : Handle

/-- sofar/sofastream.py:67-69 `SofaStream.__init__` -/
def newStream (filename : Str) : Stream := ⟨filename, .missing⟩

/-- sofar/sofastream.py:71-77 `SofaStream.__enter__` with the disk at this time. A dataset that is still open is not closed.
The content that can be read does not change while the dataset is open. -/
def streamEnter (fs : FS) (s : Stream) : Except Exc Unit × Stream :=
  match openStream fs s.filename with
  | .error e => (.error e, s)
  | .ok f => (.ok (), { s with file := .opened f })

/-- `self._file` (sofar/sofastream.py:84, 92, 152, 216, 245) with at most `limit` nested calls of Python functions. If the
attribute does not exist, Python calls `__getattr__("_file")` (86), which itself evaluates `self._file` (92). -/
def streamFile (s : Stream) : Nat → Except Exc Handle
  | 0 => .error .recursionError
  | limit + 1 =>
    match s.file with
    | .missing => streamFile s limit
    | .opened f => .ok (.opened f)
    | .closed f => .ok (.closed f)

/-- what netCDF4 raises for requests to a closed dataset (sofar/sofastream.py:84, 93, 155, 223, 245) -/
def notOpen : Exc := .runtimeError (py% "NetCDF: Not a valid ID")

/-- sofar/sofastream.py:79-84 `SofaStream.__exit__` -/
def streamExit (limit : Nat) (s : Stream) : Except Exc Unit × Stream :=
  match streamFile s limit with
  | .error e => (.error e, s)
  | .ok (.opened f) => (.ok (), { s with file := .closed f })
  | .ok _ => (.error notOpen, s)

/-- sofar/sofastream.py:86-119 `SofaStream.__getattr__`. For closed datasets the names of the variables (92) are known, but not
the names of the attributes (93). -/
def streamAccess (nc : Nc) (limit : Nat) (s : Stream) (name : Str) : Except Exc Got :=
  match streamFile s limit with
  | .error e => .error e
  | .ok (.opened f) => streamGet nc f name
  | .ok _ => .error notOpen

/-- sofar/sofastream.py:195-223 `SofaStream.get_dimension`. For closed datasets the names of the dimensions (216) are known,
but not their sizes (223). -/
def streamSize (limit : Nat) (s : Stream) (dimension : Str) : Except Exc Nat :=
  match streamFile s limit with
  | .error e => .error e
  | .ok (.opened f) => streamDimension f dimension
  | .ok (.closed f) =>
    match streamDimension f dimension with
    | .error e => .error e
    | .ok _ => .error notOpen
  | .ok .missing => .error notOpen

/-- sofar/sofastream.py:225-301 `SofaStream.inspect`: the printed text -/
def streamShow (env : Env) (nc : Nc) (limit : Nat) (s : Stream) : Except Exc Str :=
  match streamFile s limit with
  | .error e => .error e
  | .ok (.opened f) => streamInspect env nc f
  | .ok _ => .error notOpen

/-- What evaluating the property `list_dimensions` gives: the text that is printed, or a value (sofar/sofastream.py:121-193). -/
inductive Listed where
  | printed (t : Str)
  | got (g : Got)
deriving DecidableEq

/-- sofar/sofastream.py:121-193: the property `SofaStream.list_dimensions`. If a property raises AttributeError, Python calls
`__getattr__("list_dimensions")` (86-119). -/
def streamList (nc : Nc) (limit : Nat) (s : Stream) : Except Exc Listed :=
  match streamFile s limit with
  | .error e => .error e
  | .ok (.opened f) =>
    match streamListDimensions f with
    | .ok t => .ok (.printed t)
    | .error (.attributeError _) =>
      (streamLookup nc f (py% "list_dimensions") (py% "list") (some (py% "dimensions"))).map .got
    | .error e => .error e
  | .ok _ => .error notOpen

/-- Entering a `with` statement, with the disk at this time, or leaving it (sofar/sofastream.py:71-84) -/
inductive StreamOp where
  | enter (fs : FS)
  | exit

/-- The stream after entering or leaving a `with` statement, also if this raises (sofar/sofastream.py:71-84) -/
def streamStep (limit : Nat) (s : Stream) : StreamOp → Stream
  | .enter fs => (streamEnter fs s).2
  | .exit => (streamExit limit s).2

/-- The stream after a sequence of such events (sofar/sofastream.py:71-84) -/
def streamRun (limit : Nat) (s : Stream) (ops : List StreamOp) : Stream := ops.foldl (streamStep limit) s

end Sofar
