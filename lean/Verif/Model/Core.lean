import Verif.Model.PyDict
import Verif.Model.Arr
/-!
# Values, exceptions, conventions and the Sofa object
-/
namespace Sofar

/-- Python exceptions raised by the modelled code. `unmodelled` marks calls outside of the model (e.g. writing
private attributes from outside of the class); no theorem claims anything else about them. The texts of exceptions
are abbreviated, except for the report of `Sofa.verify`. (raised e.g. in sofar/sofa.py:142-149) -/
inductive Exc where
  | typeError (msg : Str)
  | valueError (msg : Str)
  | keyError (key : Str)
  | attributeError (msg : Str)
  | indexError
  | unboundLocal
  | unicodeError
  | netcdfError (msg : Str)
  | osError (msg : Str)
  | runtimeError (msg : Str)
  | recursionError
  | unmodelled
deriving DecidableEq

deriving instance DecidableEq for Except

/-- Observable side effects: `warnings.warn` and `print`. (e.g. sofar/sofa.py:119-124, sofar/io.py:195-206) -/
inductive Event where
  | warn (msg : Str)
  | print (msg : Str)
deriving DecidableEq

/-- Values that can be stored in a Sofa object (after `Sofa.__setattr__`): `str`, `numpy.str_`, other numpy
scalars, numpy arrays, dictionaries, and any other Python object (e.g. `None`). (sofar/sofa.py:151-158) -/
inductive Val where
  | str (s : Str)
  | npstr (s : Str)
  | num (k : Kind) (e : Elem)
  | arr (a : Arr)
  | dict
  | obj (tag : Nat)
deriving DecidableEq

/-- Values that are passed to a Sofa object. Python numbers are identified with the numpy scalars they are
converted to; `pybool` is a Python `bool`; `list a` is a rectangular (nested) list or tuple for which
`np.array` gives `a`; `ragged` is a nested list that numpy refuses to convert (ValueError). (sofar/sofa.py:151-158) -/
inductive Inp where
  | val (v : Val)
  | pybool (b : Bool)
  | list (a : Arr)
  | ragged
deriving DecidableEq

namespace Val

/-- `isinstance(v, str)` gives the string (`numpy.str_` is a subclass of `str`). (sofar/sofa.py:1024, 1301, 1453) -/
def asStr : Val → Option Str
  | .str s => some s
  | .npstr s => some s
  | _ => none

/-- `isinstance(v, str)` (sofar/sofa.py:1024, 1453) -/
def isStr (v : Val) : Bool := v.asStr.isSome

/-- shape of `np.array(v)` (sofar/sofa.py:1204, 1236) -/
def shape : Val → List Nat
  | .arr a => a.shape
  | _ => []

end Val

/-- One entry of a convention, i.e., a value of the dictionaries `Sofa._convention` and `Sofa._custom`
(sofar/sofa.py:719-724, sofar/update_conventions.py:243-247). -/
structure Entry where
  flags : Option Str
  dims : Option Str
  typ : Str
  default : Inp
  comment : Str
deriving DecidableEq

/-- A file in `sofa_conventions/conventions` (or its sub folder `deprecated`): base name and json content.
(sofar/sofa.py:1686-1712) -/
structure ConvFile where
  base : Str
  content : Dict Entry
deriving DecidableEq

/-- One item of `rules[key]["specific"][value]` (sofar/sofa.py:1327-1370). -/
inductive SpecItem where
  /-- `"_dimensions": {dim: {"value": [...], "value_str": ...}}` -/
  | dims (l : List (Str × List Nat × Str))
  /-- `key: null` or `key: [values]` -/
  | dep (key : Str) (ref : Option (List Str))
deriving DecidableEq

/-- One rule from `rules.json` (sofar/sofa.py:1282-1370). -/
structure Rule where
  value : Option (List Str)
  general : List Str
  specific : Option (Dict (List SpecItem))
deriving DecidableEq

/-- `upgrade[convention][id]["move"][source]` (sofar/sofa.py:838-865). Axes are given as two numbers. -/
structure Move where
  target : Str
  moveaxis : Option (Nat × Nat)
  deprecatedDims : Option (List Str)
deriving DecidableEq

/-- `upgrade[convention][id]` (sofar/sofa.py:815-887). -/
structure UpgradeDef where
  move : Dict Move
  remove : List Str
  message : Option Str
deriving DecidableEq

/-- `upgrade[convention]` with `from_to` (list of versions, targets, id) and the upgrade definitions.
(sofar/sofa.py:765-816) -/
structure Upgrade where
  fromTo : List (List Str × List Str × Str)
  defs : Dict UpgradeDef
deriving DecidableEq

/-- Everything the code reads from the package folder and from the platform. All theorems quantify over it.
(sofar/sofa.py:1562-1621, 1662-1721, sofar/utils.py:10-19, 64-126) -/
structure Env where
  /-- `glob` results: standardized files followed by deprecated files, in directory order -/
  files : List ConvFile
  /-- rules.json -/
  rules : Dict Rule
  /-- unit_aliases.json -/
  aliases : Dict Str
  /-- deprecations.json, entry `GLOBAL:SOFAConventions` -/
  deprecations : Dict Str
  /-- upgrade.json -/
  upgrade : Dict Upgrade
  /-- `datetime.now().strftime(...)` -/
  now : Str
  /-- `sofar.version()` -/
  apiVersion : Str
  /-- Python version string -/
  appVersion : Str
  /-- `str(v)` for values that are not strings (uninterpreted) -/
  fmt : Val → Str
  /-- `type(v)` formatted as string (uninterpreted) -/
  typeName : Val → Str
  /-- `type(v.dtype)` formatted as string (uninterpreted) -/
  dtypeName : Arr → Str
  /-- conversion of an integer to a double when writing (uninterpreted rounding) -/
  rnd : Rat → Rat

/-- `Sofa._read_only_attr` after it went through `Sofa.__setattr__` (sofar/sofa.py:101-103, 152-156): a list with
a single name is stored as a string, so that `name in self._read_only_attr` is then a substring test. -/
inductive ReadOnly where
  | names (l : List Str)
  | single (s : Str)
deriving DecidableEq

namespace ReadOnly

/-- sofar/sofa.py:145 `name in self._read_only_attr` -/
def has : ReadOnly → Str → Bool
  | names l, n => l.contains n
  | single s, n => Str.hasSub s n

/-- sofar/sofa.py:101-103 with the conversion of 152-156 -/
def ofList : List Str → ReadOnly
  | [s] => single s
  | l => names l

end ReadOnly

/-- A `Sofa` object: the public part of `__dict__` and the private attributes. (sofar/sofa.py:85-131) -/
structure Obj where
  /-- public entries of `self.__dict__` -/
  attrs : Dict Val
  /-- `self._convention` -/
  conv : Dict Entry
  /-- `self._custom` (`none`: attribute does not exist) -/
  custom : Option (Dict Entry)
  /-- `self._dimensions` (`none`: attribute does not exist) -/
  dims : Option (Dict Str)
  /-- `self._api` (`none`: attribute does not exist) -/
  api : Option (Dict Nat)
  /-- `self._read_only_attr` -/
  readOnly : ReadOnly
  /-- `self._protected` -/
  prot : Bool
deriving DecidableEq

/-- Result of a method call: return value or exception, the object after the call, and side effects.
(methods of sofar/sofa.py:85-1836) -/
structure Ret (α : Type) where
  out : Except Exc α
  obj : Obj
  ev : List Event

/-- The call returned without exception. (methods of sofar/sofa.py:85-1836) -/
def Ret.isOk {α} (r : Ret α) : Bool :=
  match r.out with
  | .ok _ => true
  | .error _ => false

/-- Public members of the class `Sofa` (sofar/sofa.py:188-1623). -/
def publicMembers : List Str :=
  [py% "list_dimensions", py% "get_dimension", py% "info", py% "inspect", py% "add_missing",
   py% "add_variable", py% "add_attribute", py% "delete", py% "protected", py% "upgrade_convention",
   py% "verify", py% "copy"]

/-- Private members of the class `Sofa` (sofar/sofa.py:85-1836) and of `object`. -/
def privateMembers : List Str :=
  [py% "_protected", py% "_read_only_attr", py% "__init__", py% "__setattr__", py% "__delattr__",
   py% "__repr__", py% "_update_dimensions", py% "_add_entry", py% "_add_custom_api_entry",
   py% "_verify_value", py% "_verify_unit", py% "_get_reference_unit", py% "_verify_handle_issues",
   py% "_verification_rules", py% "_reset_convention", py% "_load_convention", py% "_convention_to_sofa",
   py% "_get_size_and_shape_of_string_var", py% "_mandatory", py% "_read_only",
   py% "__class__", py% "__dict__", py% "__dir__", py% "__doc__", py% "__eq__", py% "__format__",
   py% "__ge__", py% "__getattribute__", py% "__getstate__", py% "__gt__", py% "__hash__",
   py% "__init_subclass__", py% "__le__", py% "__lt__", py% "__module__", py% "__ne__", py% "__new__",
   py% "__reduce__", py% "__reduce_ex__", py% "__sizeof__", py% "__str__", py% "__subclasshook__",
   py% "__weakref__"]

/-- A name is private if it starts with an underscore (sofar/sofa.py:516). -/
def isPrivate (n : Str) : Bool := Str.startsWith n (py% "_")

namespace Obj

/-- Private instance attributes that exist (sofar/sofa.py:98, 717). -/
def privateInst (o : Obj) : List Str :=
  [py% "_convention"] ++ (if o.custom.isSome then [py% "_custom"] else [])
    ++ (if o.dims.isSome then [py% "_dimensions"] else [])
    ++ (if o.api.isSome then [py% "_api"] else [])

/-- `hasattr(self, name)` (sofar/sofa.py:141, 168, 655) -/
def hasAttr (o : Obj) (n : Str) : Bool :=
  Dict.has o.attrs n || publicMembers.contains n || privateMembers.contains n || o.privateInst.contains n

/-- sofar/sofa.py:516 `[key for key in self.__dict__.keys() if not key.startswith("_")]` -/
def keys (o : Obj) : List Str := Dict.keys o.attrs

/-- `getattr(self, name)` (sofar/sofa.py:1642); methods and private attributes are returned as opaque objects -/
def getAttr (o : Obj) (n : Str) : Except Exc Val :=
  match Dict.get? o.attrs n with
  | some v => .ok v
  | none => if o.hasAttr n then .ok (.obj 0) else .error (.attributeError n)

end Obj

/-- sofar/sofa.py:1790-1812 `Sofa._mandatory` -/
def mandatory (flags : Option Str) : Bool :=
  match flags with
  | none => false
  | some f => f.contains 'm'

/-- sofar/sofa.py:1814-1836 `Sofa._read_only` -/
def readOnlyFlag (flags : Option Str) : Bool :=
  match flags with
  | none => false
  | some f => f.contains 'r'

/-- Run `f` on every element and concatenate the texts; stop at the first exception. This is the pattern
`for x in l: current_error += ...` of `Sofa.verify` (sofar/sofa.py:1013-1076). -/
def concatE {α : Type} (f : α → Except Exc Str) : List α → Except Exc Str
  | [] => .ok []
  | x :: l =>
    match f x with
    | .error e => .error e
    | .ok s =>
      match concatE f l with
      | .error e => .error e
      | .ok t => .ok (s ++ t)

end Sofar
