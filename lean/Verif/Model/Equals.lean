import Verif.Model.Core
import Verif.Model.Index
/-!
# sofar/utils.py:129-239: comparison of two objects

numpy is modelled as of version 1.25 or later, where comparing arrays of incompatible shapes with `==` raises
ValueError. `npt.assert_allclose` is modelled with exact numbers (without rounding) and the tolerance `10^-7`.
-/
namespace Sofar

/-- `np.squeeze(v)` as array (sofar/utils.py:210, 219): strings and numbers give arrays without dimensions. -/
def squeezeVal : Val → Arr
  | .str s => ⟨.U, [], [.str s]⟩
  | .npstr s => ⟨.U, [], [.str s]⟩
  | .num k e => ⟨k, [], [e]⟩
  | .arr a => a.squeeze
  | .dict => ⟨.O, [], [.obj 0]⟩
  | .obj t => ⟨.O, [], [.obj t]⟩

/-- absolute value; (used by `assert_allclose`, sofar/utils.py:215) -/
def ratAbs (q : Rat) : Rat := if q < 0 then -q else q

/-- One element of `npt.assert_allclose(x, y)` (sofar/utils.py:210) with the default tolerances
`abs(x - y) <= 1e-7 * abs(y)`: NaN and infinities are equal to themselves only, masked elements are not compared;
`none`: not a real number. -/
def closeElem : Elem → Elem → Option Bool
  | .masked, _ => some true
  | _, .masked => some true
  | .num (.fin x), .num (.fin y) => some (decide (ratAbs (x - y) ≤ ratAbs y / 10000000))
  | .num x, .num y => some (decide (x = y))
  | _, _ => none

/-- numeric dtype (`isnumber` in numpy.testing; complex numbers are not modelled); (sofar/utils.py:215) -/
def isRealKind : Kind → Bool
  | .i => true
  | .u => true
  | .f => true
  | .b => true
  | _ => false

/-- `npt.assert_allclose(np.squeeze(a), np.squeeze(b))` (sofar/utils.py:209-211): True, False (AssertionError) or an
exception that `equals` does not catch. Different shapes are an AssertionError, unless one of the arrays has no
dimensions, in which case its element is compared to all elements of the other array. Text can not be compared
(TypeError); complex numbers and other objects are not modelled. -/
def allClose (a b : Arr) : Except Exc Bool :=
  if a.shape ≠ [] ∧ b.shape ≠ [] ∧ a.shape ≠ b.shape then .ok false
  else if a.kind = .U ∨ a.kind = .S ∨ b.kind = .U ∨ b.kind = .S then .error (.typeError (py% "isclose"))
  else if isRealKind a.kind = false ∨ isRealKind b.kind = false then .error .unmodelled
  else
    match a.pairs b with
    | none => .ok false
    | some l =>
      match l.mapM (fun p => closeElem p.1 p.2) with
      | none => .error .unmodelled
      | some r => .ok (r.all id)

/-- numpy strings have no trailing NUL characters (sofar/utils.py:219) -/
def stripNul (s : Str) : Str := (s.reverse.dropWhile (fun c => c = Char.ofNat 0)).reverse

/-- text of an element of an array of strings (sofar/utils.py:219) -/
def elemText : Elem → Option Str
  | .str s => some (stripNul s)
  | _ => none

/-- `a.astype("S")` (sofar/utils.py:219): UnicodeEncodeError for text that is not ASCII; the text of numbers and of
other objects is not modelled. Byte strings are kept. -/
def asBytes (a : Arr) : Except Exc Arr :=
  match a.data.mapM elemText with
  | none => .error .unmodelled
  | some l =>
    if a.kind = .U ∧ l.any (fun s => !Str.isAscii s) then .error .unicodeError
    else if a.kind = .U ∨ a.kind = .S then .ok ⟨.S, a.shape, l.map .str⟩
    else .error .unmodelled

/-- `np.all(np.squeeze(a).astype("S") == np.squeeze(b).astype("S"))` (sofar/utils.py:218-219): shapes that can not
be broadcast raise ValueError. -/
def sameText (a b : Arr) : Except Exc Bool :=
  match asBytes a with
  | .error e => .error e
  | .ok x =>
    match asBytes b with
    | .error e => .error e
    | .ok y =>
      match x.pairs y with
      | none => .error (.valueError (py% "operands could not be broadcast together"))
      | some l => .ok (l.all (fun p => p.1 = p.2))

/-- `a != b` as condition (sofar/utils.py:202): strings and numbers; arrays and other objects are not modelled. -/
def attrDiffers (a b : Val) : Except Exc Bool :=
  match a.asStr, b.asStr with
  | some s, some t => .ok (decide (s ≠ t))
  | some _, none =>
    match b with
    | .num _ (.num _) => .ok true
    | _ => .error .unmodelled
  | none, some _ =>
    match a with
    | .num _ (.num _) => .ok true
    | _ => .error .unmodelled
  | none, none =>
    match a, b with
    | .num _ (.num x), .num _ (.num y) => .ok (decide (x ≠ y ∨ x = .nan))
    | _, _ => .error .unmodelled

/-- sofar/utils.py:166-183: the keys that are compared -/
def compareKeys (o : Obj) (exclude : Option Str) : Except Exc (List Str) :=
  match exclude with
  | none => .ok o.keys
  | some x =>
    if Str.upper x = py% "GLOBAL" then .ok (o.keys.filter (fun k => !Str.startsWith k (py% "GLOBAL_")))
    else if Str.upper x = py% "ATTR" then
      match o.keys.find? (fun k => !Dict.has o.conv k) with
      | some k => .error (.keyError k)
      | none => .ok (o.keys.filter (fun k => (Dict.get? o.conv k).map Entry.typ ≠ some (py% "attribute")))
    else if Str.upper x = py% "DATE" then .ok (o.keys.filter (fun k => !Str.hasSub k (py% "Date")))
    else .error (.valueError (py% "exclude"))

/-- Result of `equals`: return value or exception, and warnings (sofar/utils.py:129-239). -/
structure Compared where
  out : Except Exc Bool
  ev : List Event
deriving DecidableEq

/-- sofar/utils.py:236-239 `_equals_raise_warning`: the warning (the returned False is part of the callers) -/
def differ (verbose : Bool) (msg : Str) : List Event := if verbose then [.warn msg] else []

/-- sofar/utils.py:199-231: comparison of one entry; the text of the warning is empty if the values are equal. The
texts for variables contain `{key}` literally, as in the code. -/
def compareEntry (a b : Obj) (key : Str) : Except Exc (Option Str) :=
  match Dict.get? a.attrs key, Dict.get? b.attrs key with
  | some va, some vb =>
    match Dict.get? a.conv key, Dict.get? b.conv key with
    | some ea, some eb =>
      if ea.typ = py% "attribute" ∧ eb.typ = py% "attribute" then
        match attrDiffers va vb with
        | .error e => .error e
        | .ok d => .ok (if d then some (py% "not identical: different values for " ++ key) else none)
      else if ea.typ = py% "double" ∧ eb.typ = py% "double" then
        match allClose (squeezeVal va) (squeezeVal vb) with
        | .error e => .error e
        | .ok c => .ok (if c then none else some (py% "not identical: different values for {key}"))
      else if ea.typ = py% "string" ∧ eb.typ = py% "string" then
        match sameText (squeezeVal va) (squeezeVal vb) with
        | .error e => .error e
        | .ok c => .ok (if c then none else some (py% "not identical: different values for {key}"))
      else .ok (some (py% "not identical: " ++ key ++ py% " has different data types (" ++ ea.typ ++ py% ", " ++ eb.typ ++ py% ")"))
    | _, _ => .error (.keyError key)
  | _, _ => .error (.attributeError key)

/-- sofar/utils.py:195-233: the loop over all entries -/
def compareLoop (a b : Obj) (verbose : Bool) : List Str → Bool → List Event → Compared
  | [], same, ev => ⟨.ok same, ev⟩
  | k :: l, same, ev =>
    match compareEntry a b k with
    | .error e => ⟨.error e, ev⟩
    | .ok none => compareLoop a b verbose l same ev
    | .ok (some msg) => compareLoop a b verbose l false (ev ++ differ verbose msg)

/-- sofar/utils.py:129-233 `equals` -/
def equals (a b : Obj) (verbose : Bool) (exclude : Option Str) : Compared :=
  match compareKeys a exclude with
  | .error e => ⟨.error e, []⟩
  | .ok ka =>
    match compareKeys b exclude with
    | .error e => ⟨.error e, []⟩
    | .ok kb =>
      if ka.length ≠ kb.length then
        ⟨.ok false, differ verbose (py% "not identical: sofa_a has " ++ Str.ofNat ka.length ++
          py% " attributes for comparison and sofa_b has " ++ Str.ofNat kb.length ++ py% ".")⟩
      else if ka.all kb.contains && kb.all ka.contains then compareLoop a b verbose ka true []
      else ⟨.ok false, differ verbose (py% "not identical: sofa_a and sofa_b do not have the ame attributes")⟩

end Sofar
