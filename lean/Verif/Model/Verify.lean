import Verif.Model.Object
/-!
# Verification (sofar/sofa.py:896-1589)

The method `Sofa.verify` is split into its phases. The bodies of the error and warning texts are passed on and
the headers are added at the end (`handleIssues`).
-/
namespace Sofar

/-- sofar/sofa.py:941-950 the parameter `issue_handling`, and the undocumented value `'ignore'` (1069, 1417). -/
inductive IH where
  | raise | print | ret | ignore
deriving DecidableEq

/-- sofar/sofa.py:952-961 the parameter `mode`. -/
inductive Mode where
  | write | read
deriving DecidableEq

/-! ## Phase 9 and helpers for texts -/

/-- sofar/sofa.py:977 -/
def errorHeader : Str := py% "\nERRORS\n------\n"

/-- sofar/sofa.py:978 -/
def warningHeader : Str := py% "\nWARNINGS\n--------\n"

/-- Result of `_verify_handle_issues`: exception or (error occurred, issues), and the side effects.
(sofar/sofa.py:1555-1593) -/
structure Handled where
  out : Except Exc (Bool × Option Str)
  ev : List Event

/-- sofar/sofa.py:1579-1587: the text that is returned. -/
def issuesText (warn err : Option Str) : Option Str :=
  match warn, err with
  | some w, some e => some (e ++ py% "\n" ++ w)
  | some w, none => some w
  | none, some e => some e
  | none, none => none

/-- sofar/sofa.py:1555-1589 `_verify_handle_issues`; `w` and `e` are the texts without header. -/
def handleIssues (w e : Str) (ih : IH) : Handled :=
  let warnMsg := if w.isEmpty then none else some (warningHeader ++ w)
  let errMsg := if e.isEmpty then none else some (errorHeader ++ e)
  let evW := match warnMsg, ih with
    | some m, .raise => [Event.warn m]
    | some m, .print => [Event.print m]
    | _, _ => []
  match errMsg, ih with
  | some m, .raise => ⟨.error (.valueError m), evW⟩
  | some m, .print => ⟨.ok (true, issuesText warnMsg errMsg), evW ++ [.print m]⟩
  | _, _ => ⟨.ok (errMsg.isSome, issuesText warnMsg errMsg), evW⟩

/-- `if current_error: error_msg += header; error_msg += current_error` (e.g. sofar/sofa.py:1062-1064). -/
def section_ (header body : Str) : Str := if body.isEmpty then [] else header ++ body

/-- One line `"- " + key + "\n"` (e.g. sofar/sofa.py:1091). -/
def line (key : Str) : Str := py% "- " ++ key ++ py% "\n"

/-- `self._convention[key]` (sofar/sofa.py:1017) -/
def convEntry (o : Obj) (key : Str) : Except Exc Entry :=
  match Dict.get? o.conv key with
  | some e => .ok e
  | none => .error (.keyError key)

/-! ## Phase 1: mandatory data -/

/-- sofar/sofa.py:994-997: add one entry with its default value. -/
def addDefault (o : Obj) (key : Str) (default : Inp) : Except Exc Unit × Obj :=
  let r := setAttr { o with prot := false } key default
  match r.out with
  | .error e => (.error e, r.obj)
  | .ok _ => (.ok (), { r.obj with prot := true })

/-- sofar/sofa.py:989-1000: loop over the convention. `doAdd` is `issue_handling != "raise"`. Gives the list of
missing data as text and the modified object. -/
def fillMissing (doAdd : Bool) (keys : List Str) : Dict Entry → Obj → Except Exc Str × Obj
  | [], o => (.ok [], o)
  | (k, e) :: l, o =>
    if mandatory e.flags && ! keys.contains k then
      let r := if doAdd then addDefault o k e.default else (.ok (), o)
      match r.1 with
      | .error x => (.error x, r.2)
      | .ok _ =>
        let q := fillMissing doAdd keys l r.2
        match q.1 with
        | .error x => (.error x, q.2)
        | .ok s => (.ok (line k ++ s), q.2)
    else fillMissing doAdd keys l o

/-! ## Phase 2: data types -/

/-- sofar/sofa.py:1034-1037: `value` is an int, float or a numeric numpy object of kind 'i' or 'f'. -/
def doubleOk : Val → Bool
  | .num .i _ => true
  | .num .f _ => true
  | .arr a => a.kind = .i || a.kind = .f
  | _ => false

/-- sofar/sofa.py:1044-1052: error text for a string variable. The dtype of numpy byte strings is printed as
`|S`, so that the test for `<S` never succeeds. Byte order `>` is not modelled. -/
def stringTypeError (env : Env) (key : Str) (v : Val) : Str :=
  match v with
  | .str _ => []
  | .npstr _ => []
  | .arr a =>
    if a.kind = .U then []
    else py% "- " ++ key ++ py% " must be U or S but is " ++ env.dtypeName a ++ py% "\n"
  | v => py% "- " ++ key ++ py% " must be string or numpy array but is " ++ env.typeName v ++ py% "\n"

/-- sofar/sofa.py:1023-1060: error text for one value. -/
def typeErrorText (env : Env) (key dtype : Str) (v : Val) : Str :=
  if dtype = py% "attribute" then
    if v.isStr then [] else py% "- " ++ key ++ py% " must be string but is " ++ env.typeName v ++ py% "\n"
  else if dtype = py% "double" then
    if doubleOk v then []
    else py% "- " ++ key ++ py% " must be int or float but is " ++ env.typeName v ++ py% "\n"
  else if dtype = py% "string" then stringTypeError env key v
  else py% "- " ++ key ++ py% ": Error in convention. Type must be double, string, or attribute but is "
    ++ dtype ++ py% "\n"

/-- sofar/sofa.py:1014-1060, one iteration of the loop. -/
def typeErrorKey (env : Env) (o : Obj) (key : Str) : Except Exc Str :=
  match convEntry o key with
  | .error e => .error e
  | .ok en =>
    match o.getAttr key with
    | .error e => .error e
    | .ok v => .ok (typeErrorText env key en.typ v)

/-- sofar/sofa.py:1013-1064 -/
def phaseTypes (env : Env) (o : Obj) (keys : List Str) : Except Exc Str :=
  match concatE (typeErrorKey env o) keys with
  | .error e => .error e
  | .ok s => .ok (section_ (py% "Detected data of wrong type:\n") s)

/-! ## Phase 3: names -/

/-- sofar/sofa.py:1083-1091: attributes without variable -/
def nameNoVariable (o : Obj) (key : Str) : Except Exc Str :=
  match convEntry o key with
  | .error e => .error e
  | .ok en =>
    if en.typ ≠ py% "attribute" then .ok []
    else
      match Str.beforeLast '_' key with
      | none => .ok []
      | some var =>
        if ! Dict.has o.conv var && ! Str.startsWith key (py% "GLOBAL_") then .ok (line key) else .ok []

/-- sofar/sofa.py:1099-1106: attributes without underscore -/
def nameNoUnderscore (o : Obj) (key : Str) : Except Exc Str :=
  match convEntry o key with
  | .error e => .error e
  | .ok en => if en.typ = py% "attribute" ∧ '_' ∉ key then .ok (line key) else .ok []

/-- sofar/sofa.py:1118-1124: variables with underscore -/
def nameVariable (o : Obj) (key : Str) : Except Exc Str :=
  match convEntry o key with
  | .error e => .error e
  | .ok en =>
    if en.typ ≠ py% "attribute" ∧ '_' ∈ Str.replace key (py% "Data_") [] then .ok (line key) else .ok []

/-- sofar/sofa.py:1134-1142: reserved names. The lookup in the convention only happens for names that start with
`GLOBAL_`. -/
def nameReserved (o : Obj) (key : Str) : Except Exc Str :=
  let a := if Str.startsWith key (py% "PRIVATE") || Str.startsWith key (py% "API") then line key else []
  if Str.startsWith key (py% "GLOBAL") then
    if ! Str.startsWith key (py% "GLOBAL_") then .ok (a ++ line key)
    else
      match convEntry o key with
      | .error e => .error e
      | .ok en => if en.typ ≠ py% "attribute" then .ok (a ++ line key) else .ok a
  else .ok a

/-- sofar/sofa.py:1159-1164: custom names against the names of the convention -/
def nameCustom (normative : List Str) (custom : Dict Entry) : Str :=
  let norm := normative.map (fun n => Str.replace n (py% "GLOBAL_") [])
  (((Dict.keys custom).filter (fun k => norm.contains (Str.replace k (py% "GLOBAL_") []))).map line).flatten

/-- sofar/sofa.py:1081-1148: the first four checks of the names -/
def phaseNames (o : Obj) (keys : List Str) : Except Exc Str :=
  match concatE (nameNoVariable o) keys with
  | .error e => .error e
  | .ok s1 =>
    match concatE (nameNoUnderscore o) keys with
    | .error e => .error e
    | .ok s2 =>
      match concatE (nameVariable o) keys with
      | .error e => .error e
      | .ok s3 =>
        match concatE (nameReserved o) keys with
        | .error e => .error e
        | .ok s4 =>
          .ok (section_ (py% "Detected attributes with missing variables:\n") s1
            ++ section_ (py% "Detected attribute names with too many or little underscores. Names must have the form Variable_Attribute, Data_Attribute (one underscore), or Data_Variable_Attribute (two underscores):\n") s2
            ++ section_ (py% "Detected variable names with too many underscores.Underscores are only allowed for the variable Data:\n") s3
            ++ section_ (py% "Detected variable or attribute with reserved key words PRIVATE, API, or GLOBAL:\n") s4)

/-- Result of creating the reference object in sofar/sofa.py:1156-1158: the names of the convention. -/
structure Inner where
  out : Except Exc (List Str)
  ev : List Event

/-- sofar/sofa.py:1152-1171; `inner` creates the reference object -/
def phaseCustomNames (inner : Inner) (o : Obj) : Except Exc Str × List Event :=
  match o.custom with
  | none => (.ok [], [])
  | some c =>
    match inner.out with
    | .error e => (.error e, inner.ev)
    | .ok normative =>
      (.ok (section_ (py% "Detected custom variable or attribute with reserved names. Custom data shall not have the same name as data contained in the convention itself:\n") (nameCustom normative c)), inner.ev)

/-! ## Phase 4: dimensions -/

/-- `len` of an array element; elements that are no strings have no length. (sofar/sofa.py:1775-1787) -/
def elemLen : Elem → Option Nat
  | .str s => some s.length
  | _ => none

/-- sofar/sofa.py:1765-1788 `_get_size_and_shape_of_string_var` (with `np.max` of line 1207): longest string and
shape. `max(np.vectorize(len)(value))` iterates over the first axis: it fails for arrays without axis
(TypeError), without elements (ValueError), and if rows with several elements have to be compared
(ValueError). -/
def stringVar (v : Val) (key : Str) : Except Exc (Nat × List Nat) :=
  match v with
  | .str s => .ok (s.length, [1, 1])
  | .npstr s => .ok (s.length, [1, 1])
  | .arr a =>
    match a.data.mapM elemLen with
    | none => .error (.typeError (py% "object has no len()"))
    | some lens =>
      if a.size = 0 then .error (.valueError (py% "cannot call `vectorize` on size 0 inputs unless `otypes` is set"))
      else
        match a.shape with
        | [] => .error (.typeError (py% "iteration over a 0-d array"))
        | n :: rest =>
          if n = 1 ∨ rest.foldr (· * ·) 1 = 1 then .ok (lens.foldr max 0, a.shape)
          else .error (.valueError (py% "The truth value of an array with more than one element is ambiguous."))
  | _ => .error (.typeError (key ++ py% " must be a string, numpy string array, or list of strings"))

/-- sofar/sofa.py:1183-1190: names of all variables, custom variables are listed again at the end. -/
def dimKeys (o : Obj) : List Str :=
  o.keys.filter (fun k => match Dict.get? o.conv k with
    | some e => e.dims.isSome
    | none => false)
  ++ (match o.custom with
    | none => []
    | some c => (c.filter (fun p => ! isPrivate p.1 && p.2.dims.isSome)).map Prod.fst)

/-- `self._convention[key]["dimensions"]` where it is known to be not None (sofar/sofa.py:1196, 1221) -/
def entryDims (en : Entry) : Except Exc Str :=
  match en.dims with
  | some d => .ok d
  | none => .error (.attributeError (py% "split"))

/-- sofar/sofa.py:1200-1208: loop over the letters of one variable; `idx` is the position of the first letter. -/
def dimLetters (v : Val) (key : Str) : Nat → Str → Dict Nat × Nat → Except Exc Unit × (Dict Nat × Nat)
  | _, [], st => (.ok (), st)
  | idx, d :: ds, (api, S) =>
    let r : Except Exc (Dict Nat) :=
      if ! (py% "ICS").contains d && Str.isLowerC d then
        match (Arr.ndNewaxisShape 4 v.shape)[idx]? with
        | some n => .ok (Dict.put api [Str.upperC d] n)
        | none => .error .indexError
      else .ok api
    match r with
    | .error e => (.error e, (api, S))
    | .ok api' =>
      if d = 'S' then
        match stringVar v key with
        | .error e => (.error e, (api', S))
        | .ok (n, _) => dimLetters v key (idx + 1) ds (api', max S n)
      else dimLetters v key (idx + 1) ds (api', S)

/-- First alternative of a dimension string: `dimensions.split(", ")[0]` (sofar/sofa.py:1200) -/
def firstAlt (d : Str) : Str := (Str.splitCommaSpace d).headD []

/-- sofar/sofa.py:1193-1208: loop over all variables -/
def dimLoop (o : Obj) : List Str → Dict Nat × Nat → Except Exc Unit × (Dict Nat × Nat)
  | [], st => (.ok (), st)
  | k :: ks, st =>
    match o.getAttr k with
    | .error e => (.error e, st)
    | .ok v =>
      match convEntry o k with
      | .error e => (.error e, st)
      | .ok en =>
        match entryDims en with
        | .error e => (.error e, st)
        | .ok d =>
          let r := dimLetters v k 0 (firstAlt d) st
          match r.1 with
          | .error e => (.error e, r.2)
          | .ok _ => dimLoop o ks r.2

/-- sofar/sofa.py:1177-1213: dimensions of the object (`_api`); the object is protected afterwards. -/
def phaseDims (o : Obj) : Except Exc Unit × Obj :=
  let o1 := { o with prot := true, dims := some [] }
  let r := dimLoop o (dimKeys o) ([], 0)
  match r.1 with
  | .error e => (.error e, { o1 with api := some r.2.1 })
  | .ok _ =>
    let api := Dict.put (Dict.put (Dict.put r.2.1 (py% "C") 3) (py% "I") 1) (py% "S") r.2.2
    (.ok (), { o1 with api := some api })

/-! ## Phase 5: shapes -/

/-- sofar/sofa.py:1230-1239: the actual shape of a variable -/
def actualShape (key dtype dims : Str) (v : Val) : Except Exc (List Nat) :=
  if dtype = py% "attribute" ∨ dtype = py% "string" then
    match stringVar v key with
    | .error e => .error e
    | .ok (_, s) => .ok s
  else if 1 < ((Str.splitChar ',' dims).headD []).length then .ok (Arr.atleastNdShape 4 v.shape)
  else .ok [v.shape.foldr (· * ·) 1]

/-- sofar/sofa.py:1247-1248: reference shape for one alternative, e.g. `"mRn"` -/
def refShape (api : Dict Nat) : Str → Except Exc (List Nat)
  | [] => .ok []
  | d :: ds =>
    let n : Except Exc Nat :=
      if d = 'S' then .ok 1
      else
        match Dict.get? api [Str.upperC d] with
        | some n => .ok n
        | none => .error (.keyError [Str.upperC d])
    match n with
    | .error e => .error e
    | .ok n =>
      match refShape api ds with
      | .error e => .error e
      | .ok r => .ok (n :: r)

/-- sofar/sofa.py:1252-1254: crop the shape and append singleton dimensions. -/
def compareShape (act : List Nat) (len : Nat) : List Nat := Arr.padOnes len (act.take len)

/-- sofar/sofa.py:1241-1260: search the alternatives. `some (.inl d)`: the alternative `d` matches;
`.inr s`: no match, `s` is the last shape that was compared. -/
def matchShape (api : Dict Nat) (act : List Nat) (last : List Nat) : List Str → Except Exc (Str ⊕ List Nat)
  | [] => .ok (.inr last)
  | d :: ds =>
    match refShape api d with
    | .error e => .error e
    | .ok ref =>
      if compareShape act ref.length = ref then .ok (.inl d)
      else matchShape api act (compareShape act ref.length) ds

/-- sofar/sofa.py:1266-1267: e.g. `"M=2, C=3"` -/
def verboseDim (api : Dict Nat) : Str → Except Exc (List Str)
  | [] => .ok []
  | d :: ds =>
    match Dict.get? api [d] with
    | none => .error (.keyError [d])
    | some n =>
      match verboseDim api ds with
      | .error e => .error e
      | .ok r => .ok (([d] ++ py% "=" ++ Str.ofNat n) :: r)

/-- sofar/sofa.py:1264-1267: list of the possible dimensions -/
def verboseDims (api : Dict Nat) : List Str → Except Exc (List Str)
  | [] => .ok []
  | d :: ds =>
    match verboseDim api d with
    | .error e => .error e
    | .ok l =>
      match verboseDims api ds with
      | .error e => .error e
      | .ok r => .ok ((py% "(" ++ Str.join (py% ", ") l ++ py% ")") :: r)

/-- sofar/sofa.py:1218-1271, one variable: the detected dimensions or an error text -/
def shapeKey (o : Obj) (api : Dict Nat) (key : Str) : Except Exc (Str ⊕ Str) :=
  match convEntry o key with
  | .error e => .error e
  | .ok en =>
    match o.getAttr key with
    | .error e => .error e
    | .ok v =>
      match entryDims en with
      | .error e => .error e
      | .ok d =>
        match actualShape key en.typ d v with
        | .error e => .error e
        | .ok act =>
          match matchShape api act [] (Str.splitCommaSpace d) with
          | .error e => .error e
          | .ok (.inl m) => .ok (.inl (Str.upper m))
          | .ok (.inr s) =>
            match verboseDims api (Str.splitChar ',' ((Str.upper d).filter (· ≠ ' '))) with
            | .error e => .error e
            | .ok l =>
              .ok (.inr (py% "- " ++ key ++ py% " has shape " ++ Str.ofTuple s ++ py% " but must have "
                ++ Str.join (py% ", ") l ++ py% "\n"))

/-- sofar/sofa.py:1218-1271: loop over all variables. Gives the text and the detected dimensions. -/
def shapeLoop (o : Obj) (api : Dict Nat) : List Str → Dict Str → Except Exc Str × Dict Str
  | [], dims => (.ok [], dims)
  | k :: ks, dims =>
    match shapeKey o api k with
    | .error e => (.error e, dims)
    | .ok (.inl m) => shapeLoop o api ks (Dict.put dims k m)
    | .ok (.inr s) =>
      let r := shapeLoop o api ks dims
      match r.1 with
      | .error e => (.error e, r.2)
      | .ok t => (.ok (s ++ t), r.2)

/-- sofar/sofa.py:1217-1275 -/
def phaseShapes (o : Obj) : Except Exc Str × Obj :=
  let r := shapeLoop o (o.api.getD []) (dimKeys o) []
  let o' := { o with dims := some r.2 }
  match r.1 with
  | .error e => (.error e, o')
  | .ok s => (.ok (section_ (py% "Detected variables of wrong shape:\n") s), o')

/-! ## Phase 6: rules -/

/-- `key.replace(".", "_").replace(":", "_")` (sofar/sofa.py:1285, 1311, 1351) -/
def toSofar (key : Str) : Str := Str.replaceChar (Str.replaceChar key '.' '_') ':' '_'

/-- sofar/sofa.py:1513-1516 -/
def unitsOk (aliases : Dict Str) : List Str → List Str → Bool
  | t :: ts, r :: rs => Dict.get? aliases t = some r && unitsOk aliases ts rs
  | _, _ => true

/-- sofar/sofa.py:1476-1518 `_verify_unit` -/
def verifyUnit (aliases : Dict Str) (test : Str) (ref : List Str) : Except Exc Bool :=
  match ref with
  | [r] =>
    let ur := Str.reSplitComma r
    let ut := Str.reSplitComma test
    if ur.length ≠ ut.length then .ok false else .ok (unitsOk aliases ut ur)
  | _ => .error (.typeError (py% "ref must be a list of length 1 containing a str"))

/-- sofar/sofa.py:1427-1474 `_verify_value`. Simplification: a value that is not a string is never equal to one
of the allowed strings, i.e., it always gives the TypeError of line 1454 (numpy also raises a ValueError for
arrays with more than one element). -/
def verifyValue (aliases : Dict Str) (test : Val) (ref : Option (List Str)) (key : Str) : Except Exc Bool :=
  match ref with
  | none => .ok true
  | some ref =>
    match test.asStr with
    | none => .error (.typeError (py% "At this point, only string data should remain."))
    | some t =>
      if ref.contains t then .ok true
      else if key = py% "GLOBAL_DataType" ∨ key = py% "GLOBAL_SOFAConventions" then .ok false
      else if ref.contains (Str.lower t) then .ok true
      else if Str.endsWith key (py% "Units") then verifyUnit aliases (Str.lower t) ref
      else .ok false

/-- sofar/sofa.py:1301-1303: coordinate types are compared in lower case. -/
def lowerTest (t : Str) : Str :=
  if [py% "cartesian", py% "spherical", py% "spherical harmonics"].contains (Str.lower t) then Str.lower t else t

/-- sofar/sofa.py:1331-1347: required sizes of dimensions -/
def dimRule (o : Obj) (keySofar test : Str) (p : Str × List Nat × Str) : Except Exc Str :=
  match Dict.get? (o.api.getD []) p.1 with
  | none => .error (.keyError p.1)
  | some n =>
    if p.2.1.contains n then .ok []
    else .ok (py% "- Dimension " ++ p.1 ++ py% " is of size " ++ Str.ofNat n ++ py% " but must be " ++ p.2.2
      ++ py% " if " ++ keySofar ++ py% " is " ++ test ++ py% "\n")

/-- sofar/sofa.py:1327-1370: one specific dependency -/
def specificRule (env : Env) (o : Obj) (keySofar test : Str) (item : SpecItem) : Except Exc Str :=
  match item with
  | .dims l => concatE (dimRule o keySofar test) l
  | .dep key ref =>
    let k := toSofar key
    if ! o.hasAttr k then
      .ok (py% "- " ++ k ++ py% " must be given if " ++ keySofar ++ py% " is " ++ test ++ py% "\n")
    else
      match ref with
      | none => .ok []
      | some r =>
        match o.getAttr k with
        | .error e => .error e
        | .ok v =>
          match verifyValue env.aliases v (some r) k with
          | .error e => .error e
          | .ok true => .ok []
          | .ok false => .ok (py% "- " ++ k ++ py% " is " ++ pyStr env v ++ py% " but must be "
              ++ Str.join (py% ", ") r ++ py% " if " ++ keySofar ++ py% " is " ++ test ++ py% "\n")

/-- sofar/sofa.py:1308-1318: one general dependency -/
def generalRule (o : Obj) (keySofar key : Str) : Str :=
  if o.hasAttr (toSofar key) then []
  else py% "- " ++ toSofar key ++ py% " must be given if " ++ keySofar ++ py% " is in SOFA object\n"

/-- sofar/sofa.py:1321-1325: the specific dependencies that apply. Arrays and dictionaries can not be looked up in
a dictionary (TypeError). -/
def specificItems (rule : Rule) (v : Val) : Except Exc (List SpecItem × Str) :=
  match rule.specific with
  | none => .ok ([], [])
  | some sp =>
    match v.asStr with
    | some t => .ok ((Dict.get? sp (lowerTest t)).getD [], lowerTest t)
    | none =>
      match v with
      | .arr _ => .error (.typeError (py% "unhashable type"))
      | .dict => .error (.typeError (py% "unhashable type"))
      | _ => .ok ([], [])

/-- sofar/sofa.py:1282-1370, one rule -/
def ruleKey (env : Env) (o : Obj) (p : Str × Rule) : Except Exc Str :=
  let k := toSofar p.1
  if ! o.hasAttr k then .ok []
  else
    match o.getAttr k with
    | .error e => .error e
    | .ok v =>
      match verifyValue env.aliases v p.2.value k with
      | .error e => .error e
      | .ok b =>
        let s1 := if b then [] else py% "- " ++ k ++ py% " is " ++ pyStr env v ++ py% " but must be "
          ++ Str.join (py% ", ") (p.2.value.getD []) ++ py% "\n"
        let s2 := (p.2.general.map (generalRule o k)).flatten
        match specificItems p.2 v with
        | .error e => .error e
        | .ok (items, test) =>
          match concatE (specificRule env o k test) items with
          | .error e => .error e
          | .ok s3 => .ok (s1 ++ s2 ++ s3)

/-! ## Phase 7: lower case units -/

/-- sofar/sofa.py:1378-1384, one unit. Values that are no strings have no method `lower` (AttributeError). -/
def unitKey (env : Env) (o : Obj) (key : Str) : Except Exc Str :=
  match o.getAttr key with
  | .error e => .error e
  | .ok v =>
    match v.asStr with
    | none => .error (.attributeError (py% "lower"))
    | some u =>
      if Str.lower u = u then .ok []
      else .ok (py% "- " ++ key ++ py% " is " ++ pyStr env v
        ++ py% " but must contain only lower case letters when writing SOFA files to disk.\n")

/-- sofar/sofa.py:1377-1384 -/
def phaseUnits (env : Env) (o : Obj) (mode : Mode) : Except Exc Str :=
  match mode with
  | .read => .ok []
  | .write => concatE (unitKey env o) (o.keys.filter (fun k => Str.endsWith k (py% "Units")))

/-- sofar/sofa.py:1279-1388 -/
def phaseRules (env : Env) (o : Obj) (mode : Mode) : Except Exc Str :=
  match concatE (ruleKey env o) env.rules with
  | .error e => .error e
  | .ok s1 =>
    match phaseUnits env o mode with
    | .error e => .error e
    | .ok s2 => .ok (section_ (py% "Detected violations of the SOFA convention:\n") (s1 ++ s2))

/-! ## Phase 8: deprecations and preliminary conventions -/

/-- sofar/sofa.py:1393-1400: deprecation text, empty if not deprecated -/
def deprecationText (env : Env) (c : Str) : Str :=
  match Dict.get? env.deprecations c with
  | none => []
  | some new => py% "Detected deprecations:\n- GLOBAL_SOFAConventions is " ++ c
      ++ py% ", which is deprecated. Use Sofa.upgrade_convention() to upgrade to " ++ new

/-- `float(v)` of a stored value (sofar/sofa.py:1407) -/
def valFloat (v : Val) : Except Exc Rat :=
  match v with
  | .str s => match pyFloat s with
    | some q => .ok q
    | none => .error (.valueError (py% "could not convert string to float"))
  | .npstr s => match pyFloat s with
    | some q => .ok q
    | none => .error (.valueError (py% "could not convert string to float"))
  | .num _ (.num (.fin q)) => .ok q
  | _ => .error (.typeError (py% "float() argument"))

/-- sofar/sofa.py:1407-1413 -/
def preliminaryText (env : Env) (v : Val) : Except Exc Str :=
  match valFloat v with
  | .error e => .error e
  | .ok q =>
    if q < 1 then
      .ok (py% "\n\nDetected preliminary conventions version " ++ pyStr env v
        ++ py% ":\n - Upgrade data to version >= 1.0 if possible. Preliminary conventions might change in the future, which could invalidate data that was written before the changes.")
    else .ok []

/-- sofar/sofa.py:1393-1413: texts added to the errors and the warnings -/
def phaseDeprecations (env : Env) (o : Obj) (mode : Mode) : Except Exc (Str × Str) :=
  match o.getAttr (py% "GLOBAL_SOFAConventions") with
  | .error e => .error e
  | .ok c =>
    let msg := match c.asStr with
      | some s => deprecationText env s
      | none => []
    match o.getAttr (py% "GLOBAL_SOFAConventionsVersion") with
    | .error e => .error e
    | .ok v =>
      match preliminaryText env v with
      | .error e => .error e
      | .ok p =>
        match mode with
        | .write => .ok (msg, p)
        | .read => .ok ([], msg ++ p)

/-! ## The method -/

/-- sofar/sofa.py:1279-1425 (phases 6 to 9) with the texts collected so far -/
def verifyTail (env : Env) (o : Obj) (ih : IH) (mode : Mode) (w e : Str) (ev : List Event) : Ret (Option Str) :=
  match phaseRules env o mode with
  | .error x => ⟨.error x, o, ev⟩
  | .ok e6 =>
    match phaseDeprecations env o mode with
    | .error x => ⟨.error x, o, ev⟩
    | .ok (e8, w8) =>
      match ih with
      | .ignore => ⟨.ok none, o, ev⟩
      | ih =>
        let h := handleIssues (w ++ w8) (e ++ e6 ++ e8) ih
        match h.out with
        | .error x => ⟨.error x, o, ev ++ h.ev⟩
        | .ok (occurred, issues) =>
          ⟨.ok (if occurred && ih == .ret then issues else none), o, ev ++ h.ev⟩

/-- sofar/sofa.py:1078-1275 (phases 3 to 5) and the rest -/
def verifyBody (inner : Inner) (env : Env) (o : Obj) (keys : List Str) (ih : IH) (mode : Mode) (w e : Str) :
    Ret (Option Str) :=
  match phaseNames o keys with
  | .error x => ⟨.error x, o, []⟩
  | .ok e3 =>
    let c := phaseCustomNames inner o
    match c.1 with
    | .error x => ⟨.error x, o, c.2⟩
    | .ok e3' =>
      let d := phaseDims o
      match d.1 with
      | .error x => ⟨.error x, d.2, c.2⟩
      | .ok _ =>
        let s := phaseShapes d.2
        match s.1 with
        | .error x => ⟨.error x, s.2, c.2⟩
        | .ok e5 => verifyTail env s.2 ih mode w (e ++ e3 ++ e3' ++ e5) c.2

/-- sofar/sofa.py:1069-1076: errors found in the first two phases are handled at once. -/
def verifyEarly (o : Obj) (ih : IH) (e : Str) : Ret (Option Str) :=
  let h := handleIssues [] e ih
  match h.out with
  | .error x => ⟨.error x, o, h.ev⟩
  | .ok (_, issues) => ⟨.ok (if ih == .print then none else issues), o, h.ev⟩

/-- sofar/sofa.py:896-1425 `Sofa.verify`. `inner` is the result of creating the reference object that is used
for checking the names of custom data (it only depends on convention and version of the object). -/
def verifyG (inner : Env → Obj → Inner) (env : Env) (o : Obj) (ih : IH) (mode : Mode) : Ret (Option Str) :=
  match resetConvention env o with
  | .error x => ⟨.error x, o, []⟩
  | .ok o1 =>
    let keys := o1.keys
    let f := fillMissing (ih ≠ .raise) keys o1.conv o1
    match f.1 with
    | .error x => ⟨.error x, f.2, []⟩
    | .ok missing =>
      let o2 := f.2
      let e1 := if ih = .raise then
        section_ (py% "Detected missing mandatory data call sofa.add_missing() to fix this):\n") missing else []
      let w1 := if ih = .raise then [] else section_ (py% "Added mandatory data with default values:\n") missing
      match phaseTypes env o2 keys with
      | .error x => ⟨.error x, o2, []⟩
      | .ok e2 =>
        if ! (e1 ++ e2).isEmpty && ih != .ignore then verifyEarly o2 ih (e1 ++ e2)
        else verifyBody (inner env o2) env o2 keys ih mode w1 (e1 ++ e2)

end Sofar
