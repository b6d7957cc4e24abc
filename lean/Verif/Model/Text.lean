import Verif.Model.Init
import Verif.Model.Stream
/-!
# Text about objects and files

`Sofa.list_dimensions`, `Sofa.info`, `Sofa.inspect` (sofar/sofa.py:183-492), `SofaStream.list_dimensions` and
`SofaStream.inspect` (sofar/sofastream.py:121-301), and the value of `Sofa.protected` (sofar/sofa.py:628-635).
Opening the text files of `inspect` is assumed to succeed.
-/
namespace Sofar

/-- `str(v)` (sofar/sofa.py:339-341, 466; sofar/sofastream.py:255, 274) -/
def showVal (env : Env) (v : Val) : Str :=
  match v.asStr with
  | some s => s
  | none => env.fmt v

/-- `str(b)` of a `bool` (sofar/sofa.py:394-397) -/
def showBool (b : Bool) : Str := if b then py% "True" else py% "False"

/-- sofar/sofa.py:338-342, 451-455: first line and dashes (the line break counts as well) -/
def titleText (c v s : Str) : Str :=
  let t := c ++ py% " " ++ v ++ py% " (SOFA version " ++ s ++ py% ")\n"
  t ++ List.replicate t.length '-' ++ py% "\n"

/-- sofar/sofa.py:338-342, 451-455 for an object -/
def objTitle (env : Env) (o : Obj) : Except Exc Str :=
  match o.getAttr (py% "GLOBAL_SOFAConventions"), o.getAttr (py% "GLOBAL_SOFAConventionsVersion"),
      o.getAttr (py% "GLOBAL_Version") with
  | .ok c, .ok v, .ok s => .ok (titleText (showVal env c) (showVal env v) (showVal env s))
  | .error e, _, _ => .error e
  | _, .error e, _ => .error e
  | _, _, .error e => .error e

/-! ## Sofa.list_dimensions -/

/-- sofar/sofa.py:223-228, sofar/sofastream.py:154-160: meaning of the dimension N. `none`: the variable `N_verbose`
is not assigned. -/
def meaningN (dataType : Str) : Option Str :=
  if Str.startsWith dataType (py% "FIR") then some (py% "samples")
  else if Str.startsWith dataType (py% "TF") then some (py% "frequencies")
  else if Str.startsWith dataType (py% "SOS") then some (py% "SOS coefficients")
  else none

/-- sofar/sofa.py:231-234, sofar/sofastream.py:163-174: meaning of the dimensions R and E -/
def meaningRE (who type : Str) : Str :=
  if Str.hasSub type (py% "harmonic") then who ++ py% " spherical harmonics coefficients" else who

/-- sofar/sofa.py:236-243, sofar/sofastream.py:176-183: the dictionary `dimensions` -/
def meanings (n r e : Str) : Dict Str :=
  [(py% "M", py% "measurements"), (py% "N", n), (py% "R", r), (py% "E", e), (py% "S", py% "maximum string length"),
   (py% "C", py% "coordinate dimensions, fixed"), (py% "I", py% "single dimension, fixed")]

/-- sofar/sofa.py:247-250, sofar/sofastream.py:185-191: `"{key} = {value} {dim_info}"` -/
def dimText (d : Dict Str) (key : Str) (n : Nat) : Str :=
  key ++ py% " = " ++ Str.ofNat n ++ py% " " ++ (Dict.get? d key).getD (py% "custom dimension")

/-- sofar/sofa.py:253-258: the first entry of the convention that contains the lower case letter. (The condition
`dim_info != "custom "` of line 252 always holds.) -/
def setByText (key : Str) : Dict Entry → Str
  | [] => []
  | (k, e) :: l =>
    match e.dims with
    | none => setByText key l
    | some d =>
      if Str.hasSub d (Str.lower key) then py% " (set by " ++ k ++ py% " of dimension " ++ Str.upper d ++ py% ")"
      else setByText key l

/-- sofar/sofa.py:245-260: the loop over `self._api` -/
def dimsText (d : Dict Str) (conv : Dict Entry) : Dict Nat → Str
  | [] => []
  | (key, n) :: l => dimText d key n ++ setByText key conv ++ py% "\n" ++ dimsText d conv l

/-- text of an attribute on which `startswith` or `in` is called (sofar/sofa.py:223-234). Other types are not
modelled. -/
def textAttr (o : Obj) (k : Str) : Except Exc Str :=
  match o.getAttr k with
  | .error e => .error e
  | .ok v =>
    match v.asStr with
    | some s => .ok s
    | none => .error .unmodelled

/-- sofar/sofa.py:223-262: the text that is printed by `Sofa.list_dimensions`. -/
def dimensionsText (o : Obj) : Except Exc Str :=
  match textAttr o (py% "GLOBAL_DataType") with
  | .error e => .error e
  | .ok t =>
    match textAttr o (py% "ReceiverPosition_Type") with
    | .error e => .error e
    | .ok r =>
      match textAttr o (py% "EmitterPosition_Type") with
      | .error e => .error e
      | .ok em =>
        match meaningN t with
        | none => .error .unboundLocal
        | some n =>
          match o.api with
          | none => .error (.attributeError (py% "_api"))
          | some api =>
            .ok (dimsText (meanings n (meaningRE (py% "receiver") r) (meaningRE (py% "emitter") em)) o.conv api)

/-- sofar/sofa.py:188-262 `Sofa.list_dimensions` -/
def listDimensions (env : Env) (o : Obj) : Ret Unit :=
  let r := updateDimensions env o
  match r.out with
  | .error x => ⟨.error x, r.obj, r.ev⟩
  | .ok _ =>
    match dimensionsText r.obj with
    | .error x => ⟨.error x, r.obj, r.ev⟩
    | .ok t => ⟨.ok (), r.obj, r.ev ++ [.print t]⟩

/-! ## Sofa.inspect -/

/-- `value.size` (sofar/sofa.py:465, 485): arrays and numpy scalars have a size, strings have none. -/
def sizeOf? : Val → Except Exc Nat
  | .arr a => .ok a.size
  | .num _ _ => .ok 1
  | .npstr _ => .ok 1
  | _ => .error (.attributeError (py% "size"))

/-- sofar/sofa.py:475-480, sofar/sofastream.py:267-284: the shape with names of dimensions, e.g. `(M=100, R=2)` -/
def shapeText (dims : List Str) (shape : List Nat) : Str :=
  let shape := Arr.padOnes dims.length shape
  let t := (List.zip shape dims).foldl (fun t (p : Nat × Str) => t ++ p.2 ++ py% "=" ++ Str.ofNat p.1 ++ py% ", ") (py% "(")
  Str.dropEnd t 2 ++ py% ")\n"

/-- sofar/sofa.py:486-487, sofar/sofastream.py:286-288: the values, indented -/
def valuesText (env : Env) (a : Arr) : Str :=
  py% "  " ++ Str.replace (env.fmt (.arr a.squeeze)) (py% "\n") (py% "\n  ") ++ py% "\n"

/-- sofar/sofa.py:460-487: text for one entry -/
def inspectKey (env : Env) (o : Obj) (key : Str) : Except Exc Str :=
  match o.getAttr key with
  | .error e => .error e
  | .ok v =>
    match Dict.get? o.conv key with
    | none => .error (.keyError key)
    | some e =>
      if e.typ = py% "attribute" then .ok (key ++ py% " : " ++ showVal env v ++ py% "\n")
      else
        match sizeOf? v with
        | .error x => .error x
        | .ok n =>
          if n = 1 then .ok (key ++ py% " : " ++ showVal env v ++ py% "\n")
          else
            match v, o.dims with
            | .arr a, some dims =>
              match Dict.get? dims key with
              | none => .error (.keyError key)
              | some d =>
                .ok (key ++ py% " : " ++ shapeText (d.map (fun c => [c])) a.shape
                  ++ (if n < 7 then valuesText env a else []))
            | _, _ => .error (.attributeError (py% "_dimensions"))

/-- Result of `inspect`: exception, the object, side effects, and the text file (path and content).
(sofar/sofa.py:409-492) -/
structure Inspected where
  out : Except Exc Unit
  obj : Obj
  ev : List Event
  file : Option (Str × Str)

/-- sofar/sofa.py:409-492 `Sofa.inspect` -/
def inspect (env : Env) (o : Obj) (file : Option Str) (ih : IH) : Inspected :=
  let r := verify env o ih .write
  match r.out with
  | .error x => ⟨.error x, r.obj, r.ev, none⟩
  | .ok _ =>
    match objTitle env r.obj with
    | .error x => ⟨.error x, r.obj, r.ev, none⟩
    | .ok title =>
      match concatE (inspectKey env r.obj) r.obj.keys with
      | .error x => ⟨.error x, r.obj, r.ev, none⟩
      | .ok t =>
        ⟨.ok (), r.obj, r.ev ++ [.print (title ++ t)], file.map (fun p => (p, title ++ t ++ py% "\n"))⟩

/-! ## Sofa.info -/

/-- sofar/sofa.py:352-361: the entry is skipped -/
def infoSkipped (sel : Str) (e : Entry) : Bool :=
  (! mandatory e.flags && sel == py% "mandatory") || (mandatory e.flags && sel == py% "optional") ||
    (! readOnlyFlag e.flags && sel == py% "read only") || (e.typ == py% "attribute" && sel == py% "data")

/-- sofar/sofa.py:365-367: dimensions of an entry in parentheses -/
def infoDims (dims : Option Str) : Str :=
  match dims with
  | none => []
  | some d => if d = [] then [] else py% " (" ++ Str.upper d ++ py% ")"

/-- sofar/sofa.py:399-400: `str(dimensions).upper()` -/
def infoShape (dims : Option Str) : Str :=
  match dims with
  | none => py% "NONE"
  | some d => Str.upper d

/-- sofar/sofa.py:363-379: text of an entry that is not skipped -/
def infoLine (key : Str) (e : Entry) : Str :=
  key ++ py% " : " ++ e.typ
    ++ infoDims e.dims
    ++ (if mandatory e.flags then py% ", mandatory" else py% ", optional")
    ++ (if readOnlyFlag e.flags then py% ", read only" else [])
    ++ (if e.comment = [] then py% "\n" else py% "\n    " ++ e.comment ++ py% "\n")

/-- sofar/sofa.py:349-379: one step of the loop over all entries -/
def infoKey (o : Obj) (sel key : Str) : Except Exc Str :=
  match Dict.get? o.conv key with
  | none => .error (.keyError key)
  | some e => .ok (if infoSkipped sel e then [] else infoLine key e)

/-- sofar/sofa.py:383-398: all information about an entry. `show` is `str` of a default value. -/
def infoEntry (show_ : Inp → Str) (o : Obj) (key : Str) : Except Exc Str :=
  match Dict.get? o.conv key with
  | none => .error (.keyError key)
  | some e =>
    .ok (key ++ py% "\n    type: " ++ e.typ ++ py% "\n    mandatory: " ++ showBool (mandatory e.flags)
      ++ py% "\n    read only: " ++ showBool (readOnlyFlag e.flags) ++ py% "\n    default: " ++ show_ e.default
      ++ py% "\n    shape: " ++ infoShape e.dims
      ++ py% "\n    comment: " ++ e.comment ++ py% "\n")

/-- sofar/sofa.py:344: names of selections -/
def selections : List Str :=
  [py% "all", py% "mandatory", py% "optional", py% "read only", py% "data"]

/-- sofar/sofa.py:344-403: text without the title -/
def infoBody (show_ : Inp → Str) (o : Obj) (sel : Str) : Except Exc Str :=
  if selections.contains sel then
    match concatE (infoKey o sel) o.keys with
    | .error e => .error e
    | .ok t => .ok (py% "showing " ++ sel ++ py% " entries : type (shape), flags\n\n" ++ t)
  else if o.keys.contains sel then concatE (infoEntry show_ o) (o.keys.filter (fun k => Str.hasSub k sel))
  else .error (.valueError (py% "info='" ++ sel ++ py% "' is invalid"))

/-- sofar/sofa.py:331-335 -/
def infoDeprecated : Event :=
  .warn (py% "Sofa.info() will be deprecated in sofar 1.3.0 The conventions are now documented at https://sofar.readthedocs.io/en/stable/resources/conventions.html")

/-- sofar/sofa.py:308-407 `Sofa.info`. The object always has the attribute `_convention` (339-340 never applies to
objects made by the constructor). -/
def info (env : Env) (show_ : Inp → Str) (o : Obj) (sel : Str) : Ret Unit :=
  match objTitle env o with
  | .error x => ⟨.error x, o, [infoDeprecated]⟩
  | .ok title =>
    match infoBody show_ o sel with
    | .error x => ⟨.error x, o, [infoDeprecated]⟩
    | .ok t => ⟨.ok (), o, [infoDeprecated, .print (title ++ t)]⟩

/-! ## SofaStream -/

/-- `getncattr(name)` of the file or of a variable (sofar/sofastream.py:155, 166, 245-247) -/
def ncGet (attrs : Dict Val) (name : Str) : Except Exc Val :=
  match Dict.get? attrs name with
  | some v => .ok v
  | none => .error (.attributeError (py% "NetCDF: Attribute not found"))

/-- text of an attribute in the file on which `startswith` or `in` is called (sofar/sofastream.py:155-174). Other
types are not modelled. -/
def ncTextAttr (attrs : Dict Val) (name : Str) : Except Exc Str :=
  match ncGet attrs name with
  | .error e => .error e
  | .ok v =>
    match v.asStr with
    | some s => .ok s
    | none => .error .unmodelled

/-- sofar/sofastream.py:163-174: type of the positions of receivers or emitters -/
def streamType (f : NcFile) (variable_ : Str) : Except Exc Str :=
  match Dict.get? f.vars variable_ with
  | none => .error (.keyError variable_)
  | some x => ncTextAttr x.attrs (py% "Type")

/-- sofar/sofastream.py:185-191: the loop over the dimensions -/
def streamDimsText (d : Dict Str) : Dict NcDim → Str
  | [] => []
  | (key, n) :: l => dimText d key n.size ++ py% "\n" ++ streamDimsText d l

/-- sofar/sofastream.py:121-193 `SofaStream.list_dimensions`: the printed text -/
def streamListDimensions (f : NcFile) : Except Exc Str :=
  match ncTextAttr f.attrs (py% "DataType") with
  | .error e => .error e
  | .ok t =>
    match streamType f (py% "ReceiverPosition") with
    | .error e => .error e
    | .ok r =>
      match streamType f (py% "EmitterPosition") with
      | .error e => .error e
      | .ok em =>
        match meaningN t with
        | none => .error .unboundLocal
        | some n =>
          .ok (streamDimsText (meanings n (meaningRE (py% "receiver") r) (meaningRE (py% "emitter") em)) f.dims)

/-- sofar/sofastream.py:274 `str(data[:][0])` of a variable with a single element -/
def firstText (env : Env) (a : Arr) : Except Exc Str :=
  match a.shape, a.data with
  | [], _ => .error .indexError
  | _ :: [], e :: _ => .ok (showVal env (.num a.kind e))
  | _ :: s, l => .ok (showVal env (.arr ⟨a.kind, s, l⟩))

/-- sofar/sofastream.py:291-293: text for one attribute of a variable; `+` raises TypeError for numbers. -/
def streamAttrText (nc : Nc) (name : Str) (x : NcVar) (a : Str) : Except Exc Str :=
  match variableAttr nc x a with
  | .error e => .error e
  | .ok (.value (.str s)) => .ok (name ++ py% "_" ++ a ++ py% " : " ++ s ++ py% "\n")
  | .ok _ => .error (.typeError (py% "can only concatenate str to str"))

/-- sofar/sofastream.py:258-293: text for one variable -/
def streamVarText (env : Env) (nc : Nc) (p : Str × NcVar) : Except Exc Str :=
  let name := Str.replaceChar p.1 '.' '_'
  match (if p.2.data.size = 1 then (firstText env p.2.data).map (· ++ py% "\n")
      else .ok (shapeText p.2.dims p.2.data.shape ++ (if p.2.data.size < 7 then valuesText env p.2.data else []))) with
  | .error e => .error e
  | .ok t =>
    match concatE (streamAttrText nc name p.2) (Dict.keys p.2.attrs) with
    | .error e => .error e
    | .ok s => .ok (name ++ py% " : " ++ t ++ s)

/-- sofar/sofastream.py:225-301 `SofaStream.inspect`: the printed text (with an additional line break, it is also
written to the text file) -/
def streamInspect (env : Env) (nc : Nc) (f : NcFile) : Except Exc Str :=
  match ncGet f.attrs (py% "SOFAConventions"), ncGet f.attrs (py% "SOFAConventionsVersion"),
      ncGet f.attrs (py% "Version") with
  | .ok c, .ok v, .ok s =>
    match concatE (streamVarText env nc) f.vars with
    | .error e => .error e
    | .ok t =>
      .ok (titleText (showVal env c) (showVal env v) (showVal env s)
        ++ (f.attrs.flatMap (fun p => py% "GLOBAL_" ++ p.1 ++ py% " : " ++ showVal env p.2 ++ py% "\n")) ++ t)
  | .error e, _, _ => .error e
  | _, .error e, _ => .error e
  | _, _, .error e => .error e

/-! ## Sofa.protected -/

/-- sofar/sofa.py:628-635: value of the property `protected`. The setter (645-646) stores it through `__setattr__`
(152-156), which makes a numpy scalar of it. -/
def getProtected (o : Obj) : Val := .num .b (.num (.fin (if o.prot then 1 else 0)))

end Sofar
