import Verif.Model.Conventions
/-!
# Attribute access of the Sofa object, custom data, convention reset (sofar/sofa.py)
-/
namespace Sofar

/-- sofar/sofa.py:156 `value.flatten()[0]` of an array with a single element. -/
def scalarOf (k : Kind) (e : Elem) : Val :=
  match k, e with
  | .U, .str s => .npstr s
  | .O, .obj t => .obj t
  | k, e => .num k e

/-- sofar/sofa.py:151-156: conversion of the value in `Sofa.__setattr__` (for names other than `protected`).
A single number becomes a numpy scalar via `np.atleast_2d(value).flatten()[0]`. -/
def normalise : Inp → Except Exc Val
  | .val v => .ok v
  | .pybool b => .ok (.num .b (.num (.fin (if b then 1 else 0))))
  | .list a =>
    let a2 := a.withShape (Arr.atleast2 a.shape)
    if a2.size = 1 then
      match a2.data with
      | e :: _ => .ok (scalarOf a2.kind e)
      | [] => .ok (.arr a2)
    else .ok (.arr a2)
  | .ragged => .error (.valueError (py% "setting an array element with a sequence."))

/-- sofar/sofa.py:133-158 `Sofa.__setattr__` and 637-646 (`protected.setter`). Assigning to private names from
outside of the class is not modelled; `list_dimensions` is a property without setter (that evaluating
`hasattr` runs this property is not modelled). -/
def setAttr (o : Obj) (name : Str) (value : Inp) : Ret Unit :=
  if o.prot && ! o.hasAttr name then
    ⟨.error (.typeError (name ++ py% " is an invalid attribute")), o, []⟩
  else if o.readOnly.has name && o.prot then
    ⟨.error (.typeError (name ++ py% " is a read only attribute.")), o, []⟩
  else if name = py% "protected" then
    match value with
    | .pybool b => ⟨.ok (), { o with prot := b }, []⟩
    | _ => ⟨.error (.valueError (py% "Sofa.protected can only be True or False")), o, []⟩
  else
    match normalise value with
    | .error e => ⟨.error e, o, []⟩
    | .ok v =>
      if name = py% "list_dimensions" then ⟨.error (.attributeError name), o, []⟩
      else if isPrivate name then ⟨.error .unmodelled, o, []⟩
      else ⟨.ok (), { o with attrs := Dict.put o.attrs name v }, []⟩

/-- sofar/sofa.py:173-178: remove the attribute and the custom entry. -/
def removeAttr (o : Obj) (name : Str) : Ret Unit :=
  if Dict.has o.attrs name then
    ⟨.ok (), { o with attrs := Dict.del o.attrs name,
                      custom := o.custom.map (fun c => Dict.del c name) }, []⟩
  else if isPrivate name then ⟨.error .unmodelled, o, []⟩
  else ⟨.error (.attributeError name), o, []⟩

/-- sofar/sofa.py:160-181 `Sofa.__delattr__` (and 612-626 `Sofa.delete`). -/
def delAttr (o : Obj) (name : Str) : Ret Unit :=
  if ! o.hasAttr name then
    ⟨.error (.typeError (name ++ py% " is not an attribute")), o, []⟩
  else if ! o.prot then removeAttr o name
  else
    match Dict.get? o.conv name with
    | none => ⟨.error (.keyError name), o, []⟩
    | some e =>
      if ! mandatory e.flags then removeAttr o name
      else ⟨.error (.typeError (name ++ py% " is a mandatory attribute that can not be deleted")), o, []⟩

/-- The dimension letters defined by AES69 (sofar/sofa.py:679, 710). -/
def standardDims : Str := py% "ERMNCIS"

/-- sofar/sofa.py:708-712: lower case letters indicate custom dimensions. -/
def customDims (dims : Str) : Str :=
  dims.map (fun d => if standardDims.contains (Str.upperC d) then Str.upperC d else Str.lowerC d)

/-- The entry that is written to `_custom` (sofar/sofa.py:719-724). -/
def customEntry (flags dims : Option Str) (dtype : Str) : Entry :=
  { flags := flags, dims := dims, typ := dtype, default := .val (.obj 0), comment := [] }

/-- sofar/sofa.py:714-725: register a custom entry that is not contained in the convention. -/
def registerCustom (o : Obj) (key : Str) (e : Entry) : Obj :=
  if Dict.has o.conv key then o
  else { o with custom := some (Dict.put (o.custom.getD []) key e), conv := Dict.put o.conv key e }

/-- sofar/sofa.py:687-729 `Sofa._add_custom_api_entry`. If the value can not be converted, the exception leaves
the method before `protected` is set again. The assignments to `self.protected` are modelled as
unconditional (a convention that declares `protected` as read only data is not considered). -/
def addCustomApiEntry (o : Obj) (key : Str) (value : Inp) (flags dims : Option Str) (dtype : Str) : Ret Unit :=
  let o1 := registerCustom { o with prot := false } key (customEntry flags (dims.map customDims) dtype)
  let r := setAttr o1 key value
  match r.out with
  | .error e => ⟨.error e, r.obj, r.ev⟩
  | .ok _ => ⟨.ok (), { r.obj with prot := true }, r.ev⟩

/-- sofar/sofa.py:654-675: the input checks of `Sofa._add_entry`; `none` if everything is fine. -/
def checkEntry (o : Obj) (name dtype : Str) (dims : Option Str) : Option Exc :=
  if o.hasAttr name then some (.valueError (py% "Entry " ++ name ++ py% " already exists"))
  else if ! [py% "attribute", py% "double", py% "string"].contains dtype then
    some (.valueError (py% "dtype is " ++ dtype ++ py% " but must be attribute, double, or string"))
  else if name.contains '_' && dtype != py% "attribute" then
    some (.valueError (py% "underscores '_' in the name are only allowed for attributes"))
  else if dtype = py% "attribute" ∧ (name.count '_' ≠ 1 ∨ (Str.startsWith name (py% "Data_") = true ∧
      (name.count '_' = 0 ∨ 2 < name.count '_'))) then
    some (.valueError (py% "The name of " ++ name ++ py% " must have the form VariableName_AttributeName"))
  else if dtype = py% "attribute" ∧ Str.startsWith name (py% "GLOBAL_") = false ∧
      Dict.has o.conv ((Str.beforeLast '_' name).getD []) = false then
    some (.valueError (py% "Adding Attribute " ++ name ++ py% " requires variable"))
  else if dims.isNone && dtype != py% "attribute" then
    some (.valueError (py% "dimensions must be provided for entries of dtype double and string"))
  else none

/-- sofar/sofa.py:676-682: one warning per letter that is not a standard dimension. -/
def dimWarnings (dims : Option Str) : List Event :=
  match dims with
  | none => []
  | some d =>
    ((Str.upper d).filter (fun c => ! standardDims.contains c)).map
      (fun _ => .warn (py% "Added custom dimension " ++ Str.upper d ++ py% " to SOFA object"))

/-- sofar/sofa.py:648-685 `Sofa._add_entry` -/
def addEntry (o : Obj) (name : Str) (value : Inp) (dtype : Str) (dims : Option Str) : Ret Unit :=
  match checkEntry o name dtype dims with
  | some e => ⟨.error e, o, []⟩
  | none =>
    let r := addCustomApiEntry o name value none (dims.map Str.upper) dtype
    ⟨r.out, r.obj, dimWarnings dims ++ r.ev⟩

/-- sofar/sofa.py:539-584 `Sofa.add_variable` -/
def addVariable (o : Obj) (name : Str) (value : Inp) (dtype : Str) (dims : Option Str) : Ret Unit :=
  addEntry o name value dtype dims

/-- sofar/sofa.py:586-610 `Sofa.add_attribute` -/
def addAttribute (o : Obj) (name : Str) (value : Inp) : Ret Unit :=
  addEntry o name value (py% "attribute") none

/-- `str(v)` (sofar/sofa.py:1643) -/
def pyStr (env : Env) (v : Val) : Str :=
  match v.asStr with
  | some s => s
  | none => env.fmt v

/-- sofar/sofa.py:1652-1660: remove custom entries that are part of the convention, add the others to it. -/
def mergeCustom (conv : Dict Entry) (custom : Dict Entry) : Dict Entry × Dict Entry :=
  let custom' := custom.filter (fun p => ! Dict.has conv p.1)
  (custom'.foldl (fun d p => Dict.put d p.1 p.2) conv, custom')

/-- sofar/sofa.py:1627-1660 `Sofa._reset_convention`. A convention name that is not a string is never found
(ValueError). -/
def resetConvention (env : Env) (o : Obj) : Except Exc Obj :=
  match o.getAttr (py% "GLOBAL_SOFAConventions") with
  | .error e => .error e
  | .ok c =>
    match o.getAttr (py% "GLOBAL_SOFAConventionsVersion") with
    | .error e => .error e
    | .ok v =>
      match c.asStr with
      | none => .error (.valueError (py% "Convention does not exist"))
      | some c =>
        let v := pyStr env v
        match verifyConvention env v c with
        | .error e => .error e
        | .ok _ =>
          match loadConvention env c (.exact v) with
          | .error e => .error e
          | .ok conv =>
            match o.custom with
            | none => .ok { o with conv := conv }
            | some cust =>
              let m := mergeCustom conv cust
              .ok { o with conv := m.1, custom := some m.2 }

end Sofar
