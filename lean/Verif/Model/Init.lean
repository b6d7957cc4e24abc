import Verif.Model.Verify
/-!
# Creating objects, verify, add_missing, get_dimension
-/
namespace Sofar

/-- sofar/sofa.py:1741-1745: default value of a new object. Lists become arrays with the number of dimensions
given by the convention. -/
def initDefault (e : Entry) : Except Exc Inp :=
  match e.default with
  | .list a =>
    match e.dims with
    | none => .error (.attributeError (py% "split"))
    | some d =>
      let nd := (firstAlt d).length
      if nd = 0 then .error (.attributeError (py% "ndim"))
      else .ok (.val (.arr (a.withShape (Arr.atleastNdShape nd a.shape))))
  | .ragged => .error (.valueError (py% "setting an array element with a sequence."))
  | d => .ok d

/-- sofar/sofa.py:1734-1748: loop over the convention -/
def addDefaults (onlyMandatory : Bool) : Dict Entry → Obj → Except Exc Obj
  | [], o => .ok o
  | (k, e) :: l, o =>
    if ! mandatory e.flags && onlyMandatory then addDefaults onlyMandatory l o
    else
      match initDefault e with
      | .error x => .error x
      | .ok d =>
        let r := setAttr o k d
        match r.out with
        | .error x => .error x
        | .ok _ => addDefaults onlyMandatory l r.obj

/-- sofar/sofa.py:1750-1761: API and date specific fields -/
def stamps (env : Env) : List (Str × Str) :=
  [(py% "GLOBAL_DateCreated", env.now), (py% "GLOBAL_DateModified", env.now),
   (py% "GLOBAL_APIName", py% "sofar SOFA API for Python (pyfar.org)"),
   (py% "GLOBAL_APIVersion", env.apiVersion), (py% "GLOBAL_ApplicationName", py% "Python"),
   (py% "GLOBAL_ApplicationVersion", env.appVersion)]

/-- sofar/sofa.py:1753-1761: write the fields (the object is not protected) -/
def putStamps (l : List (Str × Str)) (o : Obj) : Obj :=
  { o with attrs := l.foldl (fun d p => Dict.put d p.1 (.str p.2)) o.attrs }

/-- sofar/sofa.py:1723-1762 `Sofa._convention_to_sofa` -/
def conventionToSofa (env : Env) (onlyMandatory : Bool) (o : Obj) : Except Exc Obj :=
  match addDefaults onlyMandatory o.conv o with
  | .error x => .error x
  | .ok o1 => .ok { putStamps (stamps env) o1 with prot := true }

/-- the parameter `verify` of `Sofa.__init__` (sofar/sofa.py:92-93, 111) -/
inductive VerifyArg where
  | auto | yes | no
deriving DecidableEq

/-- sofar/sofa.py:97-103: the object before the default values are added -/
def emptyObj (conv : Dict Entry) : Obj where
  attrs := []
  conv := conv
  custom := none
  dims := none
  api := none
  readOnly := .ofList ((conv.filter (fun p => readOnlyFlag p.2.flags)).map Prod.fst)
  prot := false

/-- sofar/sofa.py:109-110: the version string of the convention. A default that is not a string is an error in all cases
(the code only fails if it parses the version, i.e., not for complete objects with `verify=True`). -/
def conventionVersion (conv : Dict Entry) : Except Exc Str :=
  match Dict.get? conv (py% "GLOBAL_SOFAConventionsVersion") with
  | none => .error (.keyError (py% "GLOBAL_SOFAConventionsVersion"))
  | some e =>
    match e.default with
    | .val (.str s) => .ok s
    | _ => .error (.typeError (py% "expected string"))

/-- Result of the constructor: an object or an exception, and the side effects.
(sofar/sofa.py:92-131, sofar/io.py:13-60) -/
structure Created where
  out : Except Exc Obj
  ev : List Event

/-- the verification of a new object; it has no custom data so that no reference object is created
(sofar/sofa.py:112-116) -/
def verifyNew (env : Env) (o : Obj) (ih : IH) (mode : Mode) : Ret (Option Str) :=
  verifyG (fun _ _ => ⟨.error .unmodelled, []⟩) env o ih mode

/-- sofar/sofa.py:121-126 -/
def preliminaryWarning (version : Str) : Event :=
  .warn (py% "Detected preliminary conventions version " ++ version ++ py% ". Upgrade data to version >= 1.0 if possible. Preliminary conventions might change in the future, which could invalidate data that was written before the changes.")

/-- sofar/sofa.py:114-128: verification or warning at the end of the constructor -/
def finishInit (env : Env) (onlyMandatory : Bool) (version : Str) (verify : Bool) (o : Obj) : Created :=
  if verify && ! onlyMandatory then
    let r := verifyNew env o .raise .read
    match r.out with
    | .error x => ⟨.error x, r.ev⟩
    | .ok _ => ⟨.ok { r.obj with prot := true }, r.ev⟩
  else
    match isStable version with
    | .error x => ⟨.error x, []⟩
    | .ok true => ⟨.ok { o with prot := true }, []⟩
    | .ok false => ⟨.ok { o with prot := true }, [preliminaryWarning version]⟩

/-- sofar/sofa.py:92-131 `Sofa.__init__` for a convention name -/
def initSofa (env : Env) (convention : Str) (onlyMandatory : Bool) (version : VersionArg) (verify : VerifyArg) :
    Created :=
  match loadConvention env convention version with
  | .error x => ⟨.error x, []⟩
  | .ok conv =>
    match conventionToSofa env onlyMandatory (emptyObj conv) with
    | .error x => ⟨.error x, []⟩
    | .ok o =>
      match conventionVersion conv with
      | .error x => ⟨.error x, []⟩
      | .ok v =>
        match verify with
        | .yes => finishInit env onlyMandatory v true o
        | .no => finishInit env onlyMandatory v false o
        | .auto =>
          match isStable v with
          | .error x => ⟨.error x, []⟩
          | .ok b => finishInit env onlyMandatory v b o

/-- sofar/sofa.py:1156-1158: names of the convention of a new object of the same convention and version -/
def referenceNames (env : Env) (o : Obj) : Inner :=
  match o.getAttr (py% "GLOBAL_SOFAConventions") with
  | .error x => ⟨.error x, []⟩
  | .ok c =>
    match o.getAttr (py% "GLOBAL_SOFAConventionsVersion") with
    | .error x => ⟨.error x, []⟩
    | .ok v =>
      match c.asStr, v.asStr with
      | some c, some v =>
        let r := initSofa env c false (if v = py% "latest" then .latest else .exact v) .auto
        match r.out with
        | .error x => ⟨.error x, r.ev⟩
        | .ok n => ⟨.ok (Dict.keys n.conv), r.ev⟩
      | none, _ => ⟨.error (.typeError (py% "Convention must be a string")), []⟩
      | some _, none => ⟨.error (.valueError (py% "Version not found.")), []⟩

/-- sofar/sofa.py:896-1425 `Sofa.verify` -/
def verify (env : Env) (o : Obj) (ih : IH) (mode : Mode) : Ret (Option Str) :=
  verifyG referenceNames env o ih mode

/-- sofar/sofa.py:521-529: loop of `add_missing`; gives the list of added data as text -/
def addMissingLoop (addMandatory addOptional : Bool) (keys : List Str) : Dict Entry → Obj → Except Exc Str × Obj
  | [], o => (.ok [], o)
  | (k, e) :: l, o =>
    let m := mandatory e.flags
    if ! keys.contains k && ((m && addMandatory) || (! m && addOptional)) then
      let r := setAttr o k e.default
      match r.out with
      | .error x => (.error x, r.obj)
      | .ok _ =>
        let q := addMissingLoop addMandatory addOptional keys l r.obj
        match q.1 with
        | .error x => (.error x, q.2)
        | .ok s =>
          (.ok (py% "- " ++ k ++ (if m then py% " (mandatory)\n" else py% " (optional)\n") ++ s), q.2)
    else addMissingLoop addMandatory addOptional keys l o

/-- sofar/sofa.py:494-537 `Sofa.add_missing` -/
def addMissing (env : Env) (o : Obj) (addMandatory addOptional verbose : Bool) : Ret Unit :=
  match resetConvention env o with
  | .error x => ⟨.error x, o, []⟩
  | .ok o1 =>
    let r := addMissingLoop addMandatory addOptional o1.keys o1.conv { o1 with prot := false }
    match r.1 with
    | .error x => ⟨.error x, r.2, []⟩
    | .ok s =>
      let added := py% "Added the following missing data with their default values:\n" ++ s
      ⟨.ok (), { r.2 with prot := true },
        if verbose then
          [.print (if added.contains '-' then added else py% "All mandatory data contained.")]
        else []⟩

/-- sofar/sofa.py:293-306 `Sofa._update_dimensions` -/
def updateDimensions (env : Env) (o : Obj) : Ret Unit :=
  let r := verify env o .ret .write
  match r.out with
  | .error x => ⟨.error x, r.obj, r.ev⟩
  | .ok none => ⟨.ok (), r.obj, r.ev⟩
  | .ok (some issues) =>
    if Str.hasSub issues (py% "data of wrong type") || Str.hasSub issues (py% "variables of wrong shape")
        || r.obj.api.isNone then
      ⟨.error (.valueError (py% "Dimensions can not be shown because variables of wrong type or shape were detected.")),
        r.obj, r.ev⟩
    else ⟨.ok (), r.obj, r.ev⟩

/-- sofar/sofa.py:265-291 `Sofa.get_dimension`. Without `_api` the lookup raises AttributeError. -/
def getDimension (env : Env) (o : Obj) (dimension : Str) : Ret Nat :=
  let r := updateDimensions env o
  match r.out with
  | .error x => ⟨.error x, r.obj, r.ev⟩
  | .ok _ =>
    match r.obj.api with
    | none => ⟨.error (.attributeError (py% "_api")), r.obj, r.ev⟩
    | some api =>
      match Dict.get? api dimension with
      | none => ⟨.error (.valueError (dimension ++ py% " is not a valid dimension.")), r.obj, r.ev⟩
      | some n => ⟨.ok n, r.obj, r.ev⟩

end Sofar
