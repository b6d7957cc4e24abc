import Verif.Model.Init
import Verif.Model.Index
/-!
# sofar/sofa.py:731-894: upgrading an object to another convention

Axes to be moved are given as two non negative numbers (in the file also lists of numbers are possible, not
modelled). The version of the object is compared as text.
-/
namespace Sofar

/-- sofar/sofa.py:774, 777, 791: the version is contained in the list -/
def versionIn (v : Val) (l : List Str) : Bool :=
  match v.asStr with
  | some s => l.contains s
  | none => false

/-- sofar/sofa.py:771-779: the convention is deprecated, or there is an upgrade for its version -/
def isOutdated (env : Env) (c : Str) (v : Val) : Bool :=
  Dict.has env.deprecations c ||
    match Dict.get? env.upgrade c with
    | none => false
    | some u => u.fromTo.any (fun ft => versionIn v ft.1)

/-- sofar/sofa.py:800-805: text with all targets; a target without underscore raises IndexError -/
def targetsText : List Str → Except Exc Str
  | [] => .ok []
  | t :: l =>
    match Str.splitChar '_' t with
    | n :: v :: _ =>
      match targetsText l with
      | .error e => .error e
      | .ok s => .ok (py% "- " ++ n ++ py% " v" ++ v ++ py% "\n" ++ s)
    | _ => .error .indexError

/-- sofar/sofa.py:850-855: add dimensions and move the axis. Python numbers become arrays, `str` has no dimensions
(AttributeError) and `numpy.str_` can not be indexed (TypeError). -/
def moveData (v : Val) (axes : Option (Nat × Nat)) : Except Exc Val :=
  match axes with
  | none => .ok v
  | some (s, d) =>
    match v with
    | .arr a => .ok (.arr ((a.withShape (Arr.padOnes (max s d + 1) a.shape)).moveaxis s d))
    | .num k e => .ok (.arr ((Arr.mk k (Arr.padOnes (max s d + 1) []) [e]).moveaxis s d))
    | .npstr _ => .error (.typeError (py% "string indices must be integers"))
    | _ => .error (.attributeError (py% "ndim"))

/-- sofar/sofa.py:842, 856-864: information on moved data -/
def moveText (src tgt : Str) (m : Move) : Str :=
  py% "- Moving " ++ src ++ py% " to " ++ tgt ++ py% "." ++
  (match m.moveaxis with
    | none => []
    | some (s, d) => py% " Moving axis " ++ Str.ofNat s ++ py% " to " ++ Str.ofNat d ++ py% ".") ++
  (match m.deprecatedDims with
    | none => []
    | some l => py% " WARNING: Dimensions " ++ Str.join (py% ", ") l ++ py% " are now deprecated.")

/-- sofar/sofa.py:838-867: move the data of one entry -/
def moveOne (o : Obj) (source : Str) (m : Move) : Ret Unit :=
  let src := toSofar source
  let tgt := toSofar m.target
  match o.getAttr src with
  | .error e => ⟨.error e, o, []⟩
  | .ok data =>
    let r := delAttr o src
    match r.out with
    | .error e => ⟨.error e, r.obj, []⟩
    | .ok _ =>
      match moveData data m.moveaxis with
      | .error e => ⟨.error e, r.obj, []⟩
      | .ok v =>
        let r2 := setAttr r.obj tgt (.val v)
        match r2.out with
        | .error e => ⟨.error e, r2.obj, []⟩
        | .ok _ => ⟨.ok (), r2.obj, [.print (moveText src tgt m)]⟩

/-- sofar/sofa.py:838-867: loop over all data that is moved -/
def moveAll : Dict Move → Obj → Ret Unit
  | [], o => ⟨.ok (), o, []⟩
  | (s, m) :: l, o =>
    let r := moveOne o s m
    match r.out with
    | .error e => ⟨.error e, r.obj, r.ev⟩
    | .ok _ =>
      let q := moveAll l r.obj
      ⟨q.out, q.obj, r.ev ++ q.ev⟩

/-- sofar/sofa.py:872-876: loop over all data that is removed -/
def removeAll : List Str → Obj → Ret Unit
  | [], o => ⟨.ok (), o, []⟩
  | t :: l, o =>
    let r := delAttr o (toSofar t)
    match r.out with
    | .error e => ⟨.error e, r.obj, []⟩
    | .ok _ =>
      let q := removeAll l r.obj
      ⟨q.out, q.obj, .print (py% "- Deleting " ++ toSofar t ++ py% ".") :: q.ev⟩

/-- sofar/sofa.py:828-836: write convention, versions and data type of the target convention -/
def putTarget : List Str → Obj → Except Exc Unit × Obj
  | [], o => (.ok (), o)
  | k :: l, o =>
    match Dict.get? o.conv k with
    | none => (.error (.keyError k), o)
    | some e =>
      let r := setAttr o k e.default
      match r.out with
      | .error x => (.error x, r.obj)
      | .ok _ => putTarget l r.obj

/-- sofar/sofa.py:828-831 -/
def targetKeys : List Str :=
  [py% "GLOBAL_SOFAConventions", py% "GLOBAL_SOFAConventionsVersion", py% "GLOBAL_Version", py% "GLOBAL_DataType"]

/-- text of a default value (sofar/sofa.py:823-825); only the text of strings is modelled -/
def defaultText (env : Env) : Inp → Str
  | .val v => pyStr env v
  | _ => []

/-- sofar/sofa.py:889-894: the final verification -/
def upgradeVerify (env : Env) (o : Obj) (arg : VerifyArg) : Ret (Option (List Str)) :=
  let go : Ret (Option (List Str)) :=
    let r := verify env o .raise .write
    match r.out with
    | .error e => ⟨.error e, r.obj, r.ev⟩
    | .ok _ => ⟨.ok none, r.obj, r.ev⟩
  match arg with
  | .yes => go
  | .no => ⟨.ok none, o, []⟩
  | .auto =>
    match o.getAttr (py% "GLOBAL_SOFAConventionsVersion") with
    | .error e => ⟨.error e, o, []⟩
    | .ok v =>
      match v.asStr with
      | none => ⟨.error (.typeError (py% "expected string")), o, []⟩
      | some s =>
        match isStable s with
        | .error e => ⟨.error e, o, []⟩
        | .ok false => ⟨.ok none, o, []⟩
        | .ok true => go

/-- sofar/sofa.py:837-894: move and remove data, add missing data and verify -/
def upgradeData (env : Env) (o : Obj) (u : UpgradeDef) (arg : VerifyArg) : Ret (Option (List Str)) :=
  let r1 := moveAll u.move o
  match r1.out with
  | .error e => ⟨.error e, r1.obj, r1.ev⟩
  | .ok _ =>
    let ev1 := r1.ev ++ (if u.move.isEmpty then [.print (py% "- No data to move")] else [])
    let r2 := removeAll u.remove r1.obj
    match r2.out with
    | .error e => ⟨.error e, r2.obj, ev1 ++ r2.ev⟩
    | .ok _ =>
      let ev2 := ev1 ++ r2.ev ++ (if u.remove.isEmpty then [.print (py% "- No data to remove")] else [])
      let r3 := addMissing env r2.obj true false true
      match r3.out with
      | .error e => ⟨.error e, r3.obj, ev2 ++ r3.ev⟩
      | .ok _ =>
        let ev3 := ev2 ++ r3.ev ++ (match u.message with | none => [] | some m => [.print m])
        let r4 := upgradeVerify env { r3.obj with prot := true } arg
        ⟨r4.out, r4.obj, ev3 ++ r4.ev⟩

/-- sofar/sofa.py:815-836: load the target convention and start the upgrade -/
def upgradeTo (env : Env) (o : Obj) (c : Str) (v sv : Val) (target : Str) (u : UpgradeDef) (arg : VerifyArg) :
    Ret (Option (List Str)) :=
  match Str.splitChar '_' target with
  | [ct, vt] =>
    match loadConvention env ct (.exact vt) with
    | .error e => ⟨.error e, o, []⟩
    | .ok conv =>
      let o1 := { o with conv := conv }
      match Dict.get? conv (py% "GLOBAL_Version") with
      | none => ⟨.error (.keyError (py% "GLOBAL_Version")), o1, []⟩
      | some e =>
        let ev := [.print (py% "Upgrading " ++ c ++ py% " v" ++ pyStr env v ++ py% " to " ++ ct ++ py% " v" ++ vt ++
          py% " (SOFA version " ++ pyStr env sv ++ py% " to " ++ defaultText env e.default ++ py% ")")]
        let r := putTarget targetKeys { o1 with prot := false }
        match r.1 with
        | .error x => ⟨.error x, r.2, ev⟩
        | .ok _ =>
          let q := upgradeData env r.2 u arg
          ⟨q.out, q.obj, ev ++ q.ev⟩
  | _ => ⟨.error (.valueError (py% "values to unpack")), o, []⟩

/-- sofar/sofa.py:731-894 `Sofa.upgrade_convention`. The result is the returned list of targets or None. -/
def upgradeConvention (env : Env) (o : Obj) (target : Option Str) (arg : VerifyArg) : Ret (Option (List Str)) :=
  match resetConvention env o with
  | .error e => ⟨.error e, o, []⟩
  | .ok o1 =>
    match o1.getAttr (py% "GLOBAL_SOFAConventions"), o1.getAttr (py% "GLOBAL_SOFAConventionsVersion"),
        o1.getAttr (py% "GLOBAL_Version") with
    | .ok cv, .ok v, .ok sv =>
      let c := pyStr env cv
      if isOutdated env c v then
        match Dict.get? env.upgrade c with
        | none =>
          ⟨.ok none, o1, [.print (py% "Convention " ++ c ++ py% " v" ++ pyStr env v ++
            py% " is outdated but is missing upgrade rules")]⟩
        | some up =>
          match up.fromTo.find? (fun ft => versionIn v ft.1) with
          | none => ⟨.error .unboundLocal, o1, []⟩
          | some (_, targets, tid) =>
            match target with
            | some t =>
              if targets.contains t then
                match Dict.get? up.defs tid with
                | none => ⟨.error (.keyError tid), o1, []⟩
                | some u => upgradeTo env o1 c v sv t u arg
              else
                match targetsText targets with
                | .error e => ⟨.error e, o1, [.print (t ++ py% " is invalid.")]⟩
                | .ok s => ⟨.ok (some targets), o1, [.print (t ++ py% " is invalid."),
                    .print (c ++ py% " v" ++ pyStr env v ++ py% " can be upgraded to:\n" ++ s)]⟩
            | none =>
              match targetsText targets with
              | .error e => ⟨.error e, o1, []⟩
              | .ok s => ⟨.ok (some targets), o1,
                  [.print (c ++ py% " v" ++ pyStr env v ++ py% " can be upgraded to:\n" ++ s)]⟩
      else ⟨.ok none, o1, [.print (py% "Convention " ++ c ++ py% " v" ++ pyStr env v ++ py% " is up to date")]⟩
    | .error e, _, _ => ⟨.error e, o1, []⟩
    | .ok _, .error e, _ => ⟨.error e, o1, []⟩
    | .ok _, .ok _, .error e => ⟨.error e, o1, []⟩

end Sofar
