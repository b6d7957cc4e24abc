import Verif.Model.NetCDF
import Verif.Model.Init
/-!
# Reading and writing SOFA files (sofar/io.py)
-/
namespace Sofar

/-! ## File names -/

/-- sofar/io.py:115, 266: the last component of a path with the suffix replaced by, or extended with `.sofa`
(`pathlib.PurePath.with_suffix` of Python < 3.14): a suffix starts at the last dot, which is neither the first nor the
last character. -/
def suffixedName (name : Str) : Str :=
  match Str.beforeLast '.' name with
  | none => name ++ py% ".sofa"
  | some stem =>
    if stem ≠ [] ∧ stem.length + 1 < name.length then stem ++ py% ".sofa" else name ++ py% ".sofa"

/-- sofar/io.py:115, 266 `pathlib.Path(filename)`: components of a (POSIX) path without empty components and dots -/
def pathParts (filename : Str) : List Str :=
  (Str.splitChar '/' filename).filter (fun p => p ≠ [] ∧ p ≠ py% ".")

/-- sofar/io.py:115, 266 `pathlib.Path(filename).with_suffix('.sofa')` as text. Paths starting with exactly two slashes
are treated like absolute paths. -/
def withSuffix (filename : Str) : Except Exc Str :=
  match (pathParts filename).getLast? with
  | none => .error (.valueError (py% "has an empty name"))
  | some name =>
    let root := if Str.startsWith filename (py% "/") then py% "/" else []
    .ok (root ++ Str.join (py% "/") ((pathParts filename).dropLast ++ [suffixedName name]))

/-! ## Writing -/

/-- `np.array(value)` (sofar/io.py:373, 376); dictionaries and other objects give arrays of kind `O`. -/
def toArr : Val → Arr
  | .str s => ⟨.U, [], [.str s]⟩
  | .npstr s => ⟨.U, [], [.str s]⟩
  | .num k e => ⟨k, [], [e]⟩
  | .arr a => a
  | .dict => ⟨.O, [], [.obj 0]⟩
  | .obj t => ⟨.O, [], [.obj t]⟩

/-- length of the longest text (sofar/io.py:376, only used by numpy if `S` is zero) -/
def longest : List Elem → Nat
  | [] => 0
  | .str s :: l => max s.length (longest l)
  | _ :: l => longest l

/-- all elements are texts with ASCII characters (sofar/io.py:376) -/
def asciiElems : List Elem → Except Exc Unit
  | [] => .ok ()
  | .str s :: l => if Str.isAscii s then asciiElems l else .error .unicodeError
  | _ :: _ => .error .unmodelled

/-- number of characters of `np.array(value, dtype=f"S{S}")` (sofar/io.py:376); for `S = 0` numpy uses the longest text
and at least one character -/
def charWidth (S : Nat) (l : List Elem) : Nat := if S = 0 then max 1 (longest l) else S

/-- sofar/io.py:342-385 `_format_value_for_netcdf` (for variables), together with `stringtochar` (328) for text: kind and
array. Numbers in string variables are not modelled. -/
def formatFor (value : Val) (dtype : Str) (dims : Str) (S : Nat) (key : Str) : Except Exc (Kind × Arr) :=
  let a := toArr value
  let shape := Arr.atleastNdShape dims.length a.shape
  if dtype = py% "double" then .ok (.f, a.withShape shape)
  else if dtype = py% "string" then
    match asciiElems a.data with
    | .error e => .error e
    | .ok _ =>
      let w := charWidth S a.data
      .ok (.S, ⟨.S, shape ++ [w], (a.data.map (toChars w)).flatten⟩)
  else .error (.valueError (py% "Unknown type " ++ dtype ++ py% " for " ++ key))

/-- sofar/io.py:326: all elements as doubles -/
def toDoubles (env : Env) (kind : Kind) : List Elem → Except Exc (List Elem)
  | [] => .ok []
  | e :: l =>
    match toDouble env kind e with
    | .error x => .error x
    | .ok y =>
      match toDoubles env kind l with
      | .error x => .error x
      | .ok r => .ok (y :: r)

/-- sofar/io.py:326-328: the data that is assigned, doubles or characters -/
def netcdfData (env : Env) (k : Kind) (a : Arr) : Except Exc Arr :=
  match k with
  | .f =>
    match toDoubles env a.kind a.data with
    | .error x => .error x
    | .ok l => .ok ⟨.f, a.shape, l⟩
  | _ => .ok a

/-- sofar/io.py:292-293 -/
def writeDims (nc : Nc) : Dict Nat → NcFile → Except Exc Unit × NcFile
  | [], f => (.ok (), f)
  | (d, n) :: l, f =>
    match createDimension nc f d n with
    | .error e => (.error e, f)
    | .ok f' => writeDims nc l f'

/-- sofar/io.py:296-298: write the given global attributes -/
def writeGlobals (env : Env) (nc : Nc) (o : Obj) : List Str → NcFile → Except Exc Unit × NcFile
  | [], f => (.ok (), f)
  | k :: ks, f =>
    match o.getAttr k with
    | .error e => (.error e, f)
    | .ok v =>
      match putAttr nc f.attrs (k.drop 7) (pyStr env v) with
      | .error e => (.error e, f)
      | .ok a => writeGlobals env nc o ks { f with attrs := a }

/-- sofar/io.py:335-338: write the given attributes of a variable, `n` is the length of the prefix -/
def varAttrs (env : Env) (nc : Nc) (o : Obj) (n : Nat) : List Str → Dict Val → Except Exc Unit × Dict Val
  | [], d => (.ok (), d)
  | k :: ks, d =>
    match o.getAttr k with
    | .error e => (.error e, d)
    | .ok v =>
      match putAttr nc d (k.drop n) (pyStr env v) with
      | .error e => (.error e, d)
      | .ok d' => varAttrs env nc o n ks d'

/-- sofar/io.py:322: name of a variable in the file -/
def ncName (key : Str) : Str := Str.replace key (py% "Data_") (py% "Data.")

/-- sofar/io.py:335: the attributes of a variable -/
def subKeys (keys : List Str) (key : Str) : List Str := keys.filter (fun k => Str.startsWith k (key ++ py% "_"))

/-- replace the attributes of a variable (sofar/io.py:337) -/
def setVarAttrs (f : NcFile) (name : Str) (attrs : Dict Val) : NcFile :=
  match Dict.get? f.vars name with
  | some v => { f with vars := Dict.put f.vars name { v with attrs := attrs } }
  | none => f

/-- sofar/io.py:318-338: one variable of the given type and dimensions -/
def writeVariable (env : Env) (nc : Nc) (o : Obj) (compression : Nat) (key dtype dims : Str) (S : Nat) (value : Val)
    (f : NcFile) : Except Exc Unit × NcFile :=
  match formatFor value dtype dims S key with
  | .error e => (.error e, f)
  | .ok (k, a) =>
    match createVariable nc f (ncName key) k (dims.map (fun c => [c])) compression with
    | .error e => (.error e, f)
    | .ok f1 =>
      match netcdfData env k a with
      | .error e => (.error e, f1)
      | .ok b =>
        match assignVariable f1 (ncName key) k (dims.map (fun c => [c])) b with
        | .error e => (.error e, f1)
        | .ok f2 =>
          let r := varAttrs env nc o (key.length + 1) (subKeys o.keys key) []
          (r.1, setVarAttrs f2 (ncName key) r.2)

/-- sofar/io.py:301-338: one iteration of the loop over all data. Evaluates `sofa._convention[key]`,
`sofa._dimensions[key]` and `sofa._api["S"]`. -/
def writeKey (env : Env) (nc : Nc) (o : Obj) (compression : Nat) (key : Str) (f : NcFile) : Except Exc Unit × NcFile :=
  match convEntry o key with
  | .error e => (.error e, f)
  | .ok en =>
    if en.typ = py% "attribute" then (.ok (), f)
    else
      match o.getAttr key with
      | .error e => (.error e, f)
      | .ok v =>
        match o.dims with
        | none => (.error (.attributeError (py% "_dimensions")), f)
        | some ds =>
          match Dict.get? ds key with
          | none => (.error (.keyError key), f)
          | some d =>
            match Dict.get? (o.api.getD []) (py% "S") with
            | none => (.error (.keyError (py% "S")), f)
            | some S => writeVariable env nc o compression key en.typ d S v f

/-- sofar/io.py:301-338: loop over all data -/
def writeKeys (env : Env) (nc : Nc) (o : Obj) (compression : Nat) : List Str → NcFile → Except Exc Unit × NcFile
  | [], f => (.ok (), f)
  | k :: ks, f =>
    let r := writeKey env nc o compression k f
    match r.1 with
    | .error e => (.error e, r.2)
    | .ok _ => writeKeys env nc o compression ks r.2

/-- sofar/io.py:291-338: the content of the file -/
def writeFile (env : Env) (nc : Nc) (o : Obj) (compression : Nat) : Except Exc Unit × NcFile :=
  match o.api with
  | none => (.error (.attributeError (py% "_api")), .empty)
  | some api =>
    let r := writeDims nc api .empty
    match r.1 with
    | .error e => (.error e, r.2)
    | .ok _ =>
      let q := writeGlobals env nc o (o.keys.filter (fun k => Str.startsWith k (py% "GLOBAL_"))) r.2
      match q.1 with
      | .error e => (.error e, q.2)
      | .ok _ => writeKeys env nc o compression o.keys q.2

/-- Result of writing: exception, the object and the disk after the call, and the side effects.
(sofar/io.py:224-339) -/
structure Written where
  out : Except Exc Unit
  obj : Obj
  fs : FS
  ev : List Event

/-- sofar/io.py:289: opening the file for writing removes its old content; whatever was written before an exception stays
in the file. -/
def writeDisk (env : Env) (nc : Nc) (fs : FS) (path : Str) (o : Obj) (compression : Nat) : Except Exc Unit × FS :=
  if ! fs.canWrite path then (.error (.osError (py% "Permission denied")), fs)
  else
    let r := writeFile env nc o compression
    (r.1, { fs with files := Dict.put fs.files path (.nc r.2) })

/-- sofar/io.py:278-282 -/
def outdatedWarning (current : Str) : Event :=
  .warn (py% "Writing SOFA object with outdated Convention version " ++ current
    ++ py% ". It is recommend to upgrade  data with Sofa.upgrade_convention() before writing to disk if possible.")

/-- sofar/io.py:272-282: warning if there is a newer version of the convention -/
def checkLatest (env : Env) (o : Obj) : Except Exc Unit × List Event :=
  match o.getAttr (py% "GLOBAL_SOFAConventions") with
  | .error e => (.error e, [])
  | .ok c =>
    if c.asStr = some (py% "invalid-value") then (.ok (), [])
    else
      match c.asStr with
      | none => (.error (.typeError (py% "Convention must be a string")), [])
      | some c =>
        let r := initSofa env c false .latest .auto
        match r.out with
        | .error e => (.error e, r.ev)
        | .ok n =>
          match n.getAttr (py% "GLOBAL_SOFAConventionsVersion") with
          | .error e => (.error e, r.ev)
          | .ok l =>
            match o.getAttr (py% "GLOBAL_SOFAConventionsVersion") with
            | .error e => (.error e, r.ev)
            | .ok v =>
              match v.asStr, l.asStr with
              | some v, some l =>
                match parseVersion v with
                | .error e => (.error e, r.ev)
                | .ok pv =>
                  match parseVersion l with
                  | .error e => (.error e, r.ev)
                  | .ok pl => (.ok (), r.ev ++ (if versionLt pv pl then [outdatedWarning v] else []))
              | _, _ => (.error (.typeError (py% "expected string")), r.ev)

/-- sofar/io.py:259-339 `_write_sofa` -/
def writeSofaG (env : Env) (nc : Nc) (fs : FS) (filename : Str) (o : Obj) (compression : Nat) (verify_ : Bool) :
    Written :=
  match withSuffix filename with
  | .error e => ⟨.error e, o, fs, []⟩
  | .ok path =>
    if verify_ then
      let l := checkLatest env o
      match l.1 with
      | .error e => ⟨.error e, o, fs, l.2⟩
      | .ok _ =>
        let r := verify env o .raise .write
        match r.out with
        | .error e => ⟨.error e, r.obj, fs, l.2 ++ r.ev⟩
        | .ok _ =>
          let w := writeDisk env nc fs path r.obj compression
          ⟨w.1, r.obj, w.2, l.2 ++ r.ev⟩
    else
      let w := writeDisk env nc fs path o compression
      ⟨w.1, o, w.2, []⟩

/-- sofar/io.py:224-256 `write_sofa` -/
def writeSofa (env : Env) (nc : Nc) (fs : FS) (filename : Str) (o : Obj) (compression : Nat) : Written :=
  writeSofaG env nc fs filename o compression true

/-! ## Reading -/

/-- sofar/io.py:405, 411: numbers of a variable, missing data is masked -/
def maskFill (nc : Nc) (k : Kind) : Elem → Elem
  | .num x => if nc.isFill k x then .masked else .num x
  | e => e

/-- sofar/io.py:424-425 `value = value[0]` of an array with a single element: a scalar if the array has one axis,
otherwise an array without the first axis; a masked array gives the masked constant. -/
def firstItem (a : Arr) : Except Exc Val :=
  match a.shape, a.data with
  | [_], e :: _ =>
    if e = .masked then .ok (.arr ⟨.f, [], [.masked]⟩) else .ok (scalarOf a.kind e)
  | _ :: s, _ => .ok (.arr (a.withShape s))
  | [], _ => .error .indexError

/-- sofar/io.py:420-425: single values. The names of the variables in the file (`Data.IR`) are never contained in
`data_keys`, unless the file uses names with underscores. The last two names are concatenated in the source. -/
def squeezeSingle (key : Str) (a : Arr) : Except Exc Val :=
  if a.size = 1 ∧ ¬ [py% "Data_IR", py% "Data_Real", py% "Data_Imag", py% "Data_SOSData_Delay"].contains key then
    firstItem a
  else .ok (.arr a)

/-- sofar/io.py:388-427 `_format_value_from_netcdf` applied to `file[var][:]` (165): value and warnings -/
def formatFrom (nc : Nc) (key : Str) (a : Arr) : Except Exc Val × List Event :=
  match a.kind with
  | .S =>
    match a.shape.getLast? with
    | none => (.error .indexError, [])
    | some w =>
      if w = 0 then (.error (.valueError (py% "range() arg 3 must not be zero")), [])
      else if ! a.data.all (fun e => Str.isAscii (charText e)) then (.error .unicodeError, [])
      else
        let s := Arr.atleast1 a.shape.dropLast
        (squeezeSingle key ⟨.U, s, joinChars w (a.shape.dropLast.foldr (· * ·) 1) a.data⟩, [])
  | k =>
    if k = .f ∨ k = .i ∨ k = .u then
      let b : Arr := ⟨k, a.shape, a.data.map (maskFill nc k)⟩
      if b.data.contains .masked then
        (squeezeSingle key b, [.warn (py% "Entry " ++ key ++ py% " contains missing data")])
      else (squeezeSingle key b, [])
    else (.error (.typeError (key ++ py% ": value.dtype must be float, S or, U")), [])

/-- One entry that is read from a file: name, value, dimensions and type (sofar/io.py:148-184) -/
structure Item where
  name : Str
  value : Val
  dims : Option Str
  typ : Str
deriving DecidableEq

/-- Object under construction, names of all data in the file, names of the custom data (sofar/io.py:122-124) -/
structure Reading where
  obj : Obj
  all : List Str
  custom : List Str

/-- sofar/io.py:152-159, 166-177, 183-191: store one entry; the object stays unprotected -/
def loadItem (st : Reading) (i : Item) : Except Exc Reading :=
  if st.obj.hasAttr i.name then
    let r := setAttr st.obj i.name (.val i.value)
    match r.out with
    | .error e => .error e
    | .ok _ => .ok { st with obj := r.obj, all := st.all ++ [i.name] }
  else
    let r := addCustomApiEntry st.obj i.name (.val i.value) none i.dims i.typ
    match r.out with
    | .error e => .error e
    | .ok _ =>
      .ok ⟨{ r.obj with prot := false }, st.all ++ [i.name], st.custom ++ [i.name]⟩

/-- sofar/io.py:148-191: store entries in order -/
def loadItems : List Item → Reading → Except Exc Reading
  | [], st => .ok st
  | i :: l, st =>
    match loadItem st i with
    | .error e => .error e
    | .ok st' => loadItems l st'

/-- sofar/io.py:148-159, 180-191: attributes of a file or a variable with the given prefix. Attributes that are members of
the netCDF4 classes are not modelled. -/
def attrItems (nc : Nc) (pre : Str) : Dict Val → Except Exc (List Item)
  | [] => .ok []
  | (a, v) :: l =>
    if nc.reserved a || nc.special a then .error .unmodelled
    else
      match attrItems nc pre l with
      | .error e => .error e
      | .ok r => .ok (⟨pre ++ a, v, none, py% "attribute"⟩ :: r)

/-- sofar/io.py:166 `var.replace(".", "_")` -/
def sofarName (var : Str) : Str := Str.replaceChar var '.' '_'

/-- sofar/io.py:119: the attributes that are skipped -/
def withoutSkipped (d : Dict Val) : Dict Val := d.filter (fun p => p.1 ≠ py% "_Encoding")

/-- sofar/io.py:162-191: value and attributes of one variable. Text in other encodings than ASCII (attribute `_Encoding`)
is not modelled. -/
def varItems (nc : Nc) (name : Str) (var : NcVar) : Except Exc (List Item) × List Event :=
  let r := formatFrom nc name var.data
  match r.1 with
  | .error e => (.error (if Dict.has var.attrs (py% "_Encoding") then .unmodelled else e), r.2)
  | .ok v =>
    match attrItems nc (sofarName name ++ py% "_") (withoutSkipped var.attrs) with
    | .error e => (.error e, r.2)
    | .ok l =>
      (.ok (⟨sofarName name, v, some var.dims.flatten,
        if var.data.kind = .S then py% "string" else py% "double"⟩ :: l), r.2)

/-- sofar/io.py:162-191: loop over the variables -/
def readVars (nc : Nc) : Dict NcVar → Reading → Except Exc Reading × List Event
  | [], st => (.ok st, [])
  | (n, v) :: l, st =>
    let r := varItems nc n v
    match r.1 with
    | .error e => (.error e, r.2)
    | .ok items =>
      match loadItems items st with
      | .error e => (.error e, r.2)
      | .ok st' =>
        let q := readVars nc l st'
        (q.1, r.2 ++ q.2)

/-- sofar/io.py:195-198: delete the data that is not contained in the file -/
def deleteExtra (all : List Str) : List Str → Obj → Except Exc Obj
  | [], o => .ok o
  | k :: ks, o =>
    if all.contains k then deleteExtra all ks o
    else
      let r := delAttr o k
      match r.out with
      | .error e => .error e
      | .ok _ => deleteExtra all ks r.obj

/-- sofar/io.py:204-207 -/
def customNotice (custom : List Str) : Event :=
  .print (py% "SOFA file contained custom entries\n----------------------------------\n"
    ++ Str.join (py% ", ") custom)

/-- sofar/io.py:144-207: load the content of the file into a new object -/
def loadFile (nc : Nc) (f : NcFile) (new : Obj) (verbose : Bool) : Created :=
  match attrItems nc (py% "GLOBAL_") f.attrs with
  | .error e => ⟨.error e, []⟩
  | .ok items =>
    match loadItems items ⟨{ new with prot := false }, [], []⟩ with
    | .error e => ⟨.error e, []⟩
    | .ok st =>
      let r := readVars nc f.vars st
      match r.1 with
      | .error e => ⟨.error e, r.2⟩
      | .ok st' =>
        match deleteExtra st'.all st'.obj.keys st'.obj with
        | .error e => ⟨.error e, r.2⟩
        | .ok o =>
          ⟨.ok { o with prot := true },
            r.2 ++ (if st'.custom ≠ [] ∧ verbose = true then [customNotice st'.custom] else [])⟩

/-- sofar/io.py:115-117, 131: find and open the file -/
def openFile (fs : FS) (filename : Str) : Except Exc NcFile :=
  match withSuffix filename with
  | .error e => .error e
  | .ok path =>
    match Dict.get? fs.files path with
    | none => .error (.valueError (path ++ py% " does not exist"))
    | some (.other _) => .error (.osError (py% "NetCDF: Unknown file format"))
    | some (.nc f) => .ok f

/-- sofar/io.py:135-136 `file.SOFAConventions` etc. -/
def fileAttr (f : NcFile) (name : Str) : Except Exc Val :=
  match Dict.get? f.attrs name with
  | some v => .ok v
  | none => .error (.attributeError (py% "NetCDF: Attribute not found"))

/-- sofar/io.py:209-219: verification of the object that was read -/
def verifyRead (env : Env) (o : Obj) (version : Str) (arg : VerifyArg) : Created :=
  let go (b : Bool) : Created :=
    if b then
      let r := verify env o .raise .read
      match r.out with
      | .error _ => ⟨.error (.valueError (py% "The SOFA object could not be verified")), r.ev⟩
      | .ok _ => ⟨.ok r.obj, r.ev⟩
    else ⟨.ok o, []⟩
  match arg with
  | .yes => go true
  | .no => go false
  | .auto =>
    match isStable version with
    | .error e => ⟨.error e, []⟩
    | .ok b => go b

/-- sofar/io.py:112-221 `_read_netcdf` with mode "sofa", i.e., sofar/io.py:13-60 `read_sofa`. Convention names that are not
text are never found (ValueError); versions that are not text are not modelled. -/
def readSofa (env : Env) (nc : Nc) (fs : FS) (filename : Str) (arg : VerifyArg) (verbose : Bool) : Created :=
  match openFile fs filename with
  | .error e => ⟨.error e, []⟩
  | .ok f =>
    match fileAttr f (py% "SOFAConventions") with
    | .error e => ⟨.error e, []⟩
    | .ok c =>
      match fileAttr f (py% "SOFAConventionsVersion") with
      | .error e => ⟨.error e, []⟩
      | .ok v =>
        match c.asStr, v.asStr with
        | none, _ => ⟨.error (.valueError (py% "Convention does not exist")), []⟩
        | some _, none => ⟨.error .unmodelled, []⟩
        | some c, some v =>
          match verifyConvention env v c with
          | .error e => ⟨.error e, []⟩
          | .ok _ =>
            let i := initSofa env c false (.exact v) arg
            match i.out with
            | .error e => ⟨.error e, i.ev⟩
            | .ok new =>
              let r := loadFile nc f new verbose
              match r.out with
              | .error e => ⟨.error e, i.ev ++ r.ev⟩
              | .ok o =>
                let q := verifyRead env o v arg
                ⟨q.out, i.ev ++ r.ev ++ q.ev⟩

/-- sofar/sofa.py:129-131 `Sofa(None)`: an object without convention and data, not protected (85-90) -/
def emptySofa : Obj where
  attrs := []
  conv := []
  custom := none
  dims := none
  api := none
  readOnly := .names []
  prot := false

/-- sofar/io.py:112-221 `_read_netcdf` with mode "netcdf", i.e., sofar/io.py:63-109 `read_sofa_as_netcdf` -/
def readAsNetcdf (nc : Nc) (fs : FS) (filename : Str) : Created :=
  match openFile fs filename with
  | .error e => ⟨.error e, []⟩
  | .ok f => loadFile nc f emptySofa false

end Sofar
