import Verif.Model.Core
/-!
# Finding and loading conventions (sofar/utils.py, sofar/sofa.py `_load_convention`)
-/
namespace Sofar

/-- `float(s)` (sofar/utils.py:46, sofar/sofa.py:1702) for strings of the form `digits`, `digits.digits` (one side may be empty). Other forms accepted
by Python (signs, exponents, white space, inf, nan) are treated as ValueError. -/
def pyFloat (s : Str) : Option Rat :=
  match Str.splitChar '.' s with
  | [a] => (Str.digits? a).map (fun n => (n : Rat))
  | [a, b] =>
    if a.isEmpty && b.isEmpty then none
    else
      match Str.digitsGo 0 a, Str.digitsGo 0 b with
      | some m, some n => some (((m * 10 ^ b.length + n : Nat) : Rat) / ((10 ^ b.length : Nat) : Rat))
      | _, _ => none
  | _ => none

/-- part of `str(float(s))` (sofar/utils.py:46): leading zeros removed, `"0"` if nothing is left -/
def stripZerosLeft (s : Str) : Str :=
  let t := s.dropWhile (· == '0')
  if t.isEmpty then py% "0" else t

/-- part of `str(float(s))` (sofar/utils.py:46): trailing zeros removed, `"0"` if nothing is left -/
def stripZerosRight (s : Str) : Str :=
  let t := (s.reverse.dropWhile (· == '0')).reverse
  if t.isEmpty then py% "0" else t

/-- `str(float(s))` (sofar/utils.py:46) for the strings accepted by `pyFloat` (at most 15 significant digits, no exponent). -/
def strFloat (s : Str) : Option Str :=
  if (pyFloat s).isNone then none
  else
    match Str.splitChar '.' s with
    | [a] => some (stripZerosLeft a ++ py% ".0")
    | [a, b] => some (stripZerosLeft a ++ py% "." ++ stripZerosRight b)
    | _ => none

/-- `packaging.version.parse` (sofar/sofa.py:112, 120) for release versions `n.n.n...`; other versions raise InvalidVersion, a
ValueError. -/
def parseVersion (s : Str) : Except Exc (List Nat) :=
  match (Str.splitChar '.' s).mapM Str.digits? with
  | some l => .ok l
  | none => .error (.valueError (py% "Invalid version"))

/-- `v < w` (sofar/sofa.py:120) for release versions (missing components count as zero). -/
def versionLt : List Nat → List Nat → Bool
  | [], [] => false
  | [], b :: bs => decide (0 < b) || versionLt [] bs
  | _ :: _, [] => false
  | a :: as, b :: bs => decide (a < b) || (decide (a = b) && versionLt as bs)

/-- sofar/sofa.py:112: `parse(version) >= parse('1.0')` -/
def isStable (version : Str) : Except Exc Bool :=
  match parseVersion version with
  | .error e => .error e
  | .ok v => .ok (! versionLt v [1, 0])

/-- sofar/utils.py:109-112, one loop iteration of `_get_conventions`: name and version from the base name. -/
def nameVersion (base : Str) : Except Exc (Str × Str) :=
  match Str.splitChar '_' base with
  | n :: v :: _ => .ok (n, Str.dropEnd v 5)
  | _ => .error .indexError

/-- sofar/utils.py:64-126 `_get_conventions("name_version")` -/
def getConventions (env : Env) : Except Exc (List (Str × Str)) :=
  env.files.mapM (fun f => nameVersion f.base)

/-- sofar/utils.py:43-47, the loop over all names and versions. -/
def versionExists (version convention : Str) : List (Str × Str) → Except Exc Bool
  | [] => .ok false
  | (n, v) :: l =>
    if n = convention then
      match strFloat v with
      | none => .error (.valueError (py% "could not convert string to float"))
      | some s =>
        match versionExists version convention l with
        | .error e => .error e
        | .ok b => .ok (decide (s = version) || b)
    else versionExists version convention l

/-- sofar/utils.py:22-54 `_verify_convention_and_version` -/
def verifyConvention (env : Env) (version convention : Str) : Except Exc Unit :=
  match getConventions env with
  | .error e => .error e
  | .ok nv =>
    if (nv.map Prod.fst).contains convention then
      match versionExists version convention nv with
      | .error e => .error e
      | .ok true => .ok ()
      | .ok false => .error (.valueError (convention ++ py% " v" ++ version
          ++ py% " is not a valid SOFA Convention."))
    else .error (.valueError (py% "Convention '" ++ convention ++ py% "' does not exist"))

/-- sofar/sofa.py:1671-1675. Requested version of a convention: `"latest"` or a version string. -/
inductive VersionArg where
  | latest
  | exact (v : Str)
deriving DecidableEq

/-- sofar/sofa.py:1698 `p.split('_')[-1][:-5]` -/
def fileVersion (base : Str) : Str := Str.dropEnd ((Str.splitChar '_' base).getLastD []) 5

/-- sofar/sofa.py:1703 `path[np.argmax(versions)]`: the first file with the largest version number. -/
def argmaxFile (best : ConvFile × Rat) : List (ConvFile × Rat) → ConvFile
  | [] => best.1
  | p :: l => argmaxFile (if best.2 < p.2 then p else best) l

/-- sofar/sofa.py:1715-1719: replace ':' and then '.' in all keys by '_'. -/
def convertKeys (d : Dict Entry) : Dict Entry :=
  let d1 := Dict.ofList (d.map (fun p => (Str.replaceChar p.1 ':' '_', p.2)))
  Dict.ofList (d1.map (fun p => (Str.replaceChar p.1 '.' '_', p.2)))

/-- sofar/sofa.py:1687-1709: the file that is loaded for a convention name and version. -/
def selectFile (env : Env) (convention : Str) (version : VersionArg) : Except Exc ConvFile :=
  let path := env.files.filter (fun f => Str.startsWith f.base (convention ++ py% "_"))
  match path with
  | [] => .error (.valueError (py% "Convention '" ++ convention ++ py% "' not found."))
  | f :: fs =>
    match version with
    | .latest =>
      match (f :: fs).mapM (fun g => (pyFloat (fileVersion g.base)).map (fun q => (g, q))) with
      | some (p :: l) => .ok (argmaxFile p l)
      | _ => .error (.valueError (py% "could not convert string to float"))
    | .exact v =>
      match (f :: fs).find? (fun g => fileVersion g.base = v) with
      | some g => .ok g
      | none => .error (.valueError (py% "Version " ++ v ++ py% " not found."))

/-- sofar/sofa.py:1662-1721 `Sofa._load_convention` (for a convention given as string). -/
def loadConvention (env : Env) (convention : Str) (version : VersionArg) : Except Exc (Dict Entry) :=
  match selectFile env convention version with
  | .error e => .error e
  | .ok f => .ok (convertKeys f.content)

end Sofar
