import Verif.Model.Update
import Verif.Model.Init
/-!
# Conventions in the folder of the package

The json files that were compiled by `_compile_conventions` (sofar/update_conventions.py:192-221) are the convention files that are found
by `_get_conventions` (sofar/utils.py:64-126) and read by `_load_convention` (sofar/sofa.py:1662-1721). What
is read are the dictionaries that were written; the json text between them is in `Model/Json` (C92).
-/
namespace Sofar

/-- A Python number as element of an array (sofar/sofa.py:153, 1743, sofar/utils.py:242-260). Integers are assumed to fit into 64 bits; the
rounding of integers beyond 2^53 in lists with floats is not modelled. -/
def numberElem : Number → Elem
  | .int i => .num (.fin i)
  | .float x => .num x

/-- `dtype` of `np.array` for a list of Python numbers (sofar/utils.py:242-260, sofar/sofa.py:153) -/
def numbersKind (l : List Number) : Kind :=
  if l.any (fun n => match n with | .float _ => true | .int _ => false) then .f else .i

/-- `np.array` of a nested list (sofar/utils.py:242-260, sofar/sofa.py:153); numpy refuses rows of different length -/
def nestedInp (l : List (List Number)) : Inp :=
  match l with
  | [] => .list ⟨.f, [0], []⟩
  | r :: rs =>
    if rs.all (fun x => x.length == r.length) then
      .list ⟨numbersKind l.flatten, [l.length, r.length], l.flatten.map numberElem⟩
    else .ragged

/-- `np.array` of a list of nested lists (sofar/update_conventions.py:325, 328; sofar/utils.py:242-260). All lists of the
same shape; others do not occur and are treated like ragged lists. -/
def deepInp (l : List (List (List Number))) : Inp :=
  match l with
  | [] => .list ⟨.f, [0], []⟩
  | m :: ms =>
    match m with
    | [] => .ragged
    | r :: _ =>
      if (m :: ms).all (fun x => x.length == m.length && x.all (fun y => y.length == r.length)) then
        .list ⟨numbersKind l.flatten.flatten, [l.length, m.length, r.length], l.flatten.flatten.map numberElem⟩
      else .ragged

/-- The default value of a convention as it is used by the class (sofar/sofa.py:1741-1748). `None` does not occur as default
(sofar/update_conventions.py:318-320). -/
def cellInp : Cell → Option Inp
  | .empty => none
  | .text s => some (.val (.str s))
  | .num (.int i) => some (.val (.num .i (.num (.fin i))))
  | .num (.float x) => some (.val (.num .f (.num x)))
  | .list l => some (.list ⟨numbersKind l, [l.length], l.map numberElem⟩)
  | .nested l => some (nestedInp l)
  | .deep l => some (deepInp l)
  | .texts l => some (.list ⟨.U, [l.length], l.map .str⟩)

/-- Flags and dimensions (sofar/sofa.py:1739, 1744): text or `None`. Numbers and lists are not modelled. -/
def cellText? : Cell → Option (Option Str)
  | .empty => some none
  | .text s => some (some s)
  | _ => none

/-- Types and comments (sofar/sofa.py:372-377, 1210): text. Anything else is not modelled. -/
def cellText : Cell → Option Str
  | .text s => some s
  | _ => none

/-- An entry of a json file (sofar/sofa.py:1711-1721); all fields are required, further fields are not used
(sofar/update_conventions.py:243-247). -/
def cellEntry (e : Dict Cell) : Option Entry :=
  match (Dict.get? e (py% "flags")).bind cellText?, (Dict.get? e (py% "dimensions")).bind cellText?,
      (Dict.get? e (py% "type")).bind cellText, (Dict.get? e (py% "default")).bind cellInp,
      (Dict.get? e (py% "comment")).bind cellText with
  | some f, some d, some t, some i, some c => some ⟨f, d, t, i, c⟩
  | _, _, _, _, _ => none

/-- sofar/utils.py:98-103: `glob.glob("*.json")` for a file in the folder itself -/
def globJson (path : Str) : Bool :=
  ! path.contains '/' && Str.endsWith path (py% ".json") && ! Str.startsWith path (py% ".")

/-- sofar/utils.py:96-104, the paths of all convention files with their base names. The order of `glob` is arbitrary; here
it is the order of the dictionary. -/
def jsonFiles (d : Folder) : List (Str × Str) :=
  ((Dict.keys d.json).filter globJson).map (fun p => (p, p)) ++
  ((Dict.keys d.json).filter (fun p => Str.startsWith p (py% "deprecated/") && globJson (p.drop 11))).map
    (fun p => (p, p.drop 11))

/-- sofar/sofa.py:1711-1713: the content of a json file; `none` if it is not modelled -/
def convFile (d : Folder) (p : Str × Str) : Option ConvFile :=
  (((Dict.get? d.json p.1).getD []).mapM (fun x => (cellEntry x.2).map (fun e => (x.1, e)))).map (fun c => ⟨p.2, c⟩)

/-- All convention files of the folder (sofar/utils.py:96-104, sofar/sofa.py:1686-1713). -/
def folderEnv (env : Env) (d : Folder) : Option Env :=
  ((jsonFiles d).mapM (convFile d)).map (fun fs => { env with files := fs })

end Sofar
