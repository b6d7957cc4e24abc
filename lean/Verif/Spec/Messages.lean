import Verif.Spec.Upgrade
import Verif.Spec.IO
/-!
# Vocabulary for messages

Only the data types of the model are used, decimal numbers, and upper case.
-/
namespace Sofar.Spec

/-- Everything that is printed, in order. -/
def prints (ev : List Event) : List Str :=
  ev.filterMap (fun e => match e with | .print m => some m | .warn _ => none)

/-- All warnings, in order. -/
def warnings (ev : List Event) : List Str :=
  ev.filterMap (fun e => match e with | .print _ => none | .warn m => some m)

/-- The line about data that was added: `- name (mandatory)` or `- name (optional)`. -/
def AddedLine (conv : Dict Entry) (k line : Str) : Prop :=
  ∃ e, Dict.get? conv k = some e ∧ ((IsMandatory e ∧ line = py% "- " ++ k ++ py% " (mandatory)\n") ∨
    (¬ IsMandatory e ∧ line = py% "- " ++ k ++ py% " (optional)\n"))

/-- The text for added data with the given lines. -/
def addedText (lines : List Str) : Str :=
  if lines = [] then py% "All mandatory data contained."
  else py% "Added the following missing data with their default values:\n" ++ lines.flatten

/-- The line about moved data: names, moved axis, and dimensions that are deprecated. -/
def movedLine (source : Str) (m : Move) : Str :=
  py% "- Moving " ++ sofarName source ++ py% " to " ++ sofarName m.target ++ py% "." ++
  (match m.moveaxis with
    | none => []
    | some (s, d) => py% " Moving axis " ++ Str.ofNat s ++ py% " to " ++ Str.ofNat d ++ py% ".") ++
  (match m.deprecatedDims with
    | none => []
    | some l => py% " WARNING: Dimensions " ++ List.intercalate (py% ", ") l ++ py% " are now deprecated.")

/-- The lines about moved data. -/
def movedLines (u : UpgradeDef) : List Str :=
  if u.move = [] then [py% "- No data to move"] else u.move.map (fun p => movedLine p.1 p.2)

/-- The lines about removed data. -/
def removedLines (u : UpgradeDef) : List Str :=
  if u.remove = [] then [py% "- No data to remove"] else u.remove.map (fun n => py% "- Deleting " ++ sofarName n ++ py% ".")

/-- The line about a target `name_version`; further parts of the target are not shown. -/
def TargetLine (t line : Str) : Prop :=
  ∃ n v, '_' ∉ n ∧ '_' ∉ v ∧ (t = n ++ '_' :: v ∨ ∃ rest, t = n ++ '_' :: v ++ '_' :: rest) ∧
    line = py% "- " ++ n ++ py% " v" ++ v ++ py% "\n"

/-- The notice about custom data in a file. -/
def customText (names : List Str) : Str :=
  py% "SOFA file contained custom entries\n----------------------------------\n" ++ List.intercalate (py% ", ") names

end Sofar.Spec
