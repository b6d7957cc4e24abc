import Verif.Model.Csv
/-!
# Updating the conventions (sofar/update_conventions.py)

Reading and writing on the local disk is assumed to succeed (apart from removing files that do not exist).
-/
namespace Sofar

/-- What the server provides. The flag is true for the folder of deprecated conventions.
(sofar/update_conventions.py:45-70, 103-111) -/
structure Server where
  /-- `node.get('href') for node in soup.find_all('a')` (sofar/update_conventions.py:61-70); parsing of the page is
  not modelled -/
  links : Bool → Except Exc (List (Option Str))
  /-- `requests.get(url).content` (sofar/update_conventions.py:109-111) -/
  file : Bool → Str → Except Exc Str

/-- The folder with the conventions. Files are given by their path relative to that folder.
(sofar/update_conventions.py:72-81) -/
structure Folder where
  /-- the folder exists (sofar/update_conventions.py:78) -/
  root : Bool
  /-- its sub folder `deprecated` exists (sofar/update_conventions.py:80) -/
  sub : Bool
  /-- csv files with their content -/
  csv : Dict Str
  /-- json files with the dictionary that they contain (sofar/update_conventions.py:221) -/
  json : Dict (Dict (Dict Cell))
deriving DecidableEq

/-- sofar/update_conventions.py:63-65 and 68-70: names of the files that end with `ext`. Nodes without link raise
AttributeError. -/
def linkNames (ext : Str) : List (Option Str) → Except Exc (List Str)
  | [] => .ok []
  | none :: _ => .error (.attributeError (py% "'NoneType' object has no attribute 'endswith'"))
  | some h :: l =>
    match linkNames ext l with
    | .error e => .error e
    | .ok r => .ok (if Str.endsWith h ext then (Str.splitChar '/' h).getLastD [] :: r else r)

/-- sofar/update_conventions.py:111, 125-126, 434-435: windows style line breaks and trailing tabs are removed. -/
def unixLines (data : Str) : Str := Str.replace (Str.replace data (py% "\r\n") (py% "\n")) (py% "\t\n") (py% "\n")

/-- sofar/update_conventions.py:94, 416, 422 -/
def excluded (convention : Str) : Bool :=
  Str.startsWith convention (py% "General_") || Str.startsWith convention (py% "GeneralString_")

/-- sofar/update_conventions.py:100-101, 153, 161, 184 -/
def deprecatedPath (convention : Str) : Str := py% "deprecated/" ++ convention

/-- The temporary folder and the lists `update` and `deprecate` (here `outdated`; sofar/update_conventions.py:84-90). `updated` is true
if one of the lists is not empty. -/
structure Plan where
  temp : Dict Str
  update : List Str
  outdated : List Str
  ev : List Event
deriving DecidableEq

/-- sofar/update_conventions.py:114-161: decision for one convention with the content `data` on the server -/
def planFile (d : Folder) (isStandardized : Bool) (convention data : Str) (p : Plan) : Plan :=
  let dep := deprecatedPath convention
  let name := Str.dropEnd convention 4
  if isStandardized then
    match Dict.get? d.csv convention with
    | none => { p with temp := Dict.put p.temp convention data, update := p.update ++ [convention],
                       ev := p.ev ++ [.print (py% "- add convention: " ++ name)] }
    | some current =>
      if unixLines current ≠ data then
        { p with temp := Dict.put p.temp convention data, update := p.update ++ [convention],
                 ev := p.ev ++ [.print (py% "- update convention: " ++ name)] }
      else p
  else if Dict.has d.csv convention then
    { p with temp := Dict.put p.temp dep data, outdated := p.outdated ++ [convention],
             ev := p.ev ++ [.print (py% "- deprecate convention: " ++ name)] }
  else
    match Dict.get? d.csv dep with
    | some current =>
      if unixLines current ≠ data then
        { p with temp := Dict.put p.temp dep data, update := p.update ++ [dep],
                 ev := p.ev ++ [.print (py% "- update deprecated convention: " ++ name)] }
      else p
    | none => { p with temp := Dict.put p.temp dep data, update := p.update ++ [dep],
                       ev := p.ev ++ [.print (py% "- add deprecated convention: " ++ name)] }

/-- sofar/update_conventions.py:91-161 -/
def planAll (server : Server) (d : Folder) (standardized : List Str) : List Str → Plan → Except Exc Unit × Plan
  | [], p => (.ok (), p)
  | c :: cs, p =>
    if excluded c then planAll server d standardized cs p
    else
      let isStandardized := standardized.contains c
      match server.file (!isStandardized) c with
      | .error e => (.error e, p)
      | .ok data => planAll server d standardized cs (planFile d isStandardized c (unixLines data) p)

/-- sofar/update_conventions.py:175-177 -/
def copyUpdates (temp : Dict Str) : List Str → Folder → Except Exc Unit × Folder
  | [], d => (.ok (), d)
  | c :: cs, d =>
    match Dict.get? temp c with
    | none => (.error (.osError (py% "No such file or directory")), d)
    | some data => copyUpdates temp cs { d with csv := Dict.put d.csv c data }

/-- sofar/update_conventions.py:181, 220: `f"{convention[:-3]}json"` -/
def jsonName (convention : Str) : Str := Str.dropEnd convention 3 ++ py% "json"

/-- sofar/update_conventions.py:178-184 -/
def moveDeprecated (temp : Dict Str) : List Str → Folder → Except Exc Unit × Folder
  | [], d => (.ok (), d)
  | c :: cs, d =>
    if ! Dict.has d.csv c then (.error (.osError (py% "No such file or directory")), d)
    else
      let d1 := { d with csv := Dict.del d.csv c }
      if ! Dict.has d1.json (jsonName c) then (.error (.osError (py% "No such file or directory")), d1)
      else
        let d2 := { d1 with json := Dict.del d1.json (jsonName c) }
        match Dict.get? temp (deprecatedPath c) with
        | none => (.error (.osError (py% "No such file or directory")), d2)
        | some data => moveDeprecated temp cs { d2 with csv := Dict.put d2.csv (deprecatedPath c) data }

/-- sofar/update_conventions.py:213: `glob.glob("*.csv")` for a file in the folder itself -/
def globFile (path : Str) : Bool :=
  ! path.contains '/' && Str.endsWith path (py% ".csv") && ! Str.startsWith path (py% ".")

/-- sofar/update_conventions.py:213-214: all csv files. The order of `glob` is arbitrary; it is only relevant if a file
can not be parsed. -/
def csvFiles (d : Folder) : List Str :=
  (Dict.keys d.csv).filter globFile ++
  (Dict.keys d.csv).filter (fun p => Str.startsWith p (py% "deprecated/") && globFile (p.drop 11))

/-- sofar/update_conventions.py:216-221 -/
def compileFiles (lang : Lang) : List Str → Folder → Except Exc Unit × Folder
  | [], d => (.ok (), d)
  | c :: cs, d =>
    match csv2dict lang ((Dict.get? d.csv c).getD []) with
    | .error e => (.error e, d)
    | .ok t => compileFiles lang cs { d with json := Dict.put d.json (jsonName c) t }

/-- sofar/update_conventions.py:192-221 `_compile_conventions` -/
def compileConventions (lang : Lang) (d : Folder) : Except Exc Unit × Folder :=
  if ! d.root then (.error (.valueError (py% "does not exist")), d) else compileFiles lang (csvFiles d) d

/-- sofar/update_conventions.py:174-186 -/
def applyPlan (lang : Lang) (p : Plan) (d : Folder) : Except Exc Unit × Folder :=
  match copyUpdates p.temp p.update d with
  | (.error e, d) => (.error e, d)
  | (.ok _, d) =>
    match moveDeprecated p.temp p.outdated d with
    | (.error e, d) => (.error e, d)
    | (.ok _, d) => compileConventions lang d

/-- Result of `update_conventions`: exception, the folder, and what was printed.
(sofar/update_conventions.py:13-189) -/
structure Updated where
  out : Except Exc Unit
  folder : Folder
  ev : List Event
deriving DecidableEq

/-- sofar/update_conventions.py:163-189: confirmation and update. `answer` is the result of `input()`. -/
def finishUpdate (lang : Lang) (p : Plan) (d : Folder) (assumeYes : Bool) (answer : Except Exc Str) : Updated :=
  if p.update.isEmpty && p.outdated.isEmpty then
    ⟨.ok (), d, p.ev ++ [.print (py% "... conventions already up to date.")]⟩
  else if assumeYes then
    match applyPlan lang p d with
    | (.error e, d) => ⟨.error e, d, p.ev⟩
    | (.ok _, d) => ⟨.ok (), d, p.ev ++ [.print (py% "... done.")]⟩
  else
    let ev := p.ev ++ [.print (py% "\nDo you want to update the conventions above? (y/n)\n" ++
      py% "Read the documentation before continuing. If updating breaks sofar it has to be re-installed")]
    match answer with
    | .error e => ⟨.error e, d, ev⟩
    | .ok a =>
      if a ≠ py% "y" then ⟨.ok (), d, ev ++ [.print (py% "\nUpdating the conventions was canceled.")]⟩
      else
        match applyPlan lang p d with
        | (.error e, d) => ⟨.error e, d, ev⟩
        | (.ok _, d) => ⟨.ok (), d, ev ++ [.print (py% "... done.")]⟩

/-- sofar/update_conventions.py:13-189 `update_conventions`. -/
def updateConventions (lang : Lang) (server : Server) (d : Folder) (assumeYes : Bool) (answer : Except Exc Str) : Updated :=
  let ev := [Event.print (py% "Reading SOFA conventions from https://www.sofaconventions.org/conventions/ ...")]
  match server.links false with
  | .error e => ⟨.error e, d, ev⟩
  | .ok l0 =>
    match linkNames (py% "csv") l0 with
    | .error e => ⟨.error e, d, ev⟩
    | .ok standardized =>
      match server.links true with
      | .error e => ⟨.error e, d, ev⟩
      | .ok l1 =>
        match linkNames (py% "csv") l1 with
        | .error e => ⟨.error e, d, ev⟩
        | .ok deprecated =>
          let d1 := { d with root := true, sub := true }
          match planAll server d1 standardized (standardized ++ deprecated) ⟨[], [], [], ev⟩ with
          | (.error e, p) => ⟨.error e, d1, p.ev⟩
          | (.ok _, p) => finishUpdate lang p d1 assumeYes answer

/-! ## Comparison of platforms -/

/-- One loop of sofar/update_conventions.py:415-420 and 421-426: iteration by index over a list from which elements are
removed. `missing` is the condition of the second case. The result is the reduced list and the reported conventions. -/
def congruencyLoop (missing : Str → Bool) (i : Nat) (l : List Str) (reported : List Str) : List Str × List Str :=
  if h : i < l.length then
    if excluded l[i] then congruencyLoop missing (i + 1) (l.erase l[i]) reported
    else if missing l[i] then congruencyLoop missing (i + 1) (l.erase l[i]) (reported ++ [l[i]])
    else congruencyLoop missing (i + 1) l reported
  else (l, reported)
termination_by l.length - i
decreasing_by
  all_goals first
    | omega
    | (rw [List.length_erase_of_mem (List.getElem_mem h)]; omega)

/-- The result of `_check_congruency`: lines of the report, and the conventions that were compared.
(sofar/update_conventions.py:358-449) -/
structure Congruency where
  report : List Str
  compared : List Str
deriving DecidableEq

/-- sofar/update_conventions.py:358-449 `_check_congruency` with `save_dir=None`. The names and the contents on both
platforms are given (false: sofaconventions.org, true: SOFAtoolbox); downloads are assumed to succeed. -/
def checkCongruency (names : Bool → List Str) (file : Bool → Str → Str) : Except Exc Congruency :=
  if (names false).isEmpty || (names true).isEmpty then .error (.valueError (py% "Did not find any conventions"))
  else
    let a := congruencyLoop (fun c => ! (names true).contains c) 0 (names false) []
    let b := congruencyLoop (fun c => ! a.1.contains c) 0 (names true) []
    .ok ⟨a.2.map (fun c => py% "- " ++ c ++ py% " is missing in SOFAtoolbox\n") ++
        b.2.map (fun c => py% "- " ++ c ++ py% " is missing on sofaconventions.org\n") ++
        (a.1.filter (fun c => unixLines (file false c) ≠ unixLines (file true c))).map
          (fun c => py% "- " ++ c ++ py% " differs across platforms\n"), a.1⟩

end Sofar
