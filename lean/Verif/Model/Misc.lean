import Verif.Model.Verify
/-!
# Reference units and list of conventions
-/
namespace Sofar

/-- sofar/sofa.py:1548 `[unit_aliases[u] for u in units_test]` -/
def referenceUnits (aliases : Dict Str) : List Str → Except Exc (List Str)
  | [] => .ok []
  | u :: us =>
    match Dict.get? aliases u with
    | none => .error (.keyError u)
    | some r =>
      match referenceUnits aliases us with
      | .error x => .error x
      | .ok rs => .ok (r :: rs)

/-- sofar/sofa.py:1520-1552 `_get_reference_unit` -/
def getReferenceUnit (aliases : Dict Str) (test : Str) : Except Exc Str :=
  match referenceUnits aliases (Str.reSplitCommaOrSpace (Str.lower test)) with
  | .error x => .error x
  | .ok units => .ok (Str.join (if units.head? ≠ some (py% "cubic") then py% ", " else py% " ") units)

/-- sofar/utils.py:113: one line of the text with all conventions -/
def conventionLine (p : Str × Str) : Str := p.1 ++ py% " (Version " ++ p.2 ++ py% ")\n"

/-- sofar/utils.py:64-126 `_get_conventions("string")`. The order of the files is the order in which `glob` finds
them (`Env.files`). -/
def conventionsText (env : Env) : Except Exc Str :=
  match getConventions env with
  | .error x => .error x
  | .ok l => .ok (py% "Available SOFA conventions:\n" ++ (l.map conventionLine).flatten)

/-- sofar/utils.py:57-61 `list_conventions` -/
def listConventions (env : Env) : Except Exc (List Event) :=
  match conventionsText env with
  | .error x => .error x
  | .ok t => .ok [.print t]

end Sofar
