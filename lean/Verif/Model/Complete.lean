import Verif.Model.Init
import Verif.Model.Csv
/-!
# Remaining functions of sofar/utils.py: `_complete_sofa` and `version`
-/
namespace Sofar

/-- A call of `add_variable` (sofar/sofa.py:539-584) or `add_attribute` (sofar/sofa.py:586-610) -/
inductive Addition where
  | var (name : Str) (value : Inp) (dtype dims : Str)
  | att (name : Str) (value : Inp)
deriving DecidableEq

/-- the new name (first argument at sofar/sofa.py:539, 586) -/
def Addition.name : Addition → Str
  | .var n _ _ _ => n
  | .att n _ => n

/-- the value (second argument at sofar/sofa.py:539, 586) -/
def Addition.value : Addition → Inp
  | .var _ v _ _ => v
  | .att _ v => v

/-- one call (sofar/sofa.py:539-610) -/
def Addition.call (o : Obj) : Addition → Ret Unit
  | .var n v t d => addVariable o n v t (some d)
  | .att n v => addAttribute o n v

/-- several calls, one after the other, until the first one raises (sofar/utils.py:278-313) -/
def addAll : List Addition → Obj → Ret Unit
  | [], o => ⟨.ok (), o, []⟩
  | a :: l, o =>
    let r := a.call o
    match r.out with
    | .error e => ⟨.error e, r.obj, r.ev⟩
    | .ok _ =>
      let q := addAll l r.obj
      ⟨q.out, q.obj, r.ev ++ q.ev⟩

/-- the calls of `_complete_sofa` (sofar/utils.py:278-313) -/
def completeCalls : List Addition :=
  [.var (py% "ListenerView") (.list ⟨.i, [3], [.num (.fin 1), .num (.fin 0), .num (.fin 0)]⟩) (py% "double") (py% "IC"),
   .att (py% "ListenerView_Type") (.val (.str (py% "cartesian"))),
   .att (py% "ListenerView_Units") (.val (.str (py% "metre"))),
   .var (py% "ListenerUp") (.list ⟨.i, [3], [.num (.fin 0), .num (.fin 0), .num (.fin 1)]⟩) (py% "double") (py% "IC"),
   .var (py% "ReceiverView") (.list ⟨.i, [3], [.num (.fin 1), .num (.fin 0), .num (.fin 0)]⟩) (py% "double") (py% "IC"),
   .att (py% "ReceiverView_Type") (.val (.str (py% "cartesian"))),
   .att (py% "ReceiverView_Units") (.val (.str (py% "metre"))),
   .var (py% "ReceiverUp") (.list ⟨.i, [3], [.num (.fin 0), .num (.fin 0), .num (.fin 1)]⟩) (py% "double") (py% "IC"),
   .var (py% "SourceView") (.list ⟨.i, [3], [.num (.fin 1), .num (.fin 0), .num (.fin 0)]⟩) (py% "double") (py% "IC"),
   .att (py% "SourceView_Type") (.val (.str (py% "cartesian"))),
   .att (py% "SourceView_Units") (.val (.str (py% "metre"))),
   .var (py% "SourceUp") (.list ⟨.i, [3], [.num (.fin 0), .num (.fin 0), .num (.fin 1)]⟩) (py% "double") (py% "IC"),
   .var (py% "EmitterView") (.list ⟨.i, [3], [.num (.fin 1), .num (.fin 0), .num (.fin 0)]⟩) (py% "double") (py% "IC"),
   .att (py% "EmitterView_Type") (.val (.str (py% "cartesian"))),
   .att (py% "EmitterView_Units") (.val (.str (py% "metre"))),
   .var (py% "EmitterUp") (.list ⟨.i, [3], [.num (.fin 0), .num (.fin 0), .num (.fin 1)]⟩) (py% "double") (py% "IC"),
   .att (py% "GLOBAL_EmitterDescription") (.val (.str (py% "what an emitter"))),
   .var (py% "EmitterDescriptions") (.list ⟨.U, [1], [.str (py% "emitter array")]⟩) (py% "string") (py% "MS"),
   .att (py% "GLOBAL_RoomShortName") (.val (.str (py% "Hall"))),
   .att (py% "GLOBAL_RoomDescription") (.val (.str (py% "Wooden floor"))),
   .att (py% "GLOBAL_RoomLocation") (.val (.str (py% "some where nice"))),
   .var (py% "RoomTemperature") (.list ⟨.i, [], [.num (.fin 0)]⟩) (py% "double") (py% "I"),
   .att (py% "RoomTemperature_Units") (.val (.str (py% "kelvin"))),
   .att (py% "GLOBAL_RoomGeometry") (.val (.str (py% "some/file"))),
   .var (py% "RoomVolume") (.list ⟨.i, [], [.num (.fin 200)]⟩) (py% "double") (py% "I"),
   .att (py% "RoomVolume_Units") (.val (.str (py% "cubic metre"))),
   .var (py% "RoomCornerA") (.list ⟨.i, [3], [.num (.fin 0), .num (.fin 0), .num (.fin 0)]⟩) (py% "double") (py% "IC"),
   .var (py% "RoomCornerB") (.list ⟨.i, [3], [.num (.fin 1), .num (.fin 1), .num (.fin 1)]⟩) (py% "double") (py% "IC"),
   .var (py% "RoomCorners") (.list ⟨.i, [], [.num (.fin 0)]⟩) (py% "double") (py% "I"),
   .att (py% "RoomCorners_Type") (.val (.str (py% "cartesian"))),
   .att (py% "RoomCorners_Units") (.val (.str (py% "metre")))]

/-- sofar/utils.py:272-316 `_complete_sofa` -/
def completeSofa (env : Env) (convention : Str) : Created :=
  let i := initSofa env convention false .latest .auto
  match i.out with
  | .error e => ⟨.error e, i.ev⟩
  | .ok new =>
    let r := addAll completeCalls new
    match r.out with
    | .error e => ⟨.error e, i.ev ++ r.ev⟩
    | .ok _ =>
      let v := verify env r.obj .raise .write
      match v.out with
      | .error e => ⟨.error e, i.ev ++ r.ev ++ v.ev⟩
      | .ok _ => ⟨.ok v.obj, i.ev ++ r.ev ++ v.ev⟩

/-- sofar/utils.py:15-16 `file.readline()` of a file opened in text mode, without the line break -/
def firstLine (content : Str) : Str := (universalNewlines false content).takeWhile (· ≠ '\n')

/-- sofar/utils.py:10-19 `version`. The content of the file `sofa_conventions/VERSION` is a parameter; a missing file
(FileNotFoundError) is not modelled. -/
def versionText (env : Env) (content : Str) : Str :=
  py% "sofar v" ++ env.apiVersion ++ py% " implementing SOFA standard " ++ strip (firstLine content)

end Sofar
