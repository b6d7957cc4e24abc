import Verif.Model.Init
/-!
# Histories of public calls
-/
namespace Sofar

/-- A call of a public method of a `Sofa` object: assignment (sofar/sofa.py:133-158), deletion (160-181, 612-626),
`add_variable` (539-584), `add_attribute` (586-610), `add_missing` (494-537), `verify` (896-1425) and
`get_dimension` (265-291). -/
inductive Op where
  | set (name : Str) (value : Inp)
  | delete (name : Str)
  | addVariable (name : Str) (value : Inp) (dtype : Str) (dims : Option Str)
  | addAttribute (name : Str) (value : Inp)
  | addMissing (addMandatory addOptional verbose : Bool)
  | verify (ih : IH) (mode : Mode)
  | getDimension (dimension : Str)

/-- The object after the call, whether the call succeeds or raises (sofar/sofa.py, methods as cited at `Op`).
(sofar/sofa.py:133-685) -/
def step (env : Env) (o : Obj) : Op → Obj
  | .set n v => (setAttr o n v).obj
  | .delete n => (delAttr o n).obj
  | .addVariable n v t d => (addVariable o n v t d).obj
  | .addAttribute n v => (addAttribute o n v).obj
  | .addMissing m opt vb => (addMissing env o m opt vb).obj
  | .verify ih mode => (verify env o ih mode).obj
  | .getDimension d => (getDimension env o d).obj

/-- The object after a sequence of calls (sofar/sofa.py, methods as cited at `Op`). (sofar/sofa.py:133-685) -/
def run (env : Env) (o : Obj) (ops : List Op) : Obj := ops.foldl (step env) o

end Sofar
