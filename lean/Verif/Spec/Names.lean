import Verif.Model.Names
/-!
# Names of objects
-/
namespace Sofar.Spec

/-- The statement binds the name `x` to an object. -/
def Binds (x : Str) : NStmt → Prop
  | .plain (.create y ..) => y = x
  | .plain (.read y ..) => y = x
  | .plain (.readNetcdf y _) => y = x
  | .plain (.copy y _) => y = x
  | .same y _ => y = x
  | _ => False

/-- The statement uses the name `x`. -/
def Mentions (x : Str) : NStmt → Prop
  | .plain (.create y ..) => y = x
  | .plain (.read y ..) => y = x
  | .plain (.readNetcdf y _) => y = x
  | .plain (.copy y z) => y = x ∨ z = x
  | .plain (.call y _) => y = x
  | .plain (.upgrade y ..) => y = x
  | .plain (.write _ y _) => y = x
  | .same y z => y = x ∨ z = x

/-- Every name refers to an object. -/
def Bound (s : Names) : Prop := ∀ x r, Dict.get? s.refs x = some r → r < s.objs.length

/-- Two names never refer to the same object. -/
def Apart (s : Names) : Prop := ∀ x y r, Dict.get? s.refs x = some r → Dict.get? s.refs y = some r → x = y

end Sofar.Spec
