import Verif.Model.Object
/-!
# Sequences of assignments
-/
namespace Sofar.Spec

/-- The assignments `l` are accepted by the object `o` one after the other and lead to the object `o'`. -/
inductive Assigned : Obj → List (Str × Inp) → Obj → Prop
  | nil (o : Obj) : Assigned o [] o
  | cons {o : Obj} {n : Str} {v : Inp} {l : List (Str × Inp)} {o' : Obj} (h : (setAttr o n v).out = .ok ())
      (ht : Assigned (setAttr o n v).obj l o') : Assigned o ((n, v) :: l) o'

end Sofar.Spec
