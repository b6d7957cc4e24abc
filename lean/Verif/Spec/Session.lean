import Verif.Model.Session
import Verif.Spec.IO
/-!
# What the statements of a session may touch
-/
namespace Sofar.Spec

/-- the statement assigns to the variable or works on its object -/
def Concerns (x : Str) : Stmt → Prop
  | .create y _ _ _ _ => y = x
  | .read y _ _ _ => y = x
  | .readNetcdf y _ => y = x
  | .copy y _ => y = x
  | .call y _ => y = x
  | .upgrade y _ _ => y = x
  | .write _ y _ => y = x

/-- the statement writes to a file name that stands for the path -/
def WritesTo (path : Str) : Stmt → Prop
  | .write filename _ _ => FileFor filename path
  | _ => False

/-- the statement writes the object of the variable to some file, or verifies it and raises the problems found -/
def OnlyWrites : Stmt → Prop
  | .write _ _ _ => True
  | .call _ (.verify .raise _) => True
  | _ => False

/-- the statement does not take its value from a file or from another variable -/
def SelfContained : Stmt → Prop
  | .read _ _ _ _ => False
  | .readNetcdf _ _ => False
  | .copy _ _ => False
  | _ => True

instance (x : Str) : DecidablePred (Concerns x) := by
  intro st; cases st <;> unfold Concerns <;> infer_instance

instance : DecidablePred OnlyWrites := by
  intro st; unfold OnlyWrites; split <;> infer_instance

instance : DecidablePred SelfContained := by
  intro st; unfold SelfContained; split <;> infer_instance

end Sofar.Spec
