import Verif.Model.History
import Verif.Spec.Verify
/-!
# Vocabulary for histories of calls
-/
namespace Sofar.Spec

/-- Calls that do not switch off the protection and, if they add data, use an ordinary name and a value that numpy
can convert. -/
def RegularOp : Op → Prop
  | .set n v => ¬ (n = py% "protected" ∧ v = .pybool false)
  | .addVariable n v _ _ => v ≠ .ragged ∧ Str.startsWith n (py% "_") = false
  | .addAttribute n v => v ≠ .ragged ∧ Str.startsWith n (py% "_") = false
  | _ => True

end Sofar.Spec
