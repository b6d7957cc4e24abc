import Verif.Spec.FileOrder
import Verif.Model.Stream
/-!
# What streams deliver
-/
namespace Sofar.Spec

/-- What the netCDF format guarantees: no name is used twice for global attributes, variables, or attributes of a
variable. -/
structure OnceNames (f : NcFile) : Prop where
  globals : (f.attrs.map Prod.fst).Nodup
  vars : (f.vars.map Prod.fst).Nodup
  sub : ∀ n x, (n, x) ∈ f.vars → (x.attrs.map Prod.fst).Nodup

/-- The same value, or the same variable with its attributes in any order. -/
def SameGot : Got → Got → Prop
  | .variable_ x, .variable_ y => SameVariable x y
  | .value v, .value w => w = v
  | _, _ => False

/-- Both results are the same error or the same data. -/
def SameAnswer : Except Exc Got → Except Exc Got → Prop
  | .ok g, .ok g' => SameGot g g'
  | .error e, .error e' => e' = e
  | _, _ => False

end Sofar.Spec
