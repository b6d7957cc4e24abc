import Verif.Spec.IO
import Verif.Spec.Order
import Mathlib.Data.List.Forall2
/-!
# Files with the same content in another order
-/
namespace Sofar.Spec

/-- The same variable, its attributes in any order. -/
structure SameVariable (x x' : NcVar) : Prop where
  dims : x'.dims = x.dims
  data : x'.data = x.data
  attrs : x'.attrs.Perm x.attrs

/-- The same global attributes and variables, both in any order. -/
structure SameContent (f f' : NcFile) : Prop where
  attrs : f'.attrs.Perm f.attrs
  vars : ∃ vars : Dict NcVar, vars.Perm f.vars ∧
    List.Forall₂ (fun p p' => p'.1 = p.1 ∧ SameVariable p.2 p'.2) vars f'.vars

/-- The names that sofar uses for the data of a file, one for each global attribute, variable, and attribute of a variable. -/
def namesInFile (f : NcFile) : List Str :=
  f.attrs.map (fun p => py% "GLOBAL_" ++ p.1) ++
    f.vars.flatMap (fun p => dotName p.1 ::
      (p.2.attrs.filter (fun q => q.1 ≠ py% "_Encoding")).map (fun q => dotName p.1 ++ '_' :: q.1))

/-- The dimensions of all variables are named by single letters, one for each axis. (Commas are no letters.) -/
def LetterDimensions (f : NcFile) : Prop :=
  ∀ n x, (n, x) ∈ f.vars → x.dims.length = x.data.shape.length ∧ ∀ d ∈ x.dims, ∃ c, d = [c] ∧ c ≠ ','

end Sofar.Spec
