import Verif.Spec.Basic
/-!
# Arrays of the same form
-/
namespace Sofar.Spec

/-- Two numeric arrays of the same shape and data type (the texts for the type in error messages agree), which only
differ in the numbers they contain. -/
structure SameForm (env : Env) (a b : Arr) : Prop where
  kind : (a.kind = .i ∨ a.kind = .f) ∧ b.kind = a.kind
  shape : b.shape = a.shape
  length : b.data.length = a.data.length
  numbers : ∀ s, Elem.str s ∉ a.data ∧ Elem.str s ∉ b.data
  dtypeName : env.dtypeName b = env.dtypeName a
  typeName : env.typeName (.arr b) = env.typeName (.arr a)

end Sofar.Spec
