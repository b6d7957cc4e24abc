import Verif.Spec.Verify
/-!
# Vocabulary for changed sets of rules
-/
namespace Sofar.Spec

/-- The name stands for data that neither the object nor any convention knows. -/
structure Unknown (env : Env) (o : Obj) (k : Str) : Prop where
  ordinary : OrdinaryName k
  absent : Dict.get? o.attrs k = none
  files : ∀ f ∈ env.files, ∀ key e, (key, e) ∈ f.content → sofarName key ≠ k
  custom : ∀ c e, o.custom = some c → (k, e) ∉ c
  stamps : k ∉ stampNames

end Sofar.Spec
