import Verif.Spec.Verify
import Verif.Spec.Basic
import Mathlib.Data.List.Forall2
/-!
# Vocabulary for conventions with the rows in another order
-/
namespace Sofar.Spec

/-- The files have the same rows in any order, and the rows have different names in sofar. -/
structure SameRows (f f' : ConvFile) : Prop where
  base : f'.base = f.base
  rows : f'.content.Perm f.content
  names : (f.content.map (fun p => sofarName p.1)).Nodup

/-- The rows of the conventions are in another order, everything else is as before. -/
structure Rearranged (env env' : Env) : Prop where
  files : List.Forall₂ SameRows env.files env'.files
  rest : env' = { env with files := env'.files }

/-- The rows of a convention have different names in sofar, and no two rows define the same dimension, that is: have the
same letter in lower case in the first alternative of their dimensions. -/
structure DefineOnce (env : Env) : Prop where
  names : ∀ f ∈ env.files, (f.content.map (fun p => sofarName p.1)).Nodup
  once : ∀ f ∈ env.files, ∀ k k' e e' d d' a a' x x', (k, e) ∈ f.content → (k', e') ∈ f.content → k ≠ k' →
    e.dims = some d → e'.dims = some d' → IsFirstAlternative d a → IsFirstAlternative d' a' → x ∈ a → x' ∈ a' →
    Str.isLowerC x = true → Str.isLowerC x' = true → Str.upperC x ≠ Str.upperC x'

/-- No row of the conventions is called `protected`. -/
def NoProtected (env : Env) : Prop := ∀ f ∈ env.files, ∀ key e, (key, e) ∈ f.content → sofarName key ≠ py% "protected"

end Sofar.Spec
