import Verif.Spec.Verify
import Verif.Spec.Basic
import Mathlib.Data.List.Forall2
/-!
# Vocabulary for conventions with additional optional rows
-/
namespace Sofar.Spec

/-- The second file has the rows of the first file and, somewhere between them, optional rows with new names. -/
structure Extends (new : List Str) (f f' : ConvFile) : Prop where
  base : f'.base = f.base
  rows : f.content = f'.content.filter (fun p => ! new.contains (sofarName p.1))
  optional : ∀ key e, (key, e) ∈ f'.content → sofarName key ∈ new → ¬ IsMandatory e

/-- Conventions were extended by optional rows, everything else is as before. -/
structure Extended (new : List Str) (env env' : Env) : Prop where
  files : List.Forall₂ (Extends new) env.files env'.files
  rest : env' = { env with files := env'.files }
  name : py% "GLOBAL_SOFAConventions" ∉ new
  version : py% "GLOBAL_SOFAConventionsVersion" ∉ new

/-- The object uses none of the new names: neither for its data, nor for custom data (where `GLOBAL_` in names does not
count). -/
structure Unused (new : List Str) (o : Obj) : Prop where
  data : ∀ k ∈ new, Dict.get? o.attrs k = none
  custom : ∀ c k e, o.custom = some c → (k, e) ∈ c → k ∉ new ∧
    ∀ n ∈ new, Str.replace k (py% "GLOBAL_") [] ≠ Str.replace n (py% "GLOBAL_") []

end Sofar.Spec
