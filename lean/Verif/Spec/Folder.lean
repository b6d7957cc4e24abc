import Verif.Spec.Basic
import Verif.Model.Conventions
/-!
# Vocabulary for folders in another order
-/
namespace Sofar.Spec

/-- The convention files are found in another order, everything else is as before. All files are named after their convention
and version, and different files of the same convention have different versions, also as numbers (`1.1` and `1.10` are the
same number). -/
structure Reshuffled (env env' : Env) : Prop where
  rest : env' = { env with files := env'.files }
  files : env'.files.Perm env.files
  regular : ∀ f ∈ env.files, ∃ n w, FileOf f.base n w
  different : ∀ f ∈ env.files, ∀ g ∈ env.files, ∀ n w w', FileOf f.base n w → FileOf g.base n w' →
    (w = w' ∨ ∃ q, pyFloat w = some q ∧ pyFloat w' = some q) → f = g

end Sofar.Spec
