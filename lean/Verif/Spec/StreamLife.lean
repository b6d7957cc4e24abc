import Verif.Model.StreamLife
/-!
# Vocabulary for streams inside and outside of `with` statements

Only the data types of the model are used.
-/
namespace Sofar.Spec

/-- The event opens the netCDF file `f`. -/
def Opens (filename : Str) (f : NcFile) : StreamOp → Prop
  | .enter fs => Dict.get? fs.files filename = some (.nc f)
  | .exit => False

/-- The event opens no file: the `with` statement is left, or there is no netCDF file under the name. -/
def OpensNone (filename : Str) (op : StreamOp) : Prop := ∀ f, ¬ Opens filename f op

/-- No file was ever opened. -/
def Never (filename : Str) (ops : List StreamOp) : Prop := ∀ op ∈ ops, OpensNone filename op

/-- The file `f` was opened when a `with` statement was entered. Since then, no `with` statement was left or entered
successfully. -/
def Inside (filename : Str) (f : NcFile) (ops : List StreamOp) : Prop :=
  ∃ before op after, ops = before ++ op :: after ∧ Opens filename f op ∧
    ∀ x ∈ after, OpensNone filename x ∧ x ≠ .exit

/-- The file `f` was opened, then a `with` statement was left, and no file was opened since then. -/
def Left (filename : Str) (f : NcFile) (ops : List StreamOp) : Prop :=
  ∃ before after, ops = before ++ .exit :: after ∧ Inside filename f before ∧ ∀ x ∈ after, OpensNone filename x

end Sofar.Spec
