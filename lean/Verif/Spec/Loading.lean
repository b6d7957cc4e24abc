import Verif.Spec.Verify
import Verif.Spec.Misc
import Verif.Spec.Text
/-!
# Vocabulary for the convention that is used by the checks

Only the data types of the model are used.
-/
namespace Sofar.Spec

/-- All files are named after their convention and version, the version is written like `1.0`, there is one file for each
version, and different rows describe different attributes. -/
structure RegularFolder (env : Env) : Prop where
  names : ∀ f ∈ env.files, ∃ n w, FileOf f.base n w ∧ PlainVersion w
  unique : (env.files.map ConvFile.base).Nodup
  rows : ∀ f ∈ env.files, (f.content.map (fun p => sofarName p.1)).Nodup

/-- The file of the convention and version that the object names. -/
def Names (env : Env) (o : Obj) (f : ConvFile) : Prop :=
  f ∈ env.files ∧ ∃ c n v, Dict.get? o.attrs (py% "GLOBAL_SOFAConventions") = some c ∧ text c = some n ∧
    Dict.get? o.attrs (py% "GLOBAL_SOFAConventionsVersion") = some v ∧ FileOf f.base n (shown env.fmt v)

/-- The rows of the file with the names of the attributes of objects. -/
def rowsOf (f : ConvFile) : Dict Entry := f.content.map (fun p => (sofarName p.1, p.2))

/-- The custom entries that are not rows of the file. -/
def customOf (f : ConvFile) (c : Dict Entry) : Dict Entry := c.filter (fun p => p.1 ∉ (rowsOf f).map Prod.fst)

/-- The object after loading the convention from the file: the rows of the file, then the custom entries. Custom entries that
are rows of the file are not custom any more. Nothing else changes. -/
def withRows (f : ConvFile) (o : Obj) : Obj :=
  { o with conv := rowsOf f ++ customOf f (o.custom.getD []), custom := o.custom.map (customOf f) }

/-- The rows are known, but the data may have changed. -/
def Uses (f : ConvFile) (o o' : Obj) : Prop := o'.conv = (withRows f o).conv ∧ o'.custom = (withRows f o).custom

end Sofar.Spec
