import Verif.Spec.IO
/-!
# Vocabulary for the independence of conventions

Only the data types of the model are used.
-/
namespace Sofar.Spec

/-- The files whose names start with the name of the convention and an underscore. -/
def filesOf (env : Env) (c : Str) : List ConvFile := env.files.filter (fun f => decide ((c ++ ['_']) <+: f.base))

/-- Two installations that only differ in the files of other conventions than `c`. All files are named after their
convention and version, and the files of the convention say that they describe this convention. -/
structure SameFor (c : Str) (env env' : Env) : Prop where
  rest : env' = { env with files := env'.files }
  files : filesOf env' c = filesOf env c
  regular : ∀ f ∈ env.files, ∃ n w, FileOf f.base n w
  regular' : ∀ f ∈ env'.files, ∃ n w, FileOf f.base n w
  described : ∀ f ∈ filesOf env c, ∀ p ∈ f.content, sofarName p.1 = py% "GLOBAL_SOFAConventions" → p.2.default = .val (.str c)

/-- The object names no other convention than `c`. -/
def About (c : Str) (o : Obj) : Prop := ∀ n, HasText o (py% "GLOBAL_SOFAConventions") n → n = c

/-- The file names no other convention than `c`: neither as an attribute of the file, nor are there variables with confusing
names. -/
structure FileAbout (c : Str) (f : NcFile) : Prop where
  name : ∀ v, (py% "SOFAConventions", v) ∈ f.attrs → ∀ n, text v = some n → n = c
  vars : ∀ p ∈ f.vars, ¬ (py% "GLOBAL") <+: p.1

end Sofar.Spec
