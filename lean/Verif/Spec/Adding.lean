import Verif.Spec.Checkable
/-!
# Custom data that fits to an object
-/
namespace Sofar.Spec

/-- The value `v` fits to an object whose dimensions have the given sizes, as custom data with this name, type and
dimensions (which are ignored for attributes): it has the type, the name uses no key words and is not the subject of
a rule, units are lower case texts (for writing), and its axes have the sizes of the dimensions. Lower case letters
are custom dimensions, all other letters are dimensions that have a size already. -/
structure Fitting (env : Env) (o : Obj) (size : Char → Nat) (write : Bool) (name : Str) (v : Val) (typ : Str)
    (dims : Option Str) : Prop where
  type : HasType typ v
  notPrivate : ¬ (py% "PRIVATE") <+: name
  notApi : ¬ (py% "API") <+: name
  glob : (py% "GLOBAL") <+: name → (py% "GLOBAL_") <+: name ∧ typ = py% "attribute"
  rules : ∀ key rule, (key, rule) ∈ env.rules → sofarName key ≠ name
  units : (py% "Units") <:+ name → typ = py% "attribute" ∧
    (write = true → ∃ u, text v = some u ∧ Str.lower u = u)
  letters : ∀ given stored, dims = some given → CustomLetters given stored →
    ',' ∉ stored ∧ stored.length ≤ 4 ∧ (typ ≠ py% "double" ∨ 'S' ∈ stored → TextColumn v) ∧
    ∀ i c, stored[i]? = some c →
      (if Str.isLowerC c = true then v.shape.getD i 1 = size (Str.upperC c) else Sized o c) ∧
      axisSize (decide (typ = py% "attribute" ∨ typ = py% "string")) stored.length v.shape i =
        (if c = 'S' then 1 else size (Str.upperC c))

end Sofar.Spec
