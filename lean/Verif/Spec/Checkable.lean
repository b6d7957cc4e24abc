import Verif.Spec.Verify
import Verif.Model.Conventions
/-!
# Objects that can be checked, and objects that follow their convention

The definitions do not use the modelled functions (except for `float` of a version string).
-/
namespace Sofar.Spec

/-- `k` is the name of a variable of the object with value `v`, entry `e` in the convention and dimensions `d`. -/
structure VariableWith (o : Obj) (k : Str) (v : Val) (e : Entry) (d : Str) : Prop where
  value : Dict.get? o.attrs k = some v
  entry : Dict.get? o.conv k = some e
  dims : e.dims = some d

/-- The size of a dimension (upper case letter) is defined: `I`, `C`, `S`, or a variable of the object whose first
dimensions contain the lower case letter. -/
def Sized (o : Obj) (c : Char) : Prop :=
  c = 'I' ∨ c = 'C' ∨ c = 'S' ∨ ∃ k v e d a x, VariableWith o k v e d ∧ IsFirstAlternative d a ∧ x ∈ a ∧
    Str.isLowerC x = true ∧ Str.upperC x = c

/-- A string, or strings along at most one axis. -/
def TextColumn (v : Val) : Prop :=
  IsString v ∨ ∃ a n rest, v = .arr a ∧ a.shape = n :: rest ∧ n ≠ 0 ∧ prod rest ≠ 0 ∧ (n = 1 ∨ prod rest = 1) ∧
    ∀ x ∈ a.data, ∃ s, x = .str s

/-- The data can be checked: all data is known to the convention, custom variables were not deleted, string
variables have one axis, dimensions have at most four letters, and every dimension has a size. -/
structure Checkable (o : Obj) : Prop where
  known : ∀ k ∈ o.attrs.map Prod.fst, ∃ e, Dict.get? o.conv k = some e
  custom : ∀ c k e, o.custom = some c → (k, e) ∈ c → e.dims ≠ none → ∃ v e' d, VariableWith o k v e' d
  texts : ∀ k v e d a, VariableWith o k v e d → IsFirstAlternative d a →
    e.typ = py% "string" ∨ e.typ = py% "attribute" ∨ 'S' ∈ a → TextColumn v
  four : ∀ k v e d a, VariableWith o k v e d → IsFirstAlternative d a → a.length ≤ 4
  sized : ∀ k v e d a, VariableWith o k v e d → IsAlternative d a → ∀ c ∈ a, Sized o (Str.upperC c)
  version : ∃ v t q, Dict.get? o.attrs (py% "GLOBAL_SOFAConventionsVersion") = some v ∧ text v = some t ∧
    pyFloat t = some q

/-- The rules fit the convention: values are only prescribed for attributes, a single unit is prescribed, and sizes
are only prescribed for dimensions that exist. -/
structure RegularRules (env : Env) (o : Obj) : Prop where
  ordinary : ∀ p ∈ env.rules, OrdinaryRule p.1 p.2
  typed : ∀ key rule, (key, rule) ∈ env.rules → rule.value ≠ none ∨ rule.specific ≠ none →
    ∀ e, Dict.get? o.conv (sofarName key) = some e → e.typ = py% "attribute"
  unit : ∀ key rule l, (key, rule) ∈ env.rules → rule.value = some l → (py% "Units") <:+ sofarName key → ∃ r, l = [r]
  items : ∀ key rule v t sp items, (key, rule) ∈ env.rules → Dict.get? o.attrs (sofarName key) = some v →
    text v = some t → rule.specific = some sp → Dict.get? sp (ruleValue t) = some items →
    (∀ k l, SpecItem.dep k (some l) ∈ items →
      (∀ e, Dict.get? o.conv (sofarName k) = some e → e.typ = py% "attribute") ∧
      ((py% "Units") <:+ sofarName k → ∃ r, l = [r])) ∧
    (∀ l d sizes str, SpecItem.dims l ∈ items → (d, sizes, str) ∈ l → ∃ c, d = [c] ∧ Sized o c)
  units : ∀ k e, k ∈ o.attrs.map Prod.fst → Dict.get? o.conv k = some e → (py% "Units") <:+ k →
    e.typ = py% "attribute"

/-- The name fits the type: attributes belong to GLOBAL or to a variable of the convention, underscores in names of
variables follow `Data`, and key words are not used. -/
structure LegalName (conv : Dict Entry) (k : Str) (e : Entry) : Prop where
  attr : e.typ = py% "attribute" → ∃ var rest, k = var ++ '_' :: rest ∧ '_' ∉ rest ∧
    ((py% "GLOBAL_") <+: k ∨ var ∈ conv.map Prod.fst)
  var : e.typ ≠ py% "attribute" → ∀ p s, k = p ++ '_' :: s → (py% "Data") <:+ p
  notPrivate : ¬ (py% "PRIVATE") <+: k
  notApi : ¬ (py% "API") <+: k
  glob : (py% "GLOBAL") <+: k → (py% "GLOBAL_") <+: k ∧ e.typ = py% "attribute"

/-- A specific dependency holds if dimensions have the given sizes. -/
def ItemObeyed (aliases : Dict Str) (o : Obj) (size : Char → Nat) : SpecItem → Prop
  | .dims l => ∀ d sizes str, (d, sizes, str) ∈ l → ∃ c, d = [c] ∧ c ≠ 'S' ∧ Sized o c ∧ size c ∈ sizes
  | .dep k ref => ∃ w, Dict.get? o.attrs (sofarName k) = some w ∧
      ∀ l, ref = some l → Allowed aliases (sofarName k) w l

/-- The object obeys a rule if dimensions have the given sizes. -/
def RuleObeyed (aliases : Dict Str) (o : Obj) (size : Char → Nat) (key : Str) (rule : Rule) : Prop :=
  ∀ v, Dict.get? o.attrs (sofarName key) = some v →
    (∀ l, rule.value = some l → Allowed aliases (sofarName key) v l) ∧
    (∀ g ∈ rule.general, ∃ w, Dict.get? o.attrs (sofarName g) = some w) ∧
    (∀ sp t items, rule.specific = some sp → text v = some t → Dict.get? sp (ruleValue t) = some items →
      ∀ i ∈ items, ItemObeyed aliases o size i)

/-- Every variable has the sizes of one of its alternatives of dimensions, where `size` gives the size of the
dimensions. -/
structure FitsSizes (o : Obj) (size : Char → Nat) : Prop where
  I : size 'I' = 1
  C : size 'C' = 3
  /-- the variables that define the size of a dimension have this size -/
  defines : ∀ k v e d a i x, VariableWith o k v e d → IsFirstAlternative d a → a[i]? = some x →
    Str.isLowerC x = true → v.shape.getD i 1 = size (Str.upperC x)
  fits : ∀ k v e d first, VariableWith o k v e d → IsFirstAlternative d first → ∃ a, IsAlternative d a ∧ 's' ∉ a ∧
    ∀ i c, a[i]? = some c →
      axisSize (decide (e.typ = py% "attribute" ∨ e.typ = py% "string")) first.length v.shape i =
        (if c = 'S' then 1 else size (Str.upperC c))

/-- The object follows its convention: all mandatory data is there, and types, names, shapes, values and units are as
prescribed. `write` adds the demands for writing files. -/
structure Conforms (env : Env) (o : Obj) (write : Bool) : Prop where
  mandatory : HasMandatory o
  types : ∀ k v, Dict.get? o.attrs k = some v → ∃ e, Dict.get? o.conv k = some e ∧ HasType e.typ v
  names : ∀ k e, k ∈ o.attrs.map Prod.fst → Dict.get? o.conv k = some e → LegalName o.conv k e
  shapes : ∃ size, FitsSizes o size ∧ ∀ key rule, (key, rule) ∈ env.rules → RuleObeyed env.aliases o size key rule
  units : write = true → ∀ k v, Dict.get? o.attrs k = some v → (py% "Units") <:+ k →
    ∃ u, text v = some u ∧ Str.lower u = u
  current : write = true → ∀ c v, Dict.get? o.attrs (py% "GLOBAL_SOFAConventions") = some v → text v = some c →
    Dict.get? env.deprecations c = none

end Sofar.Spec
