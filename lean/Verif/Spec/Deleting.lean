import Verif.Spec.Checkable
/-!
# Data that can be removed from an object
-/
namespace Sofar.Spec

/-- The data `k` can be spared: the convention does not flag it as mandatory, no other data demands it by a rule, the
object contains no attribute of it if it is a custom variable, and the sizes that it defines are defined by other
variables as well. -/
structure Sparable (env : Env) (o : Obj) (k : Str) : Prop where
  optional : ∀ e f, Dict.get? o.conv k = some e → e.flags = some f → 'm' ∉ f
  convention : k ≠ py% "GLOBAL_SOFAConventions"
  version : k ≠ py% "GLOBAL_SOFAConventionsVersion"
  attributes : ∀ c, o.custom = some c → k ∈ c.map Prod.fst → ∀ rest e, '_' ∉ rest →
    k ++ '_' :: rest ∈ o.attrs.map Prod.fst → Dict.get? o.conv (k ++ '_' :: rest) = some e → e.typ ≠ py% "attribute"
  needed : ∀ key rule v, (key, rule) ∈ env.rules → Dict.get? o.attrs (sofarName key) = some v → sofarName key ≠ k →
    (∀ g ∈ rule.general, sofarName g ≠ k) ∧
    (∀ sp t items name ref, rule.specific = some sp → text v = some t → Dict.get? sp (ruleValue t) = some items →
      SpecItem.dep name ref ∈ items → sofarName name ≠ k)
  sizes : ∀ v e d a x, VariableWith o k v e d → IsFirstAlternative d a → x ∈ a → Str.isLowerC x = true →
    ∃ k' v' e' d' a', k' ≠ k ∧ VariableWith o k' v' e' d' ∧ IsFirstAlternative d' a' ∧ x ∈ a'

end Sofar.Spec
