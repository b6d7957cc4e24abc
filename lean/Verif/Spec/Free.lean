import Verif.Spec.Verify
/-!
# Texts that nothing depends on
-/
namespace Sofar.Spec

/-- No rule looks at the data `k`: rules neither prescribe its value nor depend on it. (Rules may demand that it exists.) -/
def NoRule (env : Env) (k : Str) : Prop :=
  (∀ key rule, (key, rule) ∈ env.rules → sofarName key ≠ k) ∧
  ∀ key rule sp t items key' ref, (key, rule) ∈ env.rules → rule.specific = some sp → Dict.get? sp t = some items →
    SpecItem.dep key' (some ref) ∈ items → sofarName key' ≠ k

/-- A free text: an attribute in all tables that have it, neither a unit nor subject to a rule nor the name or version of the
convention. -/
structure FreeText (env : Env) (k : Str) : Prop where
  attr : ∀ f ∈ env.files, ∀ key e, (key, e) ∈ f.content → sofarName key = k → e.typ = py% "attribute" ∧ e.dims = none
  rules : NoRule env k
  unit : ¬ (py% "Units") <:+ k
  notName : k ≠ py% "GLOBAL_SOFAConventions"
  notVersion : k ≠ py% "GLOBAL_SOFAConventionsVersion"

/-- The dates that new objects get. -/
def dateNames : List Str := [py% "GLOBAL_DateCreated", py% "GLOBAL_DateModified"]

/-- The objects have the same names and agree in everything but the dates, which are `t` and `t'`. -/
structure SameButDates (t t' : Str) (o o' : Obj) : Prop where
  names : o'.attrs.map Prod.fst = o.attrs.map Prod.fst
  values : ∀ k, k ∉ dateNames → Dict.get? o'.attrs k = Dict.get? o.attrs k
  dates : ∀ k ∈ dateNames, Dict.get? o.attrs k = some (.str t) ∧ Dict.get? o'.attrs k = some (.str t')
  hidden : o'.conv = o.conv ∧ o'.custom = o.custom ∧ o'.dims = o.dims ∧ o'.api = o.api ∧ o'.readOnly = o.readOnly ∧
    o'.prot = o.prot

end Sofar.Spec
