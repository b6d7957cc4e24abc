import Verif.Spec.Verify
/-!
# Different spellings of the same value
-/
namespace Sofar.Spec

/-- Some rule allows only the values `l` for the data `k`. -/
def Restricts (env : Env) (k : Str) (l : List Str) : Prop :=
  (∃ key rule, (key, rule) ∈ env.rules ∧ sofarName key = k ∧ rule.value = some l) ∨
  ∃ key rule sp t items key', (key, rule) ∈ env.rules ∧ rule.specific = some sp ∧ Dict.get? sp t = some items ∧
    SpecItem.dep key' (some l) ∈ items ∧ sofarName key' = k

/-- The texts list the same units: at each position there are two names (up to case) of one unit. -/
def SameUnits (aliases : Dict Str) (t t' : Str) : Prop :=
  ∃ us us', Units (Str.lower t) us ∧ Units (Str.lower t') us' ∧ us.length = us'.length ∧
    ∀ (i : Nat) u u', us[i]? = some u → us'[i]? = some u' → ∃ c, Dict.get? aliases u = some c ∧ Dict.get? aliases u' = some c

/-- The rules prescribe one text, that lists units by their names. -/
def UnitReference (aliases : Dict Str) (l : List Str) : Prop :=
  ∃ r ur, l = [r] ∧ Str.lower r = r ∧ Units r ur ∧ ∀ u ∈ ur, Dict.get? aliases u = some u

/-- An attribute in all tables that have it and in the custom data, and neither the name nor the version of the convention. -/
structure PlainAttribute (env : Env) (o : Obj) (k : Str) : Prop where
  files : ∀ f ∈ env.files, ∀ key e, (key, e) ∈ f.content → sofarName key = k → e.typ = py% "attribute" ∧ e.dims = none
  custom : ∀ c e, o.custom = some c → (k, e) ∈ c → e.typ = py% "attribute" ∧ e.dims = none
  notName : k ≠ py% "GLOBAL_SOFAConventions"
  notVersion : k ≠ py% "GLOBAL_SOFAConventionsVersion"

end Sofar.Spec
