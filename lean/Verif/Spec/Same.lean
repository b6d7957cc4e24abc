import Verif.Spec.Verify
/-!
# Objects with the same data
-/
namespace Sofar.Spec

/-- The objects have the same data in the same order, and the same custom entries. How they came about does not matter: the
convention, the dimensions, the list of read only data and the protection that they remember may differ. -/
structure SameData (o o' : Obj) : Prop where
  attrs : o'.attrs = o.attrs
  custom : o'.custom = o.custom

/-- The rules for upgrades move and remove data, not private attributes or the protection of the object. -/
def PlainUpgrades (env : Env) : Prop :=
  ∀ c up id u, Dict.get? env.upgrade c = some up → Dict.get? up.defs id = some u →
    (∀ s m, (s, m) ∈ u.move → (sofarName s).head? ≠ some '_' ∧ sofarName m.target ≠ py% "protected") ∧
    ∀ t ∈ u.remove, (sofarName t).head? ≠ some '_'

end Sofar.Spec
