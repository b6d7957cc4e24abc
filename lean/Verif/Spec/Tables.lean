import Verif.Spec.Basic
/-!
# Vocabulary for tables in another order
-/
namespace Sofar.Spec

/-- The aliases of units, the deprecations and the upgrades are listed in another order, everything else is as before. The
names in each table are different, as in all dictionaries. -/
structure Relisted (env env' : Env) : Prop where
  rest : env' = { env with aliases := env'.aliases, deprecations := env'.deprecations, upgrade := env'.upgrade }
  aliases : env'.aliases.Perm env.aliases
  deprecations : env'.deprecations.Perm env.deprecations
  upgrade : env'.upgrade.Perm env.upgrade
  different : (env.aliases.map Prod.fst).Nodup ∧ (env.deprecations.map Prod.fst).Nodup ∧ (env.upgrade.map Prod.fst).Nodup

end Sofar.Spec
