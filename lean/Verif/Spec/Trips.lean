import Verif.Spec.SecondTrip
import Verif.Spec.Checkable
import Verif.Model.IO
/-!
# Vocabulary for any number of round trips
-/
namespace Sofar.Spec

/-- If the first alternative defines the size of a dimension (lower case letter), then the same dimension is at the same
place in all other alternatives, e.g. in `"rCI, rCM"`. -/
def SteadyDims (d : Str) : Prop :=
  ∀ (first alt : Str) (i : Nat) (x : Char), IsFirstAlternative d first → IsAlternative d alt → first[i]? = some x → Str.isLowerC x = true →
    ∃ y, alt[i]? = some y ∧ Str.upperC y = Str.upperC x

/-- Objects that can be exchanged with files any number of times: the data can be checked, only variables have dimensions,
the dimensions are steady, all custom entries belong to data and have the form of `add_variable` and `add_attribute`, and
the rules do not prescribe the length of text. -/
structure Exchangeable (env : Env) (o : Obj) : Prop where
  check : Checkable o
  rules : RegularRules env o
  dimensioned : ∀ k e d, Dict.get? o.conv k = some e → e.dims = some d → e.typ ≠ py% "attribute"
  steady : ∀ k v e d, IsVariable o k v e → e.dims = some d → SteadyDims d
  custom : ∀ c k e, o.custom = some c → (k, e) ∈ c → IsData o k ∧ ∀ d, e.dims = some d → CustomLetters d d
  lengths : ∀ key rule sp t items l d, (key, rule) ∈ env.rules → rule.specific = some sp →
    Dict.get? sp t = some items → SpecItem.dims l ∈ items → d ∈ l.map (·.1) → d ≠ py% "S"

/-- Objects that can be written to files and read from them any number of times: they can be stored without loss, and the
netCDF library accepts their names. -/
structure Portable (env : Env) (nc : Nc) (o : Obj) : Prop where
  storable : Storable env.rnd nc.isFill o
  repeatable : Repeatable o
  exchangeable : Exchangeable env o
  accepted : AcceptedNames nc o
  ascii : AsciiOnly o

/-- The convention `c` can be used in version `v`: new objects can be created and describe themselves, a new object of the
latest version can be created, and both versions can be parsed. -/
structure Supported (env : Env) (c v : Str) : Prop where
  create : ∀ arg, ∃ new, (initSofa env c false (.exact v) arg).out = .ok new ∧ DescribesItself c v new
  latest : ∃ new l pl, (initSofa env c false .latest .auto).out = .ok new ∧
    HasText new (py% "GLOBAL_SOFAConventionsVersion") l ∧ VersionNumbers l pl
  parse : ∃ pv, VersionNumbers v pv

/-- `Trips env nc o o'`: writing `o` to a file, reading this file, writing the object that was read to another file and so
on finally gives `o'`. The files, the compression, and the arguments of `read_sofa` can be different each time. -/
inductive Trips (env : Env) (nc : Nc) : Obj → Obj → Prop
  | none (o : Obj) : Trips env nc o o
  | more (fs : FS) (filename : Str) (compression : Nat) (arg : VerifyArg) (verbose : Bool) (o o' o'' : Obj) :
    (writeSofa env nc fs filename o compression).out = .ok () →
    (readSofa env nc (writeSofa env nc fs filename o compression).fs filename arg verbose).out = .ok o' →
    Trips env nc o' o'' → Trips env nc o o''

end Sofar.Spec
