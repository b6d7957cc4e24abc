import Verif.Spec.Verify
/-!
# Vocabulary for upgrades of conventions

The definitions do not use the modelled functions.
-/
namespace Sofar.Spec

/-- Name and version of the convention of an object. -/
def ConventionOf (o : Obj) (name version : Str) : Prop :=
  ∃ c v, Dict.get? o.attrs (py% "GLOBAL_SOFAConventions") = some c ∧ text c = some name ∧
    Dict.get? o.attrs (py% "GLOBAL_SOFAConventionsVersion") = some v ∧ text v = some version

/-- The row of the upgrade table for a version: the first row that lists the version. -/
def RowFor (up : Upgrade) (version : Str) (targets : List Str) (id : Str) : Prop :=
  ∃ before from_ after, up.fromTo = before ++ (from_, targets, id) :: after ∧ version ∈ from_ ∧
    ∀ r ∈ before, version ∉ r.1

/-- The object can be upgraded to the targets. -/
def Offers (env : Env) (o : Obj) (targets : List Str) : Prop :=
  ∃ name version up id, ConventionOf o name version ∧ Dict.get? env.upgrade name = some up ∧
    RowFor up version targets id

/-- `u` is the rule for the upgrade of the object to the target. -/
def UpgradeRule (env : Env) (o : Obj) (target : Str) (u : UpgradeDef) : Prop :=
  ∃ name version up targets id, ConventionOf o name version ∧ Dict.get? env.upgrade name = some up ∧
    RowFor up version targets id ∧ target ∈ targets ∧ Dict.get? up.defs id = some u

/-- The object is not outdated: its convention is not deprecated and no row of the upgrade table lists its version. -/
def UpToDate (env : Env) (name version : Str) : Prop :=
  name ∉ env.deprecations.map Prod.fst ∧
    ∀ up, Dict.get? env.upgrade name = some up → ∀ r ∈ up.fromTo, version ∉ r.1

/-- Data that every upgrade rewrites. -/
def rewritten : List Str :=
  [py% "GLOBAL_SOFAConventions", py% "GLOBAL_SOFAConventionsVersion", py% "GLOBAL_Version", py% "GLOBAL_DataType"]

/-- Names of the data that an upgrade rule moves or removes. -/
def mentioned (u : UpgradeDef) : List Str :=
  u.move.flatMap (fun p => [sofarName p.1, sofarName p.2.target]) ++ u.remove.map sofarName

/-- Position of an element after moving axis `src` to `dst`: the entry for the axis is taken out and inserted at the new
position. -/
def moveEntry (src dst : Nat) (l : List Nat) : List Nat := (l.eraseIdx src).insertIdx dst (l.getD src 0)

/-- Number of elements before the element with the given multi-index in row-major order. -/
def position : List Nat → List Nat → Nat
  | _ :: s, i :: ix => i * prod s + position s ix
  | _, _ => 0

/-- The element of an array with the given multi-index. -/
def element (a : Arr) (ix : List Nat) : Option Elem := a.data[position a.shape ix]?

/-- The index is within the shape. -/
def Within (shape ix : List Nat) : Prop := ix.length = shape.length ∧ ∀ n, n < shape.length → ix.getD n 0 < shape.getD n 0

end Sofar.Spec
