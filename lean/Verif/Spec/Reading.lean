import Verif.Spec.Stream
import Verif.Model.Stream
/-!
# Vocabulary for comparing the ways of reading a file
-/
namespace Sofar.Spec

/-- The value `w` of an object is what a stream delivers: the same value for attributes, and the numbers or texts of a variable,
with missing data masked. -/
inductive Delivers (isFill : Kind → Num → Bool) (w : Val) : Got → Prop
  | attribute_ : Delivers isFill w (.value w)
  | numbers (x : NcVar) (hn : x.data.kind ≠ .S) (hs : SameUpToOnes (shapeOf w) x.data.shape)
      (he : MaskedAs isFill x.data.kind x.data.data (elems w)) : Delivers isFill w (.variable_ x)
  | text (x : NcVar) (s : List Nat) (width : Nat) (hn : x.data.kind = .S) (hd : x.data.shape = s ++ [width])
      (hs : SameUpToOnes (shapeOf w) s) (he : CharsOf width (elems w) x.data.data) : Delivers isFill w (.variable_ x)

/-- Names in a file as prescribed by the standard. -/
structure StandardNames (f : NcFile) : Prop where
  /-- names are unique, which the netCDF format guarantees -/
  unique : (f.vars.map Prod.fst).Nodup ∧ (f.attrs.map Prod.fst).Nodup ∧ ∀ n x, (n, x) ∈ f.vars → (x.attrs.map Prod.fst).Nodup
  /-- the names of variables have no underscores and dots, apart from `Data.` at the beginning -/
  vars : ∀ n x, (n, x) ∈ f.vars → ('_' ∉ n ∧ '.' ∉ n) ∨ ∃ r, n = py% "Data." ++ r ∧ '_' ∉ r ∧ '.' ∉ r
  /-- the names of attributes of variables have no underscores, and the name of the variable does not end with `Data` or
  `GLOBAL` -/
  attributes : ∀ n x a v, (n, x) ∈ f.vars → (a, v) ∈ x.attrs →
    a = py% "_Encoding" ∨ ('_' ∉ a ∧ ¬ (py% "Data") <:+ n ∧ ¬ (py% "GLOBAL") <:+ n)
  /-- global attributes have no underscores and do not have the name of a variable -/
  globals : ∀ a v, (a, v) ∈ f.attrs → '_' ∉ a ∧ a ∉ f.vars.map Prod.fst

end Sofar.Spec
