import Verif.Spec.IO
/-!
# Vocabulary for reading single entries from disk
-/
namespace Sofar.Spec

/-- Names of variables as prescribed by the standard: without underscores, apart from the one in `Data_`. -/
def PlainVariable (k : Str) : Prop := '_' ∉ k ∨ ∃ r, k = py% "Data_" ++ r ∧ '_' ∉ r

/-- A number of the object (in an array of kind `k`) and the number in the file: floating point numbers and missing data
are the same, integers are rounded to floating point numbers. -/
def StoredNumber (rnd : Rat → Rat) (k : Kind) (a b : Elem) : Prop :=
  (a = .masked ∧ b = .masked) ∨ (k = .f ∧ b = a) ∨ ∃ q, k ≠ .f ∧ a = .num (.fin q) ∧ b = .num (.fin (rnd q))

/-- The variable of a file holds the value of an entry of the given type: the same elements in the same order, and the
same shape up to dimensions of size one (with the number of characters as an additional dimension for text). -/
inductive HoldsValue (rnd : Rat → Rat) (x : NcVar) (typ : Str) (v : Val) : Prop
  | numbers (ht : typ = py% "double") (hk : x.data.kind = .f) (hs : SameUpToOnes (shapeOf v) x.data.shape)
      (he : List.Forall₂ (StoredNumber rnd (kindOf v)) (elems v) x.data.data)
  | text (s : List Nat) (width : Nat) (ht : typ = py% "string") (hk : x.data.kind = .S) (hd : x.data.shape = s ++ [width])
      (hs : SameUpToOnes (shapeOf v) s) (he : CharsOf width (elems v) x.data.data)

end Sofar.Spec
