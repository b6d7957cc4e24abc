import Verif.Spec.IO
/-!
# Vocabulary for repeated round trips
-/
namespace Sofar.Spec

/-- What the dimensions and the text of an object must look like so that the object that was read from a file can be
stored without loss, too: no dimension is called `s`, and if there is text, then not all of it is empty or consists of NUL
characters. -/
structure Repeatable (o : Obj) : Prop where
  dims : ∀ k v e d, IsVariable o k v e → e.dims = some d → 's' ∉ d
  texts : ∀ k v e, IsVariable o k v e → e.typ = py% "string" →
    ∃ k' v' e' s c, IsVariable o k' v' e' ∧ e'.typ = py% "string" ∧ .str s ∈ elems v' ∧ c ∈ s ∧ c ≠ Char.ofNat 0

end Sofar.Spec
