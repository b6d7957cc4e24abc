import Verif.Spec.Verify
/-!
# Unit strings with all separators of the standard
-/
namespace Sofar.Spec

/-- Unit strings: units without commas and spaces that are separated by `','`, `', '` or `' '`. -/
inductive SeparatedUnits : Str → List Str → Prop
  | one (u : Str) : ',' ∉ u → ' ' ∉ u → SeparatedUnits u [u]
  | comma (u t : Str) (us : List Str) : ',' ∉ u → ' ' ∉ u → (∀ t', t ≠ ' ' :: t') → SeparatedUnits t us →
      SeparatedUnits (u ++ ',' :: t) (u :: us)
  | commaSpace (u t : Str) (us : List Str) : ',' ∉ u → ' ' ∉ u → SeparatedUnits t us →
      SeparatedUnits (u ++ ',' :: ' ' :: t) (u :: us)
  | space (u t : Str) (us : List Str) : ',' ∉ u → ' ' ∉ u → SeparatedUnits t us →
      SeparatedUnits (u ++ ' ' :: t) (u :: us)

/-- A version as Python prints the number: `major.minor` with a single digit after the dot and without leading
zeros. -/
def PlainVersion (v : Str) : Prop :=
  (∃ major minor, SimpleVersion v major minor) ∧ ∀ x t, v = '0' :: x :: t → x = '.'

end Sofar.Spec
