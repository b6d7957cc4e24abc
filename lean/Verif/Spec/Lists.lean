import Verif.Model.Lists
import Verif.Spec.Upgrade
/-!
# Nested lists
-/
namespace Sofar.Spec

/-- A value that is no list. -/
def IsItem : PyVal → Prop
  | .list _ => False
  | _ => True

/-- The number that a value stands for. -/
def NumberOf : PyVal → Num → Prop
  | .bool b, x => x = .fin (if b then 1 else 0)
  | .int i, x => x = .fin (i : Rat)
  | .float y, x => x = y
  | _, _ => False

/-- `l[i]…[j]` is the value. -/
inductive At : PyVal → List Nat → PyVal → Prop where
  | here (v : PyVal) : At v [] v
  | inside (l : List PyVal) (i : Nat) (w : PyVal) (ix : List Nat) (x : PyVal) : l[i]? = some w → At w ix x → At (.list l) (i :: ix) x

/-- The nested list is rectangular and has the given numbers of elements on its levels. -/
inductive Rect : PyVal → List Nat → Prop where
  | item (v : PyVal) : IsItem v → Rect v []
  | empty : Rect (.list []) [0]
  | list (l : List PyVal) (s : List Nat) : l ≠ [] → (∀ w ∈ l, Rect w s) → Rect (.list l) (l.length :: s)

/-- All values in the nested list are numbers. -/
def AllNumbers (v : PyVal) : Prop := ∀ ix x, At v ix x → IsItem x → ∃ q, NumberOf x q

/-- All values in the nested list are texts. -/
def AllTexts (v : PyVal) : Prop := ∀ ix x, At v ix x → IsItem x → ∃ s, x = .str s

/-- Some value in the nested list is a float. -/
def HasFloat (v : PyVal) : Prop := ∃ ix q, At v ix (.float q)

/-- Some value in the nested list is an integer. -/
def HasInt (v : PyVal) : Prop := ∃ ix i, At v ix (.int i)

/-- The data type of a list of numbers: float if there is a float or no number at all, otherwise integer if there is an integer,
otherwise bool. -/
def NumberKind (v : PyVal) (k : Kind) : Prop :=
  (HasFloat v → k = .f) ∧ (¬ HasFloat v → HasInt v → k = .i) ∧
  (¬ HasFloat v → ¬ HasInt v → (∃ ix b, At v ix (.bool b)) → k = .b) ∧ ((∀ ix x, At v ix x → ¬ IsItem x) → k = .f)

/-- Lists with one level get a leading level. -/
def twoLevels (shape : List Nat) : List Nat := if shape.length = 1 then 1 :: shape else shape

/-- The index that belongs to the shape with the leading level. -/
def twoIndex (ix : List Nat) : List Nat := if ix.length = 1 then 0 :: ix else ix

end Sofar.Spec
