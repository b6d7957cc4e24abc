import Verif.Spec.Checkable
import Verif.Spec.Same
/-!
# Objects with the same data in another order
-/
namespace Sofar.Spec

/-- The same names and values, each name once, in any order. -/
def SameEntries {V : Type} (d d' : Dict V) : Prop := d'.Perm d ∧ (d.map Prod.fst).Nodup

/-- The objects have the same data and the same custom entries, both in any order. What they remember of earlier calls
(convention, dimensions, read only data, protection) may differ. -/
structure Reordered (o o' : Obj) : Prop where
  attrs : SameEntries o.attrs o'.attrs
  custom : (o.custom = none ∧ o'.custom = none) ∨ ∃ c c', o.custom = some c ∧ o'.custom = some c' ∧ SameEntries c c'

/-- The variable `k` defines the size `n` of the dimension `c` (upper case): the letter is in lower case in the first
alternative of its dimensions, and the axis has this size. -/
def Defines (o : Obj) (k : Str) (c : Char) (n : Nat) : Prop :=
  ∃ v e d a i x, VariableWith o k v e d ∧ IsFirstAlternative d a ∧ a[i]? = some x ∧ Str.isLowerC x = true ∧
    Str.upperC x = c ∧ v.shape.getD i 1 = n

/-- Different variables do not contradict each other: if two of them define the size of the same dimension, then they define
the same size. -/
def AgreeOnSizes (o : Obj) : Prop :=
  ∀ k k' c n n', Defines o k c n → Defines o k' c n' → k ≠ k' → n = n'

/-- No custom variable is named like a method. -/
def CustomNoMethod (o : Obj) : Prop := ∀ c k e, o.custom = some c → (k, e) ∈ c → k ∉ methodNames

end Sofar.Spec
