import Verif.Spec.Checkable
/-!
# Objects in which a dimension has another size
-/
namespace Sofar.Spec

/-- The data of a variable with alternative `a` of its dimensions gets the size `n` along the dimension `c`, and keeps its size along
all other dimensions. `first` is the first alternative, in which lower case letters define the size of dimensions. The type is
the same; the numbers may be different. -/
structure ResizedValue (e : Entry) (first a : Str) (c : Char) (n : Nat) (v v' : Val) : Prop where
  type : HasType e.typ v'
  texts : TextColumn v → TextColumn v'
  axes : ∀ i x, a[i]? = some x →
    axisSize (decide (e.typ = py% "attribute" ∨ e.typ = py% "string")) first.length v'.shape i =
      if Str.upperC x = c then n
      else axisSize (decide (e.typ = py% "attribute" ∨ e.typ = py% "string")) first.length v.shape i
  lengths : ∀ i x, first[i]? = some x → Str.isLowerC x = true →
    v'.shape.getD i 1 = if Str.upperC x = c then n else v.shape.getD i 1

/-- `o'` is `o` with another size `n` of the dimension `c`. Every variable is used with one of the alternatives of its dimensions, for
which it has the sizes that are given by `size`. Attributes are the same. -/
structure Resized (o o' : Obj) (size : Char → Nat) (c : Char) (n : Nat) : Prop where
  hidden : o' = { o with attrs := o'.attrs }
  names : o'.attrs.map Prod.fst = o.attrs.map Prod.fst
  kept : ∀ k v e, Dict.get? o.attrs k = some v → Dict.get? o.conv k = some e → e.dims = none ∨ e.typ = py% "attribute" →
    Dict.get? o'.attrs k = some v
  changed : ∀ k v e d first, VariableWith o k v e d → IsFirstAlternative d first → ∃ a v', IsAlternative d a ∧ 's' ∉ a ∧
    (∀ i x, a[i]? = some x →
      axisSize (decide (e.typ = py% "attribute" ∨ e.typ = py% "string")) first.length v.shape i =
        (if x = 'S' then 1 else size (Str.upperC x))) ∧
    Dict.get? o'.attrs k = some v' ∧ ResizedValue e first a c n v v'

/-- No rule that is in force for the object prescribes the size of the dimension. -/
def FreeSize (env : Env) (o : Obj) (c : Char) : Prop :=
  ∀ key rule v t sp items l d sizes str, (key, rule) ∈ env.rules → Dict.get? o.attrs (sofarName key) = some v → text v = some t →
    rule.specific = some sp → Dict.get? sp (ruleValue t) = some items → SpecItem.dims l ∈ items → (d, sizes, str) ∈ l → d ≠ [c]

end Sofar.Spec
