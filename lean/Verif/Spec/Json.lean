import Verif.Model.Json
/-!
# Json text
-/
namespace Sofar.Spec

/-- Decimal digits, at least one. -/
def DigitText (s : Str) : Prop := s ≠ [] ∧ ∀ c ∈ s, c ∈ py% "0123456789"

/-- Text of a number with fraction or exponent: optional minus, digits without leading zeros, `.` with digits, `e` with optional sign
and digits. -/
def FloatText (s : Str) : Prop :=
  ∃ sign digits frac exp : Str, s = sign ++ digits ++ frac ++ exp ∧ (sign = [] ∨ sign = py% "-") ∧
    DigitText digits ∧ (digits.head? = some '0' → digits = py% "0") ∧
    (frac = [] ∨ ∃ f, frac = '.' :: f ∧ DigitText f) ∧
    (exp = [] ∨ ∃ sg e, exp = 'e' :: (sg ++ e) ∧ (sg = [] ∨ sg = py% "-" ∨ sg = py% "+") ∧ DigitText e) ∧
    (frac ≠ [] ∨ exp ≠ [])

/-- The text of the number is that of a float, and it is read as the number. (True for all Python floats.) -/
def Exact (repr : Rat → Str) (float : Str → Option Num) (q : Rat) : Prop :=
  FloatText (repr q) ∧ float (repr q) = some (.fin q)

/-- All dictionaries in the value have different keys, and all finite floats are written in a way that they are read again. -/
inductive Regular (repr : Rat → Str) (float : Str → Option Num) : Json → Prop where
  | null : Regular repr float .null
  | bool (b : Bool) : Regular repr float (.bool b)
  | int (i : Int) : Regular repr float (.int i)
  | float (x : Num) : (∀ q, x = .fin q → Exact repr float q) → Regular repr float (.float x)
  | str (s : Str) : Regular repr float (.str s)
  | arr (l : List Json) : (∀ v ∈ l, Regular repr float v) → Regular repr float (.arr l)
  | obj (d : List (Str × Json)) : (d.map Prod.fst).Nodup → (∀ p ∈ d, Regular repr float p.2) → Regular repr float (.obj d)

end Sofar.Spec
