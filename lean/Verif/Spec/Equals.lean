import Verif.Spec.Verify
import Mathlib.Data.List.Forall2
/-!
# Vocabulary for the comparison of objects
-/
namespace Sofar.Spec

/-- `x` is close to `y`: the same special value, or a deviation of at most `10^-7` relative to `y`. Masked elements
are close to everything. -/
inductive Close : Elem → Elem → Prop
  | masked_left (y) : Close .masked y
  | masked_right (x) : Close x .masked
  | special (x : Num) : Close (.num x) (.num x)
  | finite (x y : Rat) (h1 : (x - y) * 10000000 ≤ max y (-y)) (h2 : (y - x) * 10000000 ≤ max y (-y)) :
      Close (.num (.fin x)) (.num (.fin y))

/-- Text without trailing NUL characters. -/
def SameText (x y : Elem) : Prop :=
  ∃ s t r m n, x = .str s ∧ y = .str t ∧ s = r ++ List.replicate m (Char.ofNat 0) ∧
    t = r ++ List.replicate n (Char.ofNat 0)

/-- dtype kind of a value -/
def kindOf : Val → Kind
  | .str _ => .U
  | .npstr _ => .U
  | .num k _ => k
  | .arr a => a.kind
  | _ => .O

/-- The array in a value has as many elements as its shape says (true for every numpy array). -/
def Rectangular : Val → Prop
  | .arr a => a.data.length = a.shape.foldr (· * ·) 1
  | _ => True

/-- What numpy guarantees for every value: the number of elements fits to the shape, and the elements fit to the
type. -/
def Proper (v : Val) : Prop :=
  Rectangular v ∧
  (kindOf v = .i ∨ kindOf v = .u ∨ kindOf v = .f ∨ kindOf v = .b → ∀ e ∈ elems v, e = .masked ∨ ∃ x, e = .num x) ∧
  (kindOf v = .U ∨ kindOf v = .S → ∀ e ∈ elems v, ∃ s, e = .str s)

/-- a real number or an array of real numbers (possibly with masked elements) -/
def IsRealData (v : Val) : Prop :=
  Proper v ∧ (kindOf v = .i ∨ kindOf v = .u ∨ kindOf v = .f ∨ kindOf v = .b)

/-- text or an array of texts, with ASCII characters only -/
def IsAsciiText (v : Val) : Prop :=
  Proper v ∧ (kindOf v = .U ∨ kindOf v = .S) ∧ ∀ s, .str s ∈ elems v → ∀ c ∈ s, c.toNat < 128

/-- shape of a value, a number or text has no dimensions -/
def shapeOf : Val → List Nat
  | .arr a => a.shape
  | _ => []

/-- The values of one entry are the same: attributes have the same text, variables have the same shape up to
singleton dimensions and close elements. -/
def SameValue (typ : Str) (v w : Val) : Prop :=
  (typ = py% "attribute" ∧ ∃ t, text v = some t ∧ text w = some t) ∨
  (typ = py% "double" ∧ SameUpToOnes (shapeOf v) (shapeOf w) ∧ List.Forall₂ Close (elems v) (elems w)) ∨
  (typ = py% "string" ∧ SameUpToOnes (shapeOf v) (shapeOf w) ∧ List.Forall₂ SameText (elems v) (elems w))

/-- The value has the type that the convention demands. -/
def ComparableType (typ : Str) (v : Val) : Prop :=
  (typ = py% "attribute" ∧ ∃ t, text v = some t) ∨ (typ = py% "double" ∧ IsRealData v) ∨
  (typ = py% "string" ∧ IsAsciiText v)

/-- All data of the object is known to its convention and has the right type. -/
def Typed (o : Obj) : Prop :=
  ∀ k v, Dict.get? o.attrs k = some v → ∃ e, Dict.get? o.conv k = some e ∧ ComparableType e.typ v

open Classical in
/-- The object without the data whose names satisfy `P`. -/
noncomputable def without (P : Str → Prop) (o : Obj) : Obj :=
  { o with attrs := o.attrs.filter (fun e => ¬ P e.1) }

end Sofar.Spec
