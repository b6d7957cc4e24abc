import Verif.Spec.Basic
/-!
# Vocabulary for the properties of `Sofa.verify`

The definitions do not use the modelled functions.
-/
namespace Sofar.Spec

/-- All data that the convention of the object flags as mandatory is there. -/
def HasMandatory (o : Obj) : Prop :=
  ∀ k e f, (k, e) ∈ o.conv → e.flags = some f → 'm' ∈ f → k ∈ o.attrs.map Prod.fst

/-- A string (also `numpy.str_`). -/
def IsString (v : Val) : Prop := (∃ s, v = .str s) ∨ (∃ s, v = .npstr s)

/-- A number or array of integer or floating point type. -/
def IsNumeric (v : Val) : Prop :=
  (∃ e, v = .num .i e) ∨ (∃ e, v = .num .f e) ∨ (∃ a, v = .arr a ∧ (a.kind = .i ∨ a.kind = .f))

/-- A string or a numpy array of (unicode) strings. -/
def IsStringVariable (v : Val) : Prop := IsString v ∨ ∃ a, v = .arr a ∧ a.kind = .U

/-- The value has the type that the convention asks for. -/
def HasType (typ : Str) (v : Val) : Prop :=
  (typ = py% "attribute" ∧ IsString v) ∨ (typ = py% "double" ∧ IsNumeric v) ∨
  (typ = py% "string" ∧ IsStringVariable v)

/-- `alt` is one of the alternatives in a dimension string such as `"IC, MC"`. -/
def IsAlternative (dims alt : Str) : Prop :=
  ∃ before after : List Str, Str.join (py% ", ") (before ++ alt :: after) = dims ∧
    ∀ a ∈ before ++ alt :: after, ¬ (py% ", ") <:+: a

/-- `alt` is the first alternative in a dimension string. -/
def IsFirstAlternative (dims alt : Str) : Prop :=
  ∃ after : List Str, Str.join (py% ", ") (alt :: after) = dims ∧ ∀ a ∈ alt :: after, ¬ (py% ", ") <:+: a

/-- All alternatives of the dimension string consist of `n` letters, e.g. 2 in `"IC, MC"`. -/
def UniformDims (dims : Str) (n : Nat) : Prop := ∀ a, IsAlternative dims a → a.length = n ∧ ',' ∉ a

/-- Number of elements of an array of the given shape. -/
def prod : List Nat → Nat
  | [] => 1
  | n :: l => n * prod l

/-- Unit strings: units that are separated by `','` or `', '`. -/
inductive Units : Str → List Str → Prop
  | one (u : Str) : ',' ∉ u → Units u [u]
  | comma (u t : Str) (us : List Str) : ',' ∉ u → (∀ t', t ≠ ' ' :: t') → Units t us →
      Units (u ++ ',' :: t) (u :: us)
  | commaSpace (u t : Str) (us : List Str) : ',' ∉ u → Units t us → Units (u ++ ',' :: ' ' :: t) (u :: us)

/-- Every unit is an alias of the reference unit at the same position. -/
inductive AliasOf (aliases : Dict Str) : List Str → List Str → Prop
  | nil : AliasOf aliases [] []
  | cons (t r : Str) (ts rs : List Str) : Dict.get? aliases t = some r → AliasOf aliases ts rs →
      AliasOf aliases (t :: ts) (r :: rs)

/-- The text of a value that is a string. -/
def text : Val → Option Str
  | .str s => some s
  | .npstr s => some s
  | _ => none

/-- A value agrees with one of the allowed values: literally or, except for the names of data type and
convention, in lower case or (units) up to aliases. -/
def Allowed (aliases : Dict Str) (key : Str) (v : Val) (allowed : List Str) : Prop :=
  ∃ t, text v = some t ∧
    (t ∈ allowed ∨
      (key ≠ py% "GLOBAL_DataType" ∧ key ≠ py% "GLOBAL_SOFAConventions" ∧
        (Str.lower t ∈ allowed ∨
          ((py% "Units") <:+ key ∧ ∃ r ut ur, allowed = [r] ∧ Units (Str.lower t) ut ∧ Units r ur ∧
            AliasOf aliases ut ur))))

/-- Name of an entry in the object for a name in the tables, e.g. `Data.IR:Units` becomes `Data_IR_Units`. -/
def sofarName (n : Str) : Str := n.map (fun c => if c = '.' ∨ c = ':' then '_' else c)

/-- The entries of a convention from the rows of its file: every row gives an entry, every entry comes from a row, and if
different rows give different entries, then the entries are the rows in the same order. -/
structure TableOf (rows conv : Dict Entry) : Prop where
  names : (conv.map Prod.fst).Nodup
  only : ∀ k e, (k, e) ∈ conv → ∃ k0, (k0, e) ∈ rows ∧ k = sofarName k0
  all : ∀ k0 e, (k0, e) ∈ rows → sofarName k0 ∈ conv.map Prod.fst
  regular : (rows.map (fun p => sofarName p.1)).Nodup → conv = rows.map (fun p => (sofarName p.1, p.2))

/-- The coordinate types are compared in lower case, all other values literally. -/
def ruleValue (t : Str) : Str :=
  if Str.lower t ∈ [py% "cartesian", py% "spherical", py% "spherical harmonics"] then Str.lower t else t

/-- The public methods and properties of the class. -/
def methodNames : List Str :=
  [py% "list_dimensions", py% "get_dimension", py% "info", py% "inspect", py% "add_missing",
   py% "add_variable", py% "add_attribute", py% "delete", py% "protected", py% "upgrade_convention",
   py% "verify", py% "copy"]

/-- The name is neither private nor the name of a method of the class. -/
def OrdinaryName (n : Str) : Prop := n ∉ methodNames ∧ Str.startsWith n (py% "_") = false

/-- All names that are mentioned in a rule are ordinary names. -/
structure OrdinaryRule (key : Str) (rule : Rule) : Prop where
  name : OrdinaryName (sofarName key)
  general : ∀ g ∈ rule.general, OrdinaryName (sofarName g)
  specific : ∀ sp t items, rule.specific = some sp → Dict.get? sp t = some items →
    ∀ k ref, SpecItem.dep k ref ∈ items → OrdinaryName (sofarName k)

/-- A specific dependency holds: dimensions have one of the prescribed sizes, data is there and has one of the
allowed values. -/
def ItemHolds (aliases : Dict Str) (o : Obj) : SpecItem → Prop
  | .dims l => ∀ d sizes str, (d, sizes, str) ∈ l → ∃ n, Dict.get? (o.api.getD []) d = some n ∧ n ∈ sizes
  | .dep k ref => ∃ w, Dict.get? o.attrs (sofarName k) = some w ∧
      ∀ l, ref = some l → Allowed aliases (sofarName k) w l

/-- The object obeys a rule from the rule set. -/
def RuleHolds (aliases : Dict Str) (o : Obj) (key : Str) (rule : Rule) : Prop :=
  ∀ v, Dict.get? o.attrs (sofarName key) = some v →
    (∀ l, rule.value = some l → Allowed aliases (sofarName key) v l) ∧
    (∀ g ∈ rule.general, ∃ w, Dict.get? o.attrs (sofarName g) = some w) ∧
    (∀ sp t items, rule.specific = some sp → text v = some t → Dict.get? sp (ruleValue t) = some items →
      ∀ i ∈ items, ItemHolds aliases o i)

end Sofar.Spec

namespace Sofar.Spec

/-- Size of axis `i` of a variable of shape `s` for which the convention prescribes `letters` dimensions. Missing
dimensions count as singleton dimensions; numeric vectors are row vectors, unless the variable has a single
dimension, whose size is the number of elements. -/
def axisSize (isString : Bool) (letters : Nat) (s : List Nat) (i : Nat) : Nat :=
  if isString then s.getD i 1
  else if letters ≤ 1 then (if i = 0 then prod s else 1)
  else
    match s with
    | [n] => if i = 1 then n else 1
    | s => s.getD i 1

/-- Length of the longest string in a value. -/
def longest : List Elem → Nat
  | [] => 0
  | .str s :: l => max s.length (longest l)
  | _ :: l => longest l

end Sofar.Spec

namespace Sofar.Spec

/-- The entries of a convention have ordinary names and usable default values. -/
def RegularConvention (conv : Dict Entry) : Prop :=
  ∀ k e, (k, e) ∈ conv → OrdinaryName k ∧ e.default ≠ .ragged

/-- The convention flags the data as mandatory. -/
def MandatoryIn (conv : Dict Entry) (k : Str) : Prop := ∃ e, Dict.get? conv k = some e ∧ IsMandatory e

/-- The convention flags the data as read only. -/
def ReadOnlyIn (conv : Dict Entry) (k : Str) : Prop :=
  ∃ e f, Dict.get? conv k = some e ∧ e.flags = some f ∧ 'r' ∈ f

end Sofar.Spec
