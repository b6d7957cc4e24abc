import Verif.Spec.Csv
import Verif.Spec.Basic
import Verif.Spec.Verify
/-!
# Vocabulary for objects of compiled conventions

Only the data types of the model are used, the conversions of Python that are parameters of the model (`Lang`), and
lower case.
-/
namespace Sofar.Spec

/-- The rows of a csv file: names with their fields. -/
def Table (lang : Lang) (content : Str) (es : List (Str × Dict Cell)) : Prop :=
  ∃ t header lines head fields rows, lang.decode content = .ok t ∧ Lines (unixBreaks t) (header :: lines) ∧
    LineMeans lang header head ∧ head.tail = fields.map Cell.text ∧ (fields.map Str.lower).Nodup ∧
    List.Forall₂ (LineMeans lang) lines rows ∧ List.Forall₂ (EntryOf lang fields) rows es

/-- A number as element of an array. -/
def ElementOf (n : Number) (x : Elem) : Prop :=
  (∃ i : Int, n = .int i ∧ x = .num (.fin i)) ∨ ∃ y, n = .float y ∧ x = .num y

/-- An array of the given numbers in row-major order; integers if there is no float. -/
def NumberArray (l : List Number) (shape : List Nat) (a : Arr) : Prop :=
  List.Forall₂ ElementOf l a.data ∧ a.shape = shape ∧
    (((∀ n ∈ l, ∃ i, n = .int i) ∧ a.kind = .i) ∨ ((∃ x, .float x ∈ l) ∧ a.kind = .f))

/-- `v` is the value that a cell of the column for default values describes. Lists are arrays with at least `letters`
axes, where singleton axes are added. -/
inductive ValueOf (letters : Nat) : Cell → Val → Prop
  | text (s : Str) : ValueOf letters (.text s) (.str s)
  | int (i : Int) : ValueOf letters (.num (.int i)) (.num .i (.num (.fin i)))
  | float (x : Num) : ValueOf letters (.num (.float x)) (.num .f (.num x))
  | list (l : List Number) (a : Arr) : NumberArray l [l.length] a →
    ValueOf letters (.list l) (.arr { a with shape := withAxes letters a.shape })
  | nested (l : List (List Number)) (m : Nat) (a : Arr) : (∀ r ∈ l, r.length = m) →
    NumberArray l.flatten [l.length, m] a → ValueOf letters (.nested l) (.arr { a with shape := withAxes letters a.shape })
  | deep (l : List (List (List Number))) (m n : Nat) (a : Arr) :
    (∀ r ∈ l, r.length = m ∧ ∀ x ∈ r, x.length = n) → NumberArray l.flatten.flatten [l.length, m, n] a →
    ValueOf letters (.deep l) (.arr { a with shape := withAxes letters a.shape })
  | texts (l : List Str) : ValueOf letters (.texts l) (.arr ⟨.U, withAxes letters [l.length], l.map .str⟩)

/-- A cell with text or nothing. -/
def OptText (c : Option Cell) (t : Option Str) : Prop :=
  (c = some .empty ∧ t = none) ∨ ∃ s, c = some (.text s) ∧ t = some s

/-- The convention has the flags, dimensions and type of the row. -/
def SameFields (e : Dict Cell) (x : Entry) : Prop :=
  OptText (Dict.get? e (py% "flags")) x.flags ∧ OptText (Dict.get? e (py% "dimensions")) x.dims ∧
    Dict.get? e (py% "type") = some (.text x.typ)

end Sofar.Spec
namespace Sofar.Spec

/-- No other row has a name that denotes the same data. -/
def OnlyRow (es : List (Str × Dict Cell)) (n : Str) : Prop :=
  ∀ n' e', LastEntry es n' e' → sofarName n' = sofarName n → n' = n

/-- The number of axes that a row prescribes. -/
def Letters (e : Dict Cell) (n : Nat) : Prop :=
  (Dict.get? e (py% "dimensions") = some .empty ∧ n = 0) ∨
    ∃ d alt, Dict.get? e (py% "dimensions") = some (.text d) ∧ IsFirstAlternative d alt ∧ n = alt.length

/-- The table names its own convention and version. -/
def SelfNamed (es : List (Str × Dict Cell)) (c v : Str) : Prop :=
  ∃ e f, LastEntry es (py% "GLOBAL:SOFAConventions") e ∧ OnlyRow es (py% "GLOBAL:SOFAConventions") ∧
    Dict.get? e (py% "default") = some (.text c) ∧
    LastEntry es (py% "GLOBAL:SOFAConventionsVersion") f ∧ OnlyRow es (py% "GLOBAL:SOFAConventionsVersion") ∧
    Dict.get? f (py% "default") = some (.text v)

/-- A new object contains what the table describes: one name for each row, the default values, and, if the table names
its own convention and version, the flags, dimensions and types. API and date stamps are written in any case. -/
structure Describes (es : List (Str × Dict Cell)) (c v : Str) (o : Obj) : Prop where
  names : ∀ k, IsData o k ↔ (∃ n e, LastEntry es n e ∧ k = sofarName n) ∨ k ∈ stampNames
  value : ∀ n e l, LastEntry es n e → sofarName n ∉ stampNames → OnlyRow es n → Letters e l →
    ∃ x w, Dict.get? e (py% "default") = some x ∧ Dict.get? o.attrs (sofarName n) = some w ∧ ValueOf l x w
  fields : SelfNamed es c v → ∀ n e, LastEntry es n e → OnlyRow es n →
    ∃ x, Dict.get? o.conv (sofarName n) = some x ∧ SameFields e x

end Sofar.Spec
namespace Sofar.Spec

/-- A version like `1.0`. -/
def Release (v : Str) : Prop :=
  ∃ a b, v = a ++ '.' :: b ∧ a ≠ [] ∧ b ≠ [] ∧ ∀ c ∈ a ++ b, c ∈ py% "0123456789"

/-- A single text or number. -/
def Single (c : Cell) : Prop := (∃ s, c = .text s) ∨ ∃ n, c = .num n

/-- A list whose rows have the same length. -/
def FullList (c : Cell) : Prop :=
  (∃ l, c = .list l) ∨ (∃ l, c = .texts l) ∨ (∃ l m, c = .nested l ∧ ∀ r ∈ l, r.length = m) ∨
    ∃ l m n, c = .deep l ∧ m ≠ 0 ∧ ∀ r ∈ l, r.length = m ∧ ∀ x ∈ r, x.length = n

/-- Objects can be created from the table: lists are rectangular and have dimensions, and no name has a special meaning
for Python or sofar. -/
structure Usable (es : List (Str × Dict Cell)) : Prop where
  default : ∀ n e, LastEntry es n e → ∃ c, Dict.get? e (py% "default") = some c ∧
    (Single c ∨ (FullList c ∧ ∃ l, Letters e l ∧ l ≠ 0))
  name : ∀ n e, LastEntry es n e → sofarName n ≠ py% "protected" ∧ sofarName n ≠ py% "list_dimensions" ∧
    (sofarName n).head? ≠ some '_'

end Sofar.Spec
