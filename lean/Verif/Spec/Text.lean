import Verif.Spec.IO
import Verif.Spec.Equals
/-!
# Vocabulary for the texts about objects and files

The definitions do not use the modelled functions.
-/
namespace Sofar.Spec

/-- A value in a text: strings as they are, everything else as formatted by Python. -/
def shown (fmt : Val → Str) (v : Val) : Str := (text v).getD (fmt v)

/-- Meaning of a dimension as documented for `list_dimensions`, depending on the data type and on the types of
receiver and emitter positions. -/
def meaning (dataType receiver emitter d : Str) : Str :=
  if d = py% "M" then py% "measurements"
  else if d = py% "N" then
    (if (py% "FIR") <+: dataType then py% "samples"
     else if (py% "TF") <+: dataType then py% "frequencies" else py% "SOS coefficients")
  else if d = py% "R" then
    (if (py% "harmonic") <:+: receiver then py% "receiver spherical harmonics coefficients" else py% "receiver")
  else if d = py% "E" then
    (if (py% "harmonic") <:+: emitter then py% "emitter spherical harmonics coefficients" else py% "emitter")
  else if d = py% "S" then py% "maximum string length"
  else if d = py% "C" then py% "coordinate dimensions, fixed"
  else if d = py% "I" then py% "single dimension, fixed"
  else py% "custom dimension"

/-- The data types for which the standard defines the meaning of the dimension N. -/
def KnownDataType (t : Str) : Prop := (py% "FIR") <+: t ∨ (py% "TF") <+: t ∨ (py% "SOS") <+: t

/-- The note on the entry that defines a dimension: the first entry of the convention whose dimensions contain the
lower case letter, if any. -/
def SetBy (conv : Dict Entry) (d note : Str) : Prop :=
  (note = [] ∧ ∀ k e dims, (k, e) ∈ conv → e.dims = some dims → ¬ Str.lower d <:+: dims) ∨
  ∃ before k e after dims, conv = before ++ (k, e) :: after ∧ e.dims = some dims ∧ Str.lower d <:+: dims ∧
    (∀ k' e' dims', (k', e') ∈ before → e'.dims = some dims' → ¬ Str.lower d <:+: dims') ∧
    note = py% " (set by " ++ k ++ py% " of dimension " ++ Str.upper dims ++ py% ")"

/-- One line on a dimension. -/
def dimensionLine (dataType receiver emitter d : Str) (n : Nat) (note : Str) : Str :=
  d ++ py% " = " ++ Str.ofNat n ++ py% " " ++ meaning dataType receiver emitter d ++ note ++ py% "\n"

/-- The title: names and versions, underlined. -/
def title (c v s : Str) : Str :=
  let t := c ++ py% " " ++ v ++ py% " (SOFA version " ++ s ++ py% ")\n"
  t ++ List.replicate t.length '-' ++ py% "\n"

/-- Number of elements of a value. -/
def count : Val → Nat
  | .arr a => prod a.shape
  | _ => 1

/-- Names of dimensions with sizes, e.g. `(M=100, R=2)`. -/
def sizesText (dims : List Str) (shape : List Nat) : Str :=
  py% "(" ++ Str.join (py% ", ")
    ((List.range dims.length).map (fun i => dims.getD i [] ++ py% "=" ++ Str.ofNat (shape.getD i 1))) ++ py% ")\n"

/-- The array without singleton dimensions. -/
def squeezed (a : Arr) : Arr := ⟨a.kind, a.shape.filter (fun n => n ≠ 1), a.data⟩

/-- The text that `inspect` shows for an entry: the value of attributes and single values, and the sizes of all other
data, with the values of at most six elements. -/
def EntryText (fmt : Val → Str) (o : Obj) (k t : Str) : Prop :=
  ∃ v e, Dict.get? o.attrs k = some v ∧ Dict.get? o.conv k = some e ∧
    (((e.typ = py% "attribute" ∨ count v = 1) ∧ t = k ++ py% " : " ++ shown fmt v ++ py% "\n") ∨
     (e.typ ≠ py% "attribute" ∧ count v ≠ 1 ∧ ∃ a D d, v = .arr a ∧ o.dims = some D ∧ Dict.get? D k = some d ∧
        ((6 < count v ∧ t = k ++ py% " : " ++ sizesText (d.map (fun c => [c])) a.shape) ∨
         (count v ≤ 6 ∧ t = k ++ py% " : " ++ sizesText (d.map (fun c => [c])) a.shape ++ py% "  " ++
            Str.replace (fmt (.arr (squeezed a))) (py% "\n") (py% "\n  ") ++ py% "\n"))))

/-- Texts that belong to the items of a list, one after the other. -/
inductive Texts {α : Type} (P : α → Str → Prop) : List α → Str → Prop
  | nil : Texts P [] []
  | cons (x : α) (l : List α) (t s : Str) : P x t → Texts P l s → Texts P (x :: l) (t ++ s)

/-- The entry has another type or another value in the second object. -/
def Differs (a b : Obj) (k : Str) : Prop :=
  ¬ ∀ v w ea eb, Dict.get? a.attrs k = some v → Dict.get? b.attrs k = some w →
    Dict.get? a.conv k = some ea → Dict.get? b.conv k = some eb → ea.typ = eb.typ ∧ SameValue ea.typ v w

/-- The convention flags an entry as read only. -/
def IsReadOnly (e : Entry) : Prop := ∃ f, e.flags = some f ∧ 'r' ∈ f

/-- The entries that `info` shows for a selection, as documented. -/
def Selected (sel : Str) (e : Entry) : Prop :=
  sel = py% "all" ∨ (sel = py% "mandatory" ∧ IsMandatory e) ∨ (sel = py% "optional" ∧ ¬ IsMandatory e) ∨
    (sel = py% "read only" ∧ IsReadOnly e) ∨ (sel = py% "data" ∧ e.typ ≠ py% "attribute")

/-- Text that `info` shows for a selected entry: name, type, dimensions, flags, and comment. -/
def InfoText (k : Str) (e : Entry) (t : Str) : Prop :=
  ∃ dims man ro com, t = k ++ py% " : " ++ e.typ ++ dims ++ man ++ ro ++ com ++ py% "\n" ∧
    (((e.dims = none ∨ e.dims = some []) ∧ dims = []) ∨
      ∃ d, e.dims = some d ∧ d ≠ [] ∧ dims = py% " (" ++ Str.upper d ++ py% ")") ∧
    ((IsMandatory e ∧ man = py% ", mandatory") ∨ (¬ IsMandatory e ∧ man = py% ", optional")) ∧
    ((IsReadOnly e ∧ ro = py% ", read only") ∨ (¬ IsReadOnly e ∧ ro = [])) ∧
    ((e.comment = [] ∧ com = []) ∨ (e.comment ≠ [] ∧ com = py% "\n    " ++ e.comment))

/-- Text with all information on one entry. -/
def FullText (show_ : Inp → Str) (k : Str) (e : Entry) (t : Str) : Prop :=
  ∃ man ro dims, t = k ++ py% "\n    type: " ++ e.typ ++ py% "\n    mandatory: " ++ man ++ py% "\n    read only: " ++ ro ++
      py% "\n    default: " ++ show_ e.default ++ py% "\n    shape: " ++ dims ++ py% "\n    comment: " ++ e.comment ++ py% "\n" ∧
    ((IsMandatory e ∧ man = py% "True") ∨ (¬ IsMandatory e ∧ man = py% "False")) ∧
    ((IsReadOnly e ∧ ro = py% "True") ∨ (¬ IsReadOnly e ∧ ro = py% "False")) ∧
    ((e.dims = none ∧ dims = py% "NONE") ∨ ∃ d, e.dims = some d ∧ dims = Str.upper d)

/-- Texts of some items of a list, in order: `P x t` for the texts of the items with `S x`, nothing for the others. -/
inductive SomeTexts {α : Type} (S : α → Prop) (P : α → Str → Prop) : List α → Str → Prop
  | nil : SomeTexts S P [] []
  | skip (x : α) (l : List α) (s : Str) : ¬ S x → SomeTexts S P l s → SomeTexts S P (x :: l) s
  | cons (x : α) (l : List α) (t s : Str) : S x → P x t → SomeTexts S P l s → SomeTexts S P (x :: l) (t ++ s)

/-- Name of a variable of a file in sofar: with underscores instead of dots. -/
def underscored (s : Str) : Str := s.map (fun c => if c = '.' then '_' else c)

/-- The text on the values of a variable of a file: the value of single elements, and the sizes of all other data, with
the values of at most six elements. -/
def StreamValue (fmt : Val → Str) (x : NcVar) (t : Str) : Prop :=
  (prod x.data.shape = 1 ∧ ∃ v, t = shown fmt v ++ py% "\n" ∧
    ((∃ e, x.data.shape = [1] ∧ x.data.data.head? = some e ∧ v = .num x.data.kind e) ∨
     ∃ s, s ≠ [] ∧ x.data.shape = 1 :: s ∧ v = .arr ⟨x.data.kind, s, x.data.data⟩)) ∨
  (prod x.data.shape ≠ 1 ∧
    ((6 < prod x.data.shape ∧ t = sizesText x.dims x.data.shape) ∨
     (prod x.data.shape ≤ 6 ∧ t = sizesText x.dims x.data.shape ++ py% "  " ++
        Str.replace (fmt (.arr (squeezed x.data))) (py% "\n") (py% "\n  ") ++ py% "\n")))

/-- The text on a variable of a file, followed by the texts of its attributes. -/
def StreamVariable (fmt : Val → Str) (p : Str × NcVar) (t : Str) : Prop :=
  ∃ v a, t = underscored p.1 ++ py% " : " ++ v ++ a ∧ StreamValue fmt p.2 v ∧
    Texts (fun n s => ∃ y, Dict.get? p.2.attrs n = some (.str y) ∧
      s = underscored p.1 ++ py% "_" ++ n ++ py% " : " ++ y ++ py% "\n") (p.2.attrs.map Prod.fst) a

end Sofar.Spec
