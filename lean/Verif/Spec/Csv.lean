import Verif.Spec.Update
import Mathlib.Data.List.Forall2
/-!
# Vocabulary for the content of csv files

Only the data types of the model are used, the conversions of Python that are parameters of the model (`Lang`), and
lower case.
-/
namespace Sofar.Spec

/-- `ps` are the parts of a text between the separators. -/
inductive Pieces (sep : Char → Prop) : Str → List Str → Prop
  | last (s : Str) : (∀ c ∈ s, ¬ sep c) → Pieces sep s [s]
  | cons (s : Str) (c : Char) (t : Str) (ps : List Str) :
    (∀ c ∈ s, ¬ sep c) → sep c → Pieces sep t ps → Pieces sep (s ++ c :: t) (s :: ps)

/-- `s` denotes the number `n`: a `float` if there is a dot, otherwise an `int`. -/
def NumberText (lang : Lang) (s : Str) (n : Number) : Prop :=
  ('.' ∈ s ∧ ∃ x, lang.float s = some x ∧ n = .float x) ∨ ('.' ∉ s ∧ ∃ i, lang.int s = some i ∧ n = .int i)

/-- `s` denotes a list of numbers that are separated by single commas or single spaces. -/
def NumbersText (lang : Lang) (s : Str) (l : List Number) : Prop :=
  ∃ t ps, Trimmed s t ∧ Pieces (fun c => c = ' ' ∨ c = ',') t ps ∧ List.Forall₂ (NumberText lang) ps l

/-- The value of a cell: nothing for spaces, numbers, lists in square brackets, nested lists with semicolons, and
otherwise the text without white space at both ends. Lists end before the last character, whatever it is. -/
inductive CellMeans (lang : Lang) (cell : Str) : Cell → Prop
  | empty : (∀ c ∈ cell, c = ' ') → CellMeans lang cell .empty
  | list (r : Str) (l : List Number) : Trimmed cell ('[' :: r) → ';' ∉ r.dropLast →
    NumbersText lang r.dropLast l → CellMeans lang cell (.list l)
  | nested (r : Str) (ps : List Str) (l : List (List Number)) : Trimmed cell ('[' :: r) → ';' ∈ r.dropLast →
    Pieces (· = ';') r.dropLast ps → List.Forall₂ (NumbersText lang) ps l → CellMeans lang cell (.nested l)
  | number (t : Str) (n : Number) : Trimmed cell t → t ≠ [] → t.head? ≠ some '[' → NumberText lang t n →
    CellMeans lang cell (.num n)
  | text (t : Str) : Trimmed cell t → t ≠ [] → t.head? ≠ some '[' → (∀ n, ¬ NumberText lang t n) →
    CellMeans lang cell (.text t)

/-- The cells of a line are separated by tabs; white space (and tabs) at both ends of the line are ignored. -/
def LineMeans (lang : Lang) (line : Str) (row : List Cell) : Prop :=
  ∃ t ps, Trimmed line t ∧ Pieces (· = '\t') t ps ∧ List.Forall₂ (CellMeans lang) ps row

/-- Six numbers of a second order section. -/
def sos : List Number := [.int 0, .int 0, .int 0, .int 1, .int 0, .int 0]

/-- Default values for three expressions of Matlab and for empty cells. -/
def matlabDefault (c c' : Cell) : Prop :=
  (c = .empty ∧ c' = .text []) ∨ (c = .text (py% "{''}") ∧ c' = .texts [[]]) ∨
  (c = .text (py% "permute([0 0 0 1 0 0; 0 0 0 1 0 0], [3 1 2]);") ∧ c' = .deep [[sos, sos]]) ∨
  (c = .text (py% "permute([0 0 0 1 0 0], [3 1 2]);") ∧ c' = .deep [[sos]])

/-- `c'` is the default value of the entry `name` if the cell contains `c`. Versions are text. -/
def DefaultMeans (lang : Lang) (name : Str) (c c' : Cell) : Prop :=
  ∃ c1, (matlabDefault c c1 ∨ ((∀ c2, ¬ matlabDefault c c2) ∧ c1 = c)) ∧
    (((¬ (py% "Version") <:+: name ∨ ∃ s, c1 = .text s) ∧ c' = c1) ∨
     ((py% "Version") <:+: name ∧ ∃ n s, c1 = .num n ∧ lang.strFloat n = some s ∧ c' = .text s))

/-- A row that ends before the comment gets an empty comment. -/
def completed (row : List Cell) : List Cell := if row.length = 5 then row ++ [.text []] else row

/-- The name and the entry of a row, with the given fields. -/
def EntryOf (lang : Lang) (fields : List Str) (row : List Cell) (p : Str × Dict Cell) : Prop :=
  ∃ c c' rest, completed row = .text p.1 :: c :: rest ∧ DefaultMeans lang p.1 c c' ∧
    fields.length ≤ rest.length + 1 ∧ p.2 = (fields.map Str.lower).zip (c' :: rest)

/-- `e` is the last entry with the given name. -/
def LastEntry (es : List (Str × Dict Cell)) (n : Str) (e : Dict Cell) : Prop :=
  ∃ a b, es = a ++ (n, e) :: b ∧ ∀ p ∈ b, p.1 ≠ n

end Sofar.Spec
