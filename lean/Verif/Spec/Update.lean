import Verif.Spec.Basic
import Verif.Model.Update
/-!
# Vocabulary for updating the conventions

Only the data types of the model are used, and the characters that count as white space.
-/
namespace Sofar.Spec

/-! ## Text -/

/-- The text without the given character at the end of lines (only one per line). -/
def dropBeforeBreak (c : Char) : Str → Str
  | [] => []
  | x :: t => if x = c ∧ t.head? = some '\n' then dropBeforeBreak c t else x :: dropBeforeBreak c t

/-- The normalised content of a csv file: unix line breaks, without a tab at the end of lines. -/
def unix (s : Str) : Str := dropBeforeBreak '\t' (dropBeforeBreak '\r' s)

/-- All kinds of line breaks (`\r\n`, `\r`, and `\n`) as `\n`. -/
def unixBreaks (s : Str) : Str := (dropBeforeBreak '\r' s).map (fun c => if c = '\r' then '\n' else c)

/-- The lines of a text. -/
structure Lines (t : Str) (ls : List Str) : Prop where
  all : ls.flatten = t
  line : ∀ l ∈ ls, l ≠ [] ∧ '\n' ∉ l.dropLast
  break_ : ∀ l ∈ ls.dropLast, '\n' ∈ l

/-- `t` is `s` without white space at both ends. -/
def Trimmed (s t : Str) : Prop :=
  ∃ a b, s = a ++ t ++ b ∧ (∀ c ∈ a, isSpaceC c = true) ∧ (∀ c ∈ b, isSpaceC c = true) ∧
    (∀ c, t.head? = some c → isSpaceC c = false) ∧ ∀ c, t.getLast? = some c → isSpaceC c = false

/-- `n` is the first cell of a line of a csv file with tabs. -/
def RowName (line n : Str) : Prop :=
  ∃ t cell, Trimmed line t ∧ '\t' ∉ cell ∧ (t = cell ∨ ∃ rest, t = cell ++ '\t' :: rest) ∧ Trimmed cell n

/-! ## Server and folder -/

/-- The server offers the convention `c` (true: in the list of deprecated conventions): there is a link that ends with
`csv`, and `c` is its last part. -/
def Listed (server : Server) (dep : Bool) (c : Str) : Prop :=
  ∃ links h, server.links dep = .ok links ∧ some h ∈ links ∧ (py% "csv") <:+ h ∧ '/' ∉ c ∧
    (h = c ∨ ∃ p, h = p ++ '/' :: c)

/-- Conventions that are never updated. -/
def Excluded (c : Str) : Prop := (py% "General_") <+: c ∨ (py% "GeneralString_") <+: c

/-- The file at `path` exists and has the given content. -/
def Holds (d : Folder) (path content : Str) : Prop := Dict.get? d.csv path = some content

/-- The convention is stored as csv file with the content `y` (already normalised): in the folder itself if it is
standardized, otherwise only in the sub folder `deprecated`. -/
def Mirrors (d : Folder) (standardized : Bool) (c y : Str) : Prop :=
  if standardized then ∃ x, Holds d c x ∧ (x = y ∨ unix x = y)
  else (∃ x, Holds d (py% "deprecated/" ++ c) x ∧ (x = y ∨ unix x = y)) ∧ ¬ ∃ x, Holds d c x

end Sofar.Spec
