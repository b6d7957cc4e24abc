import Verif.Lemmas.CsvValues
import Verif.Props.Update
/-!
# C75: the content of compiled conventions
-/
namespace Sofar

/-- C75: the entries of a compiled convention are those of the rows of the csv file: the names of the fields come
from the first line, each row has the name of the entry in its first cell, and the last row counts if a name occurs
more than once. -/
theorem C75_entries (lang : Lang) (content : Str) (d : Dict (Dict Cell)) (h : csv2dict lang content = .ok d) :
    ∃ t ls, lang.decode content = .ok t ∧ Spec.Lines (Spec.unixBreaks t) ls ∧ (ls = [] → d = []) ∧
      ∀ header lines, ls = header :: lines → ∃ head, Spec.LineMeans lang header head ∧
        ∀ fields : List Str, head.tail = fields.map Cell.text → (fields.map Str.lower).Nodup →
          ∃ rows es, List.Forall₂ (Spec.LineMeans lang) lines rows ∧ List.Forall₂ (Spec.EntryOf lang fields) rows es ∧
            ∀ n e, Dict.get? d n = some e ↔ Spec.LastEntry es n e := by
  unfold csv2dict at h
  cases ht : lang.decode content with
  | error x => simp [ht] at h
  | ok t =>
    simp only [ht] at h
    have hu : universalNewlines false t = Spec.unixBreaks t := by simpa using universalNewlines_eq false t
    rw [hu] at h
    refine ⟨t, readlines (Spec.unixBreaks t), rfl, readlines_lines _, ?_, ?_⟩
    · intro hl
      rw [hl] at h
      simp only [csvTable, Except.ok.injEq] at h
      exact h.symm
    · intro header lines hl
      rw [hl] at h
      simp only [csvTable] at h
      cases hr : parseRow lang header with
      | none => simp [hr] at h
      | some head =>
        refine ⟨head, (line_iff _ _ _).2 hr, ?_⟩
        intro fields hf hn
        simp only [hr, hf] at h
        cases hc : csvRows lang (fields.map .text) lines [] with
        | none => simp [hc] at h
        | some d0 =>
          simp only [hc, Except.ok.injEq] at h
          obtain ⟨rows, es, h1, h2, h3⟩ := (rows_iff _ _ hn _ _ _).1 hc
          refine ⟨rows, es, h1, h2, ?_⟩
          intro n e
          rw [← h, lastEntry_iff, ← h3, (keys_reorder d0 ?_).2]
          rw [h3]
          exact Dict.nodup_ofList es

/-- C75: all files with meaningful cells are compiled: the file has a first line with distinct names of fields, and
every other line has a name, a default value and enough cells. -/
theorem C75_accepted_partial (lang : Lang) (content t header : Str) (lines : List Str) (head : List Cell)
    (fields : List Str) (rows : List (List Cell)) (es : List (Str × Dict Cell)) (ht : lang.decode content = .ok t)
    (hl : Spec.Lines (Spec.unixBreaks t) (header :: lines)) (hh : Spec.LineMeans lang header head)
    (hf : head.tail = fields.map Cell.text) (hn : (fields.map Str.lower).Nodup)
    (hr : List.Forall₂ (Spec.LineMeans lang) lines rows) (he : List.Forall₂ (Spec.EntryOf lang fields) rows es) :
    ∃ d, csv2dict lang content = .ok d ∧ ∀ n e, Dict.get? d n = some e ↔ Spec.LastEntry es n e := by
  have hu : universalNewlines false t = Spec.unixBreaks t := by simpa using universalNewlines_eq false t
  have hc := (rows_iff lang fields hn lines [] _).2 ⟨rows, es, hr, he, rfl⟩
  refine ⟨reorder (es.foldl (fun d p => Dict.put d p.1 p.2) []), ?_, ?_⟩
  · unfold csv2dict
    simp only [ht, hu, lines_unique hl, csvTable, (line_iff _ _ _).1 hh, hf, hc]
  · intro n e
    have hd : (Dict.keys (es.foldl (fun d p => Dict.put d p.1 p.2) [])).Nodup := Dict.nodup_ofList es
    rw [lastEntry_iff, (keys_reorder _ hd).2]

/-! ## Examples and refutations -/

/-- decimal numbers without exponent and sign; `str(float(x))` of some numbers -/
def exPython : Lang where
  decode := .ok
  int := fun s => (Str.digits? s).map Int.ofNat
  float := fun s => (pyFloat s).map .fin
  strFloat := fun n =>
    if n = .float (.fin (11 / 10)) then some (py% "1.1") else if n = .float (.fin 1) then some (py% "1.0") else none

/-- names of the fields -/
def exHeader : Str := py% "Name\tDefault\tFlags\tDimensions\tType\tComment\n"

/-- a file with a version, a list, a nested list, an empty default value, and a row without comment -/
def exTable : Str := exHeader ++ py% "GLOBAL:SOFAConventionsVersion\t1.0\trm\t\tattribute\tversion\nA\t[1 2]\tm\tI\tdouble\nB\t[1,0;0 1]\t\tMI\tdouble\tx\nGLOBAL:Title\t\tm\t\tattribute\tThe title\r\n"

example : csv2dict exPython exTable = .ok
    [(py% "GLOBAL:SOFAConventionsVersion", [(py% "default", .text (py% "1.0")), (py% "flags", .text (py% "rm")),
        (py% "dimensions", .empty), (py% "type", .text (py% "attribute")), (py% "comment", .text (py% "version"))]),
     (py% "GLOBAL:Title", [(py% "default", .text []), (py% "flags", .text (py% "m")), (py% "dimensions", .empty),
        (py% "type", .text (py% "attribute")), (py% "comment", .text (py% "The title"))]),
     (py% "A", [(py% "default", .list [.int 1, .int 2]), (py% "flags", .text (py% "m")), (py% "dimensions", .text (py% "I")),
        (py% "type", .text (py% "double")), (py% "comment", .text [])]),
     (py% "B", [(py% "default", .nested [[.int 1, .int 0], [.int 0, .int 1]]), (py% "flags", .empty),
        (py% "dimensions", .text (py% "MI")), (py% "type", .text (py% "double")), (py% "comment", .text (py% "x"))])] := by
  decide +kernel

/-- a row with the version 1.10 -/
def exVersionRow : Str := py% "GLOBAL:SOFAConventionsVersion\t1.10\trm\t\tattribute\tversion\n"

/-- the compiled row -/
def exVersionEntry : Dict Cell :=
  [(py% "default", .text (py% "1.1")), (py% "flags", .text (py% "rm")), (py% "dimensions", .empty),
    (py% "type", .text (py% "attribute")), (py% "comment", .text (py% "version"))]

/-- C75 is false: the version 1.10 becomes 1.1 in a language in which both are the same number. -/
theorem C75_refuted_version : ∃ (lang : Lang) (d : Dict (Dict Cell)) (e : Dict Cell),
    (∀ s, lang.decode s = .ok s) ∧ csv2dict lang (exHeader ++ exVersionRow) = .ok d ∧
    Dict.get? d (py% "GLOBAL:SOFAConventionsVersion") = some e ∧ Dict.get? e (py% "default") = some (.text (py% "1.1")) :=
  ⟨exPython, [(py% "GLOBAL:SOFAConventionsVersion", exVersionEntry)], exVersionEntry, fun _ => rfl, by decide +kernel,
    by decide +kernel, by decide +kernel⟩

/-- a row with a comment that starts with a square bracket -/
def exBracketRow : Str := py% "A\t1\tm\tI\tdouble\t[metre] the length\n"

/-- the same row without bracket -/
def exLengthRow : Str := py% "A\t1\tm\tI\tdouble\tthe length\n"

/-- the compiled row -/
def exLengthEntry : Dict Cell :=
  [(py% "default", .num (.int 1)), (py% "flags", .text (py% "m")), (py% "dimensions", .text (py% "I")),
    (py% "type", .text (py% "double")), (py% "comment", .text (py% "the length"))]

/-- C75 is false: a comment that starts with a square bracket can not be compiled, although the row can be compiled
with another comment. -/
theorem C75_refuted_comment : ∃ (lang : Lang) (d : Dict (Dict Cell)) (e : Exc), (∀ s, lang.decode s = .ok s) ∧
    csv2dict lang (exHeader ++ exLengthRow) = .ok d ∧ csv2dict lang (exHeader ++ exBracketRow) = .error e :=
  ⟨exPython, [(py% "A", exLengthEntry)], .valueError (py% "Failed to parse line"), fun _ => rfl, by decide +kernel, by decide +kernel⟩

/-- C75 is false: a blank line at the end of a file can not be compiled. -/
theorem C75_refuted_blank : ∃ (lang : Lang) (d : Dict (Dict Cell)) (e : Exc), (∀ s, lang.decode s = .ok s) ∧
    csv2dict lang (exHeader ++ exLengthRow) = .ok d ∧ csv2dict lang (exHeader ++ exLengthRow ++ py% "\n") = .error e :=
  ⟨exPython, [(py% "A", exLengthEntry)], .valueError (py% "Failed to parse line"), fun _ => rfl, by decide +kernel, by decide +kernel⟩

/-- `C75_accepted_partial` applies to the file with one row. -/
example : ∃ d, csv2dict exPython (exHeader ++ exLengthRow) = .ok d ∧
    ∀ n e, Dict.get? d n = some e ↔ Spec.LastEntry [(py% "A", exLengthEntry)] n e := by
  refine C75_accepted_partial exPython _ (exHeader ++ exLengthRow) exHeader [exLengthRow]
    [.text (py% "Name"), .text (py% "Default"), .text (py% "Flags"), .text (py% "Dimensions"), .text (py% "Type"),
      .text (py% "Comment")]
    [py% "Default", py% "Flags", py% "Dimensions", py% "Type", py% "Comment"]
    [[.text (py% "A"), .num (.int 1), .text (py% "m"), .text (py% "I"), .text (py% "double"), .text (py% "the length")]]
    _ rfl ?_ ((line_iff _ _ _).2 (by decide +kernel)) rfl (by decide +kernel)
    (.cons ((line_iff _ _ _).2 (by decide +kernel)) .nil) (.cons ?_ .nil)
  · have h := readlines_lines (Spec.unixBreaks (exHeader ++ exLengthRow))
    rwa [show readlines (Spec.unixBreaks (exHeader ++ exLengthRow)) = [exHeader, exLengthRow] by decide +kernel] at h
  · exact (row_iff exPython [py% "Default", py% "Flags", py% "Dimensions", py% "Type", py% "Comment"] (by decide +kernel) _ _).2
      (by decide +kernel)

end Sofar
