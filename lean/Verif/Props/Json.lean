import Verif.Lemmas.JsonTable
import Verif.Props.Update
/-!
# Properties of the json text of conventions
-/
namespace Sofar

/-! ## C92 The text of a convention gives back the convention -/

/-- What is read from the text of a value is the value. This includes texts with any characters, the order of the keys, the difference
between integers and floats, and empty and nested lists. -/
theorem C92_roundtrip (repr : Rat → Str) (float : Str → Option Num) (v : Json) (h : Spec.Regular repr float v) :
    loads float (dumps repr v) = some v :=
  loads_dumps h

/-- `1.5` and `-1e-07` are floats, `1` is none -/
def exRepr (q : Rat) : Str := if q = 3 / 2 then py% "1.5" else py% "-1e-07"

def exFloat (s : Str) : Option Num := if s = py% "1.5" then some (.fin (3 / 2)) else if s = py% "-1e-07" then some (.fin (-1 / 10000000)) else none

theorem exRepr_exact : Spec.Exact exRepr exFloat (3 / 2) ∧ Spec.Exact exRepr exFloat (-1 / 10000000) := by
  have h : ∀ s, Spec.DigitText s ↔ s ≠ [] ∧ ∀ c ∈ s, c ∈ py% "0123456789" := fun s => Iff.rfl
  refine ⟨⟨⟨[], py% "1", py% ".5", [], ?_⟩, by decide +kernel⟩, ⟨⟨py% "-", py% "1", [], py% "e-07", ?_⟩, by decide +kernel⟩⟩
  · refine ⟨by decide +kernel, Or.inl rfl, by rw [h]; decide, by decide, Or.inr ⟨py% "5", rfl, by rw [h]; decide⟩, Or.inl rfl, by decide⟩
  · exact ⟨by decide +kernel, Or.inr rfl, by rw [h]; decide, by decide, Or.inl rfl,
      Or.inr ⟨py% "-", py% "07", rfl, Or.inr (Or.inl rfl), by rw [h]; decide⟩, by decide⟩

/-- a dictionary with a text with special characters, a list with an integer and floats, and an empty list -/
def exJson : Json :=
  .obj [(py% "a\"\\ü\n", .str ['\t', Char.ofNat 0x1f600, Char.ofNat 127]), (py% "b", .arr [.int (-10), .float (.fin (3 / 2)), .float (.fin (-1 / 10000000)), .float .ninf]),
    (py% "c", .arr [.arr [], .null, .bool true, .obj []])]

theorem exJson_regular : Spec.Regular exRepr exFloat exJson := by
  refine .obj _ (by decide) (fun p hp => ?_)
  simp only [List.mem_cons, List.not_mem_nil, or_false] at hp
  rcases hp with rfl | rfl | rfl
  · exact .str _
  · refine .arr _ (fun v hv => ?_)
    simp only [List.mem_cons, List.not_mem_nil, or_false] at hv
    rcases hv with rfl | rfl | rfl | rfl
    · exact .int _
    · exact .float _ (fun q hq => by cases hq; exact exRepr_exact.1)
    · exact .float _ (fun q hq => by cases hq; exact exRepr_exact.2)
    · exact .float _ (fun q hq => by cases hq)
  · refine .arr _ (fun v hv => ?_)
    simp only [List.mem_cons, List.not_mem_nil, or_false] at hv
    rcases hv with rfl | rfl | rfl | rfl
    · exact .arr _ (by simp)
    · exact .null
    · exact .bool _
    · exact .obj _ (by simp) (by simp)

example : dumps exRepr exJson = py% "{\n    \"a\\\"\\\\\\u00fc\\n\": \"\\t\\ud83d\\ude00\\u007f\",\n    \"b\": [\n        -10,\n        1.5,\n        -1e-07,\n        -Infinity\n    ],\n    \"c\": [\n        [],\n        null,\n        true,\n        {}\n    ]\n}" ∧
    loads exFloat (dumps exRepr exJson) = some exJson :=
  ⟨by decide +kernel, C92_roundtrip _ _ _ exJson_regular⟩

/-- Different values have different texts. -/
theorem C92_injective (repr : Rat → Str) (float : Str → Option Num) (v w : Json) (hv : Spec.Regular repr float v)
    (hw : Spec.Regular repr float w) (h : dumps repr v = dumps repr w) : v = w := by
  have h1 := C92_roundtrip repr float v hv
  rw [h, C92_roundtrip repr float w hw] at h1
  exact (Option.some.inj h1).symm

/-- the text `1.5` and the number -/
example : dumps exRepr (.str (py% "1.5")) ≠ dumps exRepr (.float (.fin (3 / 2))) := fun h => by
  have := C92_injective exRepr exFloat _ _ (.str _) (.float _ (fun q hq => by cases hq; exact exRepr_exact.1)) h
  cases this

/-- The text consists of printable ASCII characters and line feeds, so that it does not depend on the encoding that Python uses
for text files. -/
theorem C92_ascii (repr : Rat → Str) (v : Json) (hr : ∀ q, Spec.FloatText (repr q)) (c : Char) (hc : c ∈ dumps repr v) :
    c = '\n' ∨ 32 ≤ c.toNat ∧ c.toNat ≤ 126 :=
  plain_dumpValue repr (fun q => plain_float (hr q)) 0 v c hc

example : (∀ q, Spec.FloatText (exRepr q)) ∧ 'ü' ∈ py% "a\"\\ü\n" ∧ 'ü' ∉ dumps exRepr exJson := by
  refine ⟨fun q => ?_, by decide, by decide +kernel⟩
  unfold exRepr
  split
  · have := exRepr_exact.1.1; simpa [exRepr] using this
  · have := exRepr_exact.2.1; simpa [exRepr, show ¬ ((-1 / 10000000 : Rat) = 3 / 2) by decide +kernel] using this

/-- What is read from the json file of a convention is the dictionary that was made from its csv file: same entries with the same
fields in the same order, and the same values. -/
theorem C92_conventions (lang : Lang) (repr : Rat → Str) (hf : ∀ s q, lang.float s = some (.fin q) → Spec.Exact repr lang.float q)
    (x : Str) (t : Dict (Dict Cell)) (h : csv2dict lang x = .ok t) :
    loads lang.float (dumps repr (tableJson t)) = some (tableJson t) :=
  loads_dumps (regular_table hf h)

/-- `1` is an integer, `1.5` is a float -/
def exLangFloat : Lang := { exLang with float := exFloat }

def exCsvFloat : Str := py% "Name\tDefault\tFlags\tDimensions\tType\tComment\nData.IR\t[1 1.5]\tm\tM\tdouble\tin °\n"

example : ∃ t, csv2dict exLangFloat exCsvFloat = .ok t ∧
    loads exFloat (dumps exRepr (tableJson t)) = some (.obj [(py% "Data.IR", .obj
      [(py% "default", .arr [.int 1, .float (.fin (3 / 2))]), (py% "flags", .str (py% "m")), (py% "dimensions", .str (py% "M")),
        (py% "type", .str (py% "double")), (py% "comment", .str (py% "in °"))])]) := by
  refine ⟨[(py% "Data.IR", [(py% "default", .list [.int 1, .float (.fin (3 / 2))]), (py% "flags", .text (py% "m")),
    (py% "dimensions", .text (py% "M")), (py% "type", .text (py% "double")), (py% "comment", .text (py% "in °"))])],
    by decide +kernel, ?_⟩
  refine C92_conventions exLangFloat exRepr ?_ exCsvFloat _ (by decide +kernel)
  intro s q h
  simp only [exLangFloat, exFloat] at h
  split at h
  · cases h; exact exRepr_exact.1
  · split at h
    · cases h; exact exRepr_exact.2
    · cases h

/-- The default values that objects are created with are those of the json file, used like Python values that are assigned to an
attribute: nested lists become the arrays of C91, lists that are not rectangular are refused. -/
theorem C92_defaults (lang : Lang) (x : Str) (t : Dict (Dict Cell)) (h : csv2dict lang x = .ok t) (name field : Str) (e : Dict Cell)
    (c : Cell) (he : (name, e) ∈ t) (hc : (field, c) ∈ e) (hne : c ≠ .empty) (text : PyVal → Str) :
    cellInp c = some (c.json.py.toInp text) :=
  toInp_cell text ((pyCell_table h _ he _ hc).resolve_left hne)

example : cellInp (.nested [[.int 1, .int 2], [.float (.fin (3 / 2)), .int 3]]) =
    some (.list ⟨.f, [2, 2], [.num (.fin 1), .num (.fin 2), .num (.fin (3 / 2)), .num (.fin 3)]⟩) ∧
    cellInp (.nested [[.int 1, .int 2], [.int 3]]) = some .ragged ∧
    ∃ t e c, csv2dict exLangFloat exCsvFloat = .ok t ∧ (py% "Data.IR", e) ∈ t ∧ (py% "default", c) ∈ e ∧ c ≠ .empty := by
  refine ⟨by decide +kernel, by decide +kernel,
    [(py% "Data.IR", [(py% "default", .list [.int 1, .float (.fin (3 / 2))]), (py% "flags", .text (py% "m")),
    (py% "dimensions", .text (py% "M")), (py% "type", .text (py% "double")), (py% "comment", .text (py% "in °"))])], _, _,
    by decide +kernel, List.mem_cons_self, List.mem_cons_self, by decide⟩

end Sofar
