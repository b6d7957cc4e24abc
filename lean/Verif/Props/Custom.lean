import Verif.Lemmas.Paths
import Verif.Lemmas.Custom
import Verif.Spec.Basic
import Verif.Props.Attr
/-!
# C07, C09: adding custom data
-/
namespace Sofar

/-! ## C07 -/

/-- C07: the state after a successful `add_variable` or `add_attribute` (which is `add_entry` with type
`attribute` and without dimensions) of a name that is not part of the convention. -/
theorem C07_added_data (o : Obj) (n : Str) (v : Inp) (dtype : Str) (dims : Option Str)
    (hn : Dict.get? o.conv n = none) (h : (addVariable o n v dtype dims).out = .ok ()) :
    let o' := (addVariable o n v dtype dims).obj
    (∃ w, Spec.StoredAs v w ∧ Dict.get? o'.attrs n = some w) ∧ o'.prot = true ∧
    (∃ e, Dict.get? o'.conv n = some e ∧ (∃ c, o'.custom = some c ∧ Dict.get? c n = some e) ∧ e.typ = dtype ∧
      e.flags = none ∧
      (∀ d, dims = some d → ∃ s, e.dims = some s ∧ Spec.CustomLetters d s) ∧ (dims = none → e.dims = none)) ∧
    (∀ k, k ≠ n → Dict.get? o'.attrs k = Dict.get? o.attrs k ∧ Dict.get? o'.conv k = Dict.get? o.conv k) := by
  obtain ⟨hc, hpriv, w, hw⟩ := addEntry_ok_inv h
  have hr : addVariable o n v dtype dims = _ := addEntry_ok o n v w dtype dims hc hw hpriv
  have hh : Dict.has o.conv n = false := by simp [Dict.has, hn]
  simp only [hr, registerCustom, hh]
  refine ⟨⟨w, storedAs_normalise hw, by simp⟩, trivial, ⟨customEntry none ((dims.map Str.upper).map customDims) dtype, by simp,
    ⟨_, rfl, by simp⟩, rfl, rfl, ?_, ?_⟩, ?_⟩
  · rintro d rfl
    refine ⟨customDims d, by simp [customEntry, customDims_upper], ?_⟩
    simp [Spec.CustomLetters, customDims, standardDims]
  · rintro rfl; rfl
  · intro k hk
    exact ⟨Dict.get?_put_ne _ _ hk, Dict.get?_put_ne _ _ hk⟩

example : Dict.get? exObj.conv (py% "Foo") = none ∧ (addVariable exObj (py% "Foo")
    (.list ⟨.i, [2], [.num (.fin 1), .num (.fin 2)]⟩) (py% "double") (some (py% "mx"))).out = .ok () := by decide

/-- a custom variable that was added to the small object -/
def exAdded : Obj := (addVariable exObj (py% "Foo") (.val (.num .f (.num (.fin 1)))) (py% "double") (some (py% "I"))).obj

example : ∃ e c, exAdded.custom = some c ∧ Dict.get? c (py% "Foo") = some e ∧ Dict.get? exAdded.conv (py% "Foo") = some e ∧
    e.typ = py% "double" ∧ Spec.WF exAdded :=
  ⟨customEntry none (some (py% "I")) (py% "double"), [(py% "Foo", customEntry none (some (py% "I")) (py% "double"))],
    by decide +kernel, by decide +kernel, by decide +kernel, rfl, by decide +kernel, by decide +kernel, by
      intro c hc
      have h : exAdded.custom = some [(py% "Foo", customEntry none (some (py% "I")) (py% "double"))] := by decide +kernel
      rw [h] at hc
      cases hc
      decide⟩

/-! ## C09 -/

/-- C09: which variables can be added. -/
theorem C09_add_variable_names (o : Obj) (n : Str) (v : Inp) (dtype : Str) (dims : Option Str)
    (hv : v ≠ .ragged) (ht : dtype ≠ py% "attribute") :
    (addVariable o n v dtype dims).out = .ok () ↔
      o.hasAttr n = false ∧ (dtype = py% "double" ∨ dtype = py% "string") ∧ '_' ∉ n ∧ dims ≠ none := by
  obtain ⟨w, hw⟩ := normalise_ok hv
  have hcheck : checkEntry o n dtype dims = none ↔
      o.hasAttr n = false ∧ (dtype = py% "double" ∨ dtype = py% "string") ∧ '_' ∉ n ∧ dims ≠ none := by
    unfold checkEntry
    by_cases h1 : o.hasAttr n = true
    · simp [h1]
    by_cases h2 : dtype = py% "double" ∨ dtype = py% "string"
    · by_cases h3 : '_' ∈ n
      · rcases h2 with rfl | rfl <;> simp [h1, h3]
      · rcases h2 with rfl | rfl <;> cases dims <;> simp [h1, h3]
    · rw [not_or] at h2
      simp [h1, h2, ht]
  constructor
  · intro h
    exact hcheck.1 (addEntry_ok_inv h).1
  · intro h
    have hpriv : isPrivate n = false := by
      cases n with
      | nil => rfl
      | cons a t =>
        have : a ≠ '_' := fun e => h.2.2.1 (by simp [e])
        simpa [isPrivate, Str.startsWith, List.isPrefixOf] using Ne.symm this
    show (addEntry o n v dtype dims).out = _
    rw [addEntry_ok o n v w dtype dims (hcheck.2 h) hw hpriv]

example : exObj.hasAttr (py% "Foo") = false ∧ '_' ∉ py% "Foo" ∧ exObj.hasAttr (py% "Note") = true := by decide

/-- C09: which attributes can be added. Missing for the full claim: names of the form
`Data_Variable_Attribute` (see `C09_refuted`). -/
theorem C09_add_attribute_names_partial (o : Obj) (n : Str) (v : Inp) (hv : v ≠ .ragged)
    (hempty : Dict.get? o.conv [] = none) :
    (addAttribute o n v).out = .ok () ↔
      o.hasAttr n = false ∧ ∃ var att, n = var ++ py% "_" ++ att ∧ '_' ∉ var ∧ '_' ∉ att ∧
        (var = py% "GLOBAL" ∨ ∃ e, Dict.get? o.conv var = some e) := by
  obtain ⟨w, hw⟩ := normalise_ok hv
  have hcheck : checkEntry o n (py% "attribute") none = none ↔
      o.hasAttr n = false ∧ ∃ var att, n = var ++ py% "_" ++ att ∧ '_' ∉ var ∧ '_' ∉ att ∧
        (var = py% "GLOBAL" ∨ ∃ e, Dict.get? o.conv var = some e) := by
    unfold checkEntry
    by_cases h1 : o.hasAttr n = true
    · simp [h1]
    by_cases h2 : n.count '_' = 1
    · obtain ⟨var, att, rfl, hva, hat⟩ := (count_split n).1 h2
      have hb := beforeLast_append var att hat
      have hsplit : ∀ var' att', var ++ '_' :: att = var' ++ py% "_" ++ att' → '_' ∉ var' → '_' ∉ att' →
          var' = var ∧ att' = att := by
        intro var' att' he hv' ha'
        have h3 := beforeLast_append var' att' ha'
        have : var' ++ '_' :: att' = var ++ '_' :: att := by rw [he]; simp
        rw [this, hb] at h3
        have h4 : var = var' := by simpa using h3
        subst h4
        exact ⟨rfl, by simpa using this⟩
      have hstart : Str.startsWith (var ++ '_' :: att) (py% "GLOBAL_") = true ↔ var = py% "GLOBAL" := by
        constructor
        · intro hs
          unfold Str.startsWith at hs
          rw [List.isPrefixOf_iff_prefix] at hs
          obtain ⟨t, ht⟩ := hs
          have h5 : '_' ∉ t := by
            intro hm
            have hcnt := congrArg (List.count '_') ht
            rw [h2] at hcnt
            have : 0 < t.count '_' := List.count_pos_iff.2 hm
            rw [List.count_append] at hcnt
            have : List.count '_' (py% "GLOBAL_") = 1 := by decide
            omega
          exact ((hsplit (py% "GLOBAL") t (by rw [← ht]; simp) (by decide) h5).1).symm
        · rintro rfl
          simp [Str.startsWith, List.isPrefixOf]
      have hd : (List.count '_' (var ++ '_' :: att) ≠ 1 ∨
          (Str.startsWith (var ++ '_' :: att) (py% "Data_") = true ∧
            (List.count '_' (var ++ '_' :: att) = 0 ∨ 2 < List.count '_' (var ++ '_' :: att)))) = False := by
        simp only [h2, eq_iff_iff, iff_false]
        omega
      simp only [h1, hd, hb]
      by_cases h6 : var = py% "GLOBAL"
      · have := hstart.2 h6
        simp only [this]
        simp
        exact ⟨var, att, rfl, hva, hat, Or.inl h6⟩
      · have h7 : Str.startsWith (var ++ '_' :: att) (py% "GLOBAL_") = false := by
          simpa using (fun h => h6 (hstart.1 h))
        cases h8 : Dict.get? o.conv var with
        | none =>
          simp [h7, Dict.has, h8]
          rintro var' att' he hv' ha'
          obtain ⟨rfl, rfl⟩ := hsplit var' att' (by simpa using he) hv' ha'
          simp [h6, h8]
        | some e =>
          simp [h7, Dict.has, h8]
          exact ⟨var, att, rfl, hva, hat, Or.inr ⟨e, h8⟩⟩
    · have h3 : ¬ ∃ var att, n = var ++ py% "_" ++ att ∧ '_' ∉ var ∧ '_' ∉ att ∧
        (var = py% "GLOBAL" ∨ ∃ e, Dict.get? o.conv var = some e) := by
        rintro ⟨var, att, he, hv', ha', _⟩
        exact h2 ((count_split n).2 ⟨var, att, by simpa using he, hv', ha'⟩)
      simp only [h3, and_false, iff_false]
      simp [h1, h2]
  constructor
  · intro h
    exact hcheck.1 (addEntry_ok_inv h).1
  · intro h
    have hpriv : isPrivate n = false := by
      obtain ⟨_, var, att, rfl, hva, _, hk⟩ := h
      cases var with
      | nil => simp [hempty] at hk
      | cons a t =>
        have : a ≠ '_' := fun e => hva (by simp [e])
        simpa [isPrivate, Str.startsWith, List.isPrefixOf] using Ne.symm this
    show (addEntry o n v (py% "attribute") none).out = _
    rw [addEntry_ok o n v w (py% "attribute") none (hcheck.2 h) hw hpriv]

example : exObj.hasAttr (py% "Note_Units") = false ∧ Dict.get? exObj.conv [] = none ∧
    (∃ e, Dict.get? exObj.conv (py% "Note") = some e) := ⟨by decide, by decide, _, rfl⟩

/-- C09 is false for the documented example: `add_attribute('Data_Real_Units', ...)` never succeeds. -/
theorem C09_refuted (o : Obj) (v : Inp) : (addAttribute o (py% "Data_Real_Units") v).out ≠ .ok () := by
  intro h
  have := (addEntry_ok_inv h).1
  have h1 := checkEntry_new this
  unfold checkEntry at this
  rw [h1] at this
  simp at this

end Sofar
