import Verif.Lemmas.Verify
import Verif.Lemmas.Custom
import Verif.Spec.Verify
/-!
# What it means that a phase of the verification finds no error
-/
namespace Sofar

theorem getAttr_of_get {o : Obj} {k : Str} {v : Val} (h : Dict.get? o.attrs k = some v) : o.getAttr k = .ok v := by
  simp [Obj.getAttr, h]

theorem get_of_mem_keys {o : Obj} {k : Str} (h : k ∈ o.keys) : ∃ v, Dict.get? o.attrs k = some v := by
  have := (Dict.has_iff_mem o.attrs k).2 h
  exact (Dict.has_iff o.attrs k).1 this

theorem mem_keys_of_get {o : Obj} {k : Str} {v : Val} (h : Dict.get? o.attrs k = some v) : k ∈ o.keys :=
  (Dict.has_iff_mem o.attrs k).1 ((Dict.has_iff o.attrs k).2 ⟨v, h⟩)

theorem asStr_text (v : Val) : v.asStr = Spec.text v := by cases v <;> rfl

/-! ## Types -/

theorem typeErrorText_nil (env : Env) (k t : Str) (v : Val) : typeErrorText env k t v = [] ↔ Spec.HasType t v := by
  unfold typeErrorText Spec.HasType
  by_cases h1 : t = py% "attribute"
  · subst h1
    cases v <;> simp [Val.isStr, Val.asStr, Spec.IsString]
  by_cases h2 : t = py% "double"
  · subst h2
    cases v with
    | num kk e => cases kk <;> simp [doubleOk, Spec.IsNumeric]
    | arr a => cases h : a.kind <;> simp [doubleOk, Spec.IsNumeric, h]
    | _ => simp [doubleOk, Spec.IsNumeric]
  by_cases h3 : t = py% "string"
  · subst h3
    cases v with
    | arr a => cases h : a.kind <;> simp [stringTypeError, Spec.IsStringVariable, Spec.IsString, h]
    | _ => simp [stringTypeError, Spec.IsStringVariable, Spec.IsString]
  simp [h1, h2, h3]

theorem phaseTypes_nil (env : Env) (o : Obj) (keys : List Str) :
    phaseTypes env o keys = .ok [] ↔
      ∀ k ∈ keys, ∃ e v, Dict.get? o.conv k = some e ∧ o.getAttr k = .ok v ∧ Spec.HasType e.typ v := by
  have h1 : phaseTypes env o keys = .ok [] ↔ concatE (typeErrorKey env o) keys = .ok [] := by
    unfold phaseTypes
    cases concatE (typeErrorKey env o) keys with
    | error e => simp
    | ok s => simp [section_nil_iff]
  rw [h1, concatE_nil_iff]
  apply forall_congr'
  intro k
  apply forall_congr'
  intro _
  unfold typeErrorKey convEntry
  cases Dict.get? o.conv k with
  | none => simp
  | some e =>
    cases o.getAttr k with
    | error x => simp
    | ok v => simp [typeErrorText_nil]

/-! ## Names -/

theorem beforeLast_none_iff {c : Char} {s : Str} : Str.beforeLast c s = none ↔ c ∉ s := by
  constructor
  · induction s with
    | nil => simp
    | cons d t ih =>
      simp only [Str.beforeLast]
      cases h : Str.beforeLast c t with
      | some r => simp
      | none =>
        simp only [h] at ih
        by_cases hd : d = c
        · simp [hd]
        · simp [hd, Ne.symm hd, ih]
  · exact beforeLast_none

theorem line_ne (k : Str) : line k ≠ [] := by simp [line]

/-- the naming rules for one entry -/
structure NameOk (o : Obj) (k : Str) (e : Entry) : Prop where
  attr : e.typ = py% "attribute" → ∃ var, Str.beforeLast '_' k = some var ∧
    (Str.startsWith k (py% "GLOBAL_") = true ∨ Dict.has o.conv var = true)
  var : e.typ ≠ py% "attribute" → '_' ∉ Str.replace k (py% "Data_") []
  notPrivate : Str.startsWith k (py% "PRIVATE") = false
  notApi : Str.startsWith k (py% "API") = false
  glob : Str.startsWith k (py% "GLOBAL") = true → Str.startsWith k (py% "GLOBAL_") = true ∧
    e.typ = py% "attribute"

theorem phaseNames_nil (o : Obj) (keys : List Str) (hk : ∀ k ∈ keys, ∃ e, Dict.get? o.conv k = some e) :
    phaseNames o keys = .ok [] ↔ ∀ k ∈ keys, ∀ e, Dict.get? o.conv k = some e → NameOk o k e := by
  have h1 : phaseNames o keys = .ok [] ↔ concatE (nameNoVariable o) keys = .ok [] ∧
      concatE (nameNoUnderscore o) keys = .ok [] ∧ concatE (nameVariable o) keys = .ok [] ∧
      concatE (nameReserved o) keys = .ok [] := by
    unfold phaseNames
    cases concatE (nameNoVariable o) keys with
    | error e => simp
    | ok s1 =>
      cases concatE (nameNoUnderscore o) keys with
      | error e => simp
      | ok s2 =>
        cases concatE (nameVariable o) keys with
        | error e => simp
        | ok s3 =>
          cases concatE (nameReserved o) keys with
          | error e => simp
          | ok s4 =>
            simp only [Except.ok.injEq, List.append_eq_nil_iff]
            rw [section_nil_iff, section_nil_iff, section_nil_iff, section_nil_iff]
            · simp [and_assoc]
            all_goals simp
  rw [h1]
  simp only [concatE_nil_iff]
  have key : ∀ k ∈ keys, ∀ e, Dict.get? o.conv k = some e →
      ((nameNoVariable o k = .ok [] ∧ nameNoUnderscore o k = .ok [] ∧ nameVariable o k = .ok [] ∧
        nameReserved o k = .ok []) ↔ NameOk o k e) := by
    intro k _ e he
    have c : convEntry o k = .ok e := by simp [convEntry, he]
    simp only [nameNoVariable, nameNoUnderscore, nameVariable, nameReserved, c]
    constructor
    · rintro ⟨a1, a2, a3, a4⟩
      refine ⟨?_, ?_, ?_, ?_, ?_⟩
      · intro ht
        simp only [ht, ne_eq, not_true_eq_false, if_false] at a1
        cases hb : Str.beforeLast '_' k with
        | none =>
          have : '_' ∉ k := beforeLast_none_iff.1 hb
          simp [ht, this, line_ne] at a2
        | some var =>
          simp only [hb] at a1
          refine ⟨var, rfl, ?_⟩
          by_cases hs : Str.startsWith k (py% "GLOBAL_") = true
          · exact Or.inl hs
          · right
            cases hv : Dict.has o.conv var with
            | true => rfl
            | false => simp [hv, hs, line_ne] at a1
      · intro ht hm
        simp [ht, hm, line_ne] at a3
      · cases h : Str.startsWith k (py% "PRIVATE") with
        | false => rfl
        | true =>
          exfalso
          simp only [h, Bool.true_or, if_true] at a4
          split at a4
          · split at a4
            · simp [line_ne] at a4
            · split at a4 <;> simp [line_ne] at a4
          · simp [line_ne] at a4
      · cases h : Str.startsWith k (py% "API") with
        | false => rfl
        | true =>
          exfalso
          simp only [h, Bool.or_true, if_true] at a4
          split at a4
          · split at a4
            · simp [line_ne] at a4
            · split at a4 <;> simp [line_ne] at a4
          · simp [line_ne] at a4
      · intro hg
        simp only [hg, if_true] at a4
        cases h : Str.startsWith k (py% "GLOBAL_") with
        | false => simp [h, line_ne] at a4
        | true =>
          refine ⟨rfl, ?_⟩
          by_cases ht : e.typ = py% "attribute"
          · exact ht
          · simp [h, ht, line_ne] at a4
    · rintro ⟨b1, b2, b3, b4, b5⟩
      refine ⟨?_, ?_, ?_, ?_⟩
      · by_cases ht : e.typ = py% "attribute"
        · obtain ⟨var, hv, h⟩ := b1 ht
          rcases h with h | h <;> simp [ht, hv, h]
        · simp [ht]
      · by_cases ht : e.typ = py% "attribute"
        · obtain ⟨var, hv, h⟩ := b1 ht
          have : '_' ∈ k := by
            apply Classical.byContradiction
            intro hn
            rw [beforeLast_none hn] at hv
            cases hv
          simp [this]
        · simp [ht]
      · by_cases ht : e.typ = py% "attribute"
        · simp [ht]
        · simp [ht, b2 ht]
      · simp only [b3, b4, Bool.or_self, Bool.false_eq_true, if_false]
        split
        · rename_i hg
          obtain ⟨h1, h2⟩ := b5 hg
          simp [h1, h2]
        · rfl
  constructor
  · rintro ⟨a1, a2, a3, a4⟩ k hk' e he
    exact (key k hk' e he).1 ⟨a1 k hk', a2 k hk', a3 k hk', a4 k hk'⟩
  · intro h
    refine ⟨?_, ?_, ?_, ?_⟩ <;> intro k hk' <;> obtain ⟨e, he⟩ := hk k hk'
    · exact ((key k hk' e he).2 (h k hk' e he)).1
    · exact ((key k hk' e he).2 (h k hk' e he)).2.1
    · exact ((key k hk' e he).2 (h k hk' e he)).2.2.1
    · exact ((key k hk' e he).2 (h k hk' e he)).2.2.2

theorem phaseCustomNames_nil (inner : Inner) (o : Obj) :
    (phaseCustomNames inner o).1 = .ok [] ↔
      ∀ c, o.custom = some c → ∃ names, inner.out = .ok names ∧
        ∀ k ∈ Dict.keys c, ∀ n ∈ names, Str.replace n (py% "GLOBAL_") [] ≠ Str.replace k (py% "GLOBAL_") [] := by
  unfold phaseCustomNames
  cases hc : o.custom with
  | none => simp
  | some c =>
    cases hi : inner.out with
    | error e => simp
    | ok names =>
      simp only [Except.ok.injEq, Option.some.injEq, forall_eq', exists_eq_left']
      rw [section_nil_iff _ _ (by simp)]
      unfold nameCustom
      simp only [List.flatten_eq_nil_iff, List.mem_map, List.mem_filter]
      constructor
      · intro h k hk n hn he
        exact line_ne k (h _ ⟨k, ⟨hk, by simpa using ⟨n, hn, he⟩⟩, rfl⟩)
      · rintro h l ⟨k, ⟨hk, hm⟩, rfl⟩
        exfalso
        have hm' : ∃ n ∈ names, Str.replace n (py% "GLOBAL_") [] = Str.replace k (py% "GLOBAL_") [] := by
          simpa using hm
        obtain ⟨n, hn, he⟩ := hm'
        exact h k hk n hn he

end Sofar
