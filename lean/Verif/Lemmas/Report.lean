import Verif.Spec.Report
import Verif.Lemmas.Conforms
/-!
# The report of the verification lists exactly the problems
-/
namespace Sofar

open Spec (Problem)

/-! ## Texts that consist of lines -/

/-- the text consists of lines that name exactly the given problems -/
def Collects (ps : Problem → Prop) (s : Str) : Prop :=
  ∃ lines : List Str, s = lines.flatten ∧ (∀ l ∈ lines, ∃ p, ps p ∧ l = p.line) ∧ ∀ p, ps p → p.line ∈ lines

theorem pyStr_shown (env : Env) (v : Val) : pyStr env v = Spec.shown env.fmt v := by
  cases v <;> rfl

theorem line_nonempty (p : Problem) : p.line ≠ [] := by
  cases p <;> simp [Problem.line]

theorem Collects.congr {ps qs : Problem → Prop} {s : Str} (h : Collects ps s) (hc : ∀ p, ps p ↔ qs p) : Collects qs s := by
  have : ps = qs := funext fun p => propext (hc p)
  exact this ▸ h

theorem Collects.nil {ps : Problem → Prop} (h : ∀ p, ¬ ps p) : Collects ps [] :=
  ⟨[], rfl, by simp, fun p hp => absurd hp (h p)⟩

theorem Collects.single {ps : Problem → Prop} {q : Problem} {l : Str} (hq : l = q.line) (h : ∀ p, ps p ↔ p = q) :
    Collects ps l := by
  refine ⟨[l], by simp, ?_, ?_⟩
  · intro l' hl
    rw [List.mem_singleton] at hl
    exact ⟨q, (h q).2 rfl, hl.trans hq⟩
  · intro p hp
    rw [h p] at hp
    rw [hp, ← hq]
    exact List.mem_singleton.2 rfl

theorem Collects.append {ps qs : Problem → Prop} {s t : Str} (h1 : Collects ps s) (h2 : Collects qs t) :
    Collects (fun p => ps p ∨ qs p) (s ++ t) := by
  obtain ⟨l1, rfl, a1, b1⟩ := h1
  obtain ⟨l2, rfl, a2, b2⟩ := h2
  refine ⟨l1 ++ l2, by simp, ?_, ?_⟩
  · intro l hl
    rcases List.mem_append.1 hl with hl | hl
    · obtain ⟨p, hp, h⟩ := a1 l hl; exact ⟨p, Or.inl hp, h⟩
    · obtain ⟨p, hp, h⟩ := a2 l hl; exact ⟨p, Or.inr hp, h⟩
  · rintro p (hp | hp)
    · exact List.mem_append.2 (Or.inl (b1 p hp))
    · exact List.mem_append.2 (Or.inr (b2 p hp))

theorem Collects.concat {α : Type} {f : α → Except Exc Str} {l : List α} {ps : α → Problem → Prop} {s : Str}
    (h : concatE f l = .ok s) (hf : ∀ x ∈ l, ∀ t, f x = .ok t → Collects (ps x) t) :
    Collects (fun p => ∃ x ∈ l, ps x p) s := by
  induction l generalizing s with
  | nil =>
    simp only [concatE, Except.ok.injEq] at h
    subst h
    exact Collects.nil (by simp)
  | cons x l ih =>
    simp only [concatE] at h
    cases hx : f x with
    | error e => simp [hx] at h
    | ok t =>
      cases hl : concatE f l with
      | error e => simp [hx, hl] at h
      | ok t' =>
        simp only [hx, hl, Except.ok.injEq] at h
        subst h
        refine (Collects.append (hf x (by simp) t hx) (ih hl (fun y hy => hf y (by simp [hy])))).congr ?_
        intro p
        simp

theorem Collects.flatten {α : Type} {f : α → Str} {l : List α} {ps : α → Problem → Prop}
    (hf : ∀ x ∈ l, Collects (ps x) (f x)) : Collects (fun p => ∃ x ∈ l, ps x p) (l.map f).flatten := by
  induction l with
  | nil => exact Collects.nil (by simp)
  | cons x l ih =>
    simp only [List.map_cons, List.flatten_cons]
    refine (Collects.append (hf x (by simp)) (ih (fun y hy => hf y (by simp [hy])))).congr ?_
    intro p
    simp

theorem Collects.empty {ps : Problem → Prop} {s : Str} (h : Collects ps s) : s = [] ↔ ∀ p, ¬ ps p := by
  obtain ⟨lines, rfl, h1, h2⟩ := h
  constructor
  · intro he p hp
    exact line_nonempty p (List.flatten_eq_nil_iff.1 he _ (h2 p hp))
  · intro hn
    rw [List.flatten_eq_nil_iff]
    intro l hl
    obtain ⟨p, hp, _⟩ := h1 l hl
    exact absurd hp (hn p)

/-! ## Sections -/

theorem Reports.nil {ps : Problem → Prop} (h : ∀ p, ¬ ps p) : Spec.Reports ps [] :=
  ⟨[], rfl, by simp, fun p hp => absurd hp (h p)⟩

theorem Reports.congr {ps qs : Problem → Prop} {s : Str} (h : Spec.Reports ps s) (hc : ∀ p, ps p ↔ qs p) :
    Spec.Reports qs s := by
  have : ps = qs := funext fun p => propext (hc p)
  exact this ▸ h

theorem Reports.append {ps qs : Problem → Prop} {s t : Str} (h1 : Spec.Reports ps s) (h2 : Spec.Reports qs t) :
    Spec.Reports (fun p => ps p ∨ qs p) (s ++ t) := by
  obtain ⟨l1, rfl, a1, b1⟩ := h1
  obtain ⟨l2, rfl, a2, b2⟩ := h2
  refine ⟨l1 ++ l2, by simp, ?_, ?_⟩
  · intro l hl
    rcases List.mem_append.1 hl with hl | hl
    · refine ⟨(a1 l hl).1, fun x hx => ?_⟩
      obtain ⟨p, hp, h⟩ := (a1 l hl).2 x hx
      exact ⟨p, Or.inl hp, h⟩
    · refine ⟨(a2 l hl).1, fun x hx => ?_⟩
      obtain ⟨p, hp, h⟩ := (a2 l hl).2 x hx
      exact ⟨p, Or.inr hp, h⟩
  · rintro p (hp | hp)
    · obtain ⟨l, hl, h⟩ := b1 p hp; exact ⟨l, by simp [hl], h⟩
    · obtain ⟨l, hl, h⟩ := b2 p hp; exact ⟨l, by simp [hl], h⟩

theorem Reports.empty {ps : Problem → Prop} {s : Str} (h : Spec.Reports ps s) : s = [] ↔ ∀ p, ¬ ps p := by
  obtain ⟨secs, rfl, h1, h2⟩ := h
  constructor
  · intro he p hp
    obtain ⟨s, hs, _, hl⟩ := h2 p hp
    have := List.flatten_eq_nil_iff.1 he _ (List.mem_map.2 ⟨s, hs, rfl⟩)
    rw [List.append_eq_nil_iff] at this
    exact line_nonempty p (List.flatten_eq_nil_iff.1 this.2 _ hl)
  · intro hn
    cases secs with
    | nil => rfl
    | cons s secs =>
      exfalso
      obtain ⟨h3, h4⟩ := h1 s (by simp)
      obtain ⟨l, hl⟩ := List.exists_mem_of_ne_nil _ h3
      obtain ⟨p, hp, _⟩ := h4 l hl
      exact hn p hp

theorem Collects.reports {ps : Problem → Prop} {s h : Str} (hs : Collects ps s) (hh : ∀ p, ps p → p.heading = h) :
    Spec.Reports ps (section_ h s) := by
  unfold section_
  by_cases he : s = []
  · subst he
    exact Reports.nil (hs.empty.1 rfl)
  · rw [if_neg (by simpa using he)]
    obtain ⟨lines, rfl, h1, h2⟩ := hs
    refine ⟨[(h, lines)], by simp, ?_, ?_⟩
    · intro s hs
      rw [List.mem_singleton] at hs
      subst hs
      refine ⟨?_, ?_⟩
      · rintro rfl; simp at he
      · intro l hl
        obtain ⟨p, hp, hl'⟩ := h1 l hl
        exact ⟨p, hp, hh p hp, hl'⟩
    · intro p hp
      exact ⟨_, List.mem_singleton.2 rfl, (hh p hp).symm, h2 p hp⟩

/-- a text for a single key -/
theorem Collects.ite {ps : Problem → Prop} {q : Problem} {l : Str} {c : Prop} [Decidable c] (hq : l = q.line)
    (h : ∀ p, ps p ↔ p = q ∧ c) : Collects ps (if c then l else []) := by
  by_cases hc : c
  · rw [if_pos hc]
    exact Collects.single hq (by simp [h, hc])
  · rw [if_neg hc]
    exact Collects.nil (by simp [h, hc])

/-! ## Missing data and types -/

theorem missing_collects (keys : List Str) (l : Dict Entry) (o : Obj) (s : Str)
    (h : (fillMissing false keys l o).1 = .ok s) :
    Collects (fun p => ∃ k, p = .missing k ∧ ∃ e f, (k, e) ∈ l ∧ e.flags = some f ∧ 'm' ∈ f ∧ k ∉ keys) s := by
  induction l generalizing s with
  | nil =>
    simp only [fillMissing, Except.ok.injEq] at h
    subst h
    exact Collects.nil (by simp)
  | cons x l ih =>
    obtain ⟨k, e⟩ := x
    simp only [fillMissing] at h
    have hm : (mandatory e.flags && ! keys.contains k) = true ↔ (∃ f, e.flags = some f ∧ 'm' ∈ f) ∧ k ∉ keys := by
      rw [Bool.and_eq_true]
      apply and_congr
      · unfold mandatory
        cases e.flags with
        | none => simp
        | some f => simp
      · simp
    by_cases hc : (mandatory e.flags && ! keys.contains k) = true
    · rw [if_pos hc] at h
      simp only [Bool.false_eq_true, if_false] at h
      cases hq : (fillMissing false keys l o).1 with
      | error x => simp [hq] at h
      | ok t =>
        simp only [hq, Except.ok.injEq] at h
        subst h
        refine (Collects.append (Collects.single (ps := fun p => p = .missing k) (q := .missing k) ?_ (by simp)) (ih t hq)).congr ?_
        · simp [Problem.line, line]
        · intro p
          constructor
          · rintro (rfl | ⟨k', rfl, e', f, h1, h2⟩)
            · obtain ⟨⟨f, h1, h2⟩, h3⟩ := hm.1 hc
              exact ⟨k, rfl, e, f, by simp, h1, h2, h3⟩
            · exact ⟨k', rfl, e', f, by simp [h1], h2⟩
          · rintro ⟨k', rfl, e', f, h1, h2⟩
            rcases List.mem_cons.1 h1 with h1 | h1
            · cases h1; exact Or.inl rfl
            · exact Or.inr ⟨k', rfl, e', f, h1, h2⟩
    · rw [if_neg hc] at h
      refine (ih s h).congr ?_
      intro p
      constructor
      · rintro ⟨k', rfl, e', f, h1, h2⟩
        exact ⟨k', rfl, e', f, by simp [h1], h2⟩
      · rintro ⟨k', rfl, e', f, h1, h2, h3, h4⟩
        rcases List.mem_cons.1 h1 with h1 | h1
        · cases h1
          exact absurd (hm.2 ⟨⟨f, h2, h3⟩, h4⟩) hc
        · exact ⟨k', rfl, e', f, h1, h2, h3, h4⟩

theorem typeErrorText_line (env : Env) (k t : Str) (v : Val) :
    typeErrorText env k t v = [] ∨ typeErrorText env k t v = (Problem.wrongType k (Spec.typeText env t v)).line := by
  unfold typeErrorText Spec.typeText
  split
  · split
    · exact Or.inl rfl
    · exact Or.inr (by simp [Problem.line])
  · split
    · split
      · exact Or.inl rfl
      · exact Or.inr (by simp [Problem.line])
    · split
      · unfold stringTypeError
        cases v with
        | arr a =>
          simp only
          split
          · exact Or.inl rfl
          · exact Or.inr (by simp [Problem.line])
        | str s => exact Or.inl rfl
        | npstr s => exact Or.inl rfl
        | _ => exact Or.inr (by simp [Problem.line])
      · exact Or.inr (by simp [Problem.line])

variable {env : Env} {o : Obj} {names : List Str} {sizes : Dict Nat} {write : Bool}

theorem types_collects {s : Str} (h : phaseTypes env o o.keys = .ok s) :
    Spec.Reports (fun p => ∃ k t, p = .wrongType k t ∧ p.Present env o names sizes write) s := by
  unfold phaseTypes at h
  cases hc : concatE (typeErrorKey env o) o.keys with
  | error e => simp [hc] at h
  | ok t =>
    simp only [hc, Except.ok.injEq] at h
    subst h
    refine Collects.reports ?_ (by rintro p ⟨k, t, rfl, _⟩; rfl)
    refine (Collects.concat (ps := fun k p => ∃ t, p = .wrongType k t ∧ p.Present env o names sizes write) hc ?_).congr ?_
    · intro k hk u hu
      unfold typeErrorKey convEntry at hu
      cases he : Dict.get? o.conv k with
      | none => simp [he] at hu
      | some e =>
        obtain ⟨v, hv⟩ := get_of_mem_keys hk
        simp only [he, getAttr_of_get hv, Except.ok.injEq] at hu
        subst hu
        have hp : ∀ t, (Problem.wrongType k t).Present env o names sizes write ↔
            typeErrorText env k e.typ v ≠ [] ∧ t = Spec.typeText env e.typ v := by
          intro t
          simp only [Problem.Present, ne_eq, typeErrorText_nil, hv, he, Option.some.injEq]
          constructor
          · rintro ⟨_, _, rfl, rfl, h⟩; exact h
          · intro h; exact ⟨v, e, rfl, rfl, h⟩
        rcases typeErrorText_line env k e.typ v with h0 | h0
        · rw [h0]
          apply Collects.nil
          rintro p ⟨t, rfl, h1⟩
          exact ((hp t).1 h1).1 h0
        · refine Collects.single h0 ?_
          intro p
          constructor
          · rintro ⟨t, rfl, h1⟩; rw [((hp t).1 h1).2]
          · rintro rfl; exact ⟨_, rfl, (hp _).2 ⟨h0 ▸ line_nonempty _, rfl⟩⟩
    · intro p
      constructor
      · rintro ⟨k, _, h⟩; exact ⟨k, h⟩
      · rintro ⟨k, t, rfl, h⟩
        refine ⟨k, ?_, t, rfl, h⟩
        obtain ⟨v, e, h1, _⟩ := h
        exact mem_keys_of_get h1

/-! ## Names -/

theorem startsWith_iff (k p : Str) : Str.startsWith k p = true ↔ p <+: k := by
  unfold Str.startsWith
  rw [List.isPrefixOf_iff_prefix]

theorem underscores_iff (k : Str) : '_' ∈ Str.replace k (py% "Data_") [] ↔ ∃ p s, k = p ++ '_' :: s ∧ ¬ (py% "Data") <:+ p := by
  constructor
  · intro h
    refine Classical.byContradiction fun hn => ?_
    refine replaceData_go (k := k) k.length (Nat.le_refl _) ?_ h
    intro p s hk
    refine Classical.byContradiction fun hd => hn ⟨p, s, hk, hd⟩
  · rintro ⟨p, s, hk, hd⟩
    refine Classical.byContradiction fun hn => hd (replace_data hn p s hk)

theorem beforeLast_iff (k var : Str) : Str.beforeLast '_' k = some var ↔ ∃ rest, k = var ++ '_' :: rest ∧ '_' ∉ rest := by
  constructor
  · exact beforeLast_some
  · rintro ⟨rest, rfl, h⟩
    exact beforeLast_eq h

/-- one check of the names -/
theorem names_section {f : Str → Except Exc Str} {q : Str → Problem} {s hd : Str} (h : concatE f o.keys = .ok s)
    (hq : ∀ k, line k = (q k).line) (hh : ∀ k, (q k).heading = hd)
    (hf : ∀ k ∈ o.keys, ∀ t, f k = .ok t → ((q k).Present env o names sizes write ∧ t = line k) ∨
      (¬ (q k).Present env o names sizes write ∧ t = []))
    (hp : ∀ k, (q k).Present env o names sizes write → k ∈ o.keys) :
    Spec.Reports (fun p => ∃ k, p = q k ∧ p.Present env o names sizes write) (section_ hd s) := by
  refine Collects.reports ?_ (by rintro p ⟨k, rfl, _⟩; exact hh k)
  refine (Collects.concat (ps := fun k p => p = q k ∧ p.Present env o names sizes write) h ?_).congr ?_
  · intro k hk t ht
    rcases hf k hk t ht with ⟨h1, rfl⟩ | ⟨h1, rfl⟩
    · refine Collects.single (hq k) ?_
      intro p
      constructor
      · rintro ⟨rfl, _⟩; rfl
      · rintro rfl; exact ⟨rfl, h1⟩
    · apply Collects.nil
      rintro p ⟨rfl, h⟩
      exact h1 h
  · intro p
    constructor
    · rintro ⟨k, _, h⟩; exact ⟨k, h⟩
    · rintro ⟨k, rfl, h⟩; exact ⟨k, hp k h, rfl, h⟩

theorem noVariable_section {s : Str} (h : concatE (nameNoVariable o) o.keys = .ok s) :
    Spec.Reports (fun p => ∃ k, p = .noVariable k ∧ p.Present env o names sizes write)
      (section_ (py% "Detected attributes with missing variables:\n") s) := by
  refine names_section h (fun k => by simp [Problem.line, line]) (fun k => rfl) ?_ (fun k h => h.1)
  intro k hk t ht
  unfold nameNoVariable convEntry at ht
  cases he : Dict.get? o.conv k with
  | none => simp [he] at ht
  | some e =>
    simp only [he] at ht
    have hp : (Problem.noVariable k).Present env o names sizes write ↔ e.typ = py% "attribute" ∧
        ∃ var, Str.beforeLast '_' k = some var ∧ Dict.has o.conv var = false ∧ Str.startsWith k (py% "GLOBAL_") = false := by
      have e1 : ∀ var, Dict.has o.conv var = false ↔ var ∉ o.conv.map Prod.fst := by
        intro var
        rw [← Bool.not_eq_true, Dict.has_iff_mem]; rfl
      have e2 : Str.startsWith k (py% "GLOBAL_") = false ↔ ¬ (py% "GLOBAL_") <+: k := by
        rw [← Bool.not_eq_true, startsWith_iff]
      simp only [Problem.Present, e1, e2, beforeLast_iff, he, Option.some.injEq]
      constructor
      · rintro ⟨_, _, var, rest, rfl, a1, a2, a3, a4, a5⟩
        exact ⟨a1, var, ⟨rest, a2, a3⟩, a4, a5⟩
      · rintro ⟨a1, var, ⟨rest, a2, a3⟩, a4, a5⟩
        exact ⟨hk, e, var, rest, rfl, a1, a2, a3, a4, a5⟩
    rw [hp]
    by_cases ha : e.typ = py% "attribute"
    · rw [if_neg (by simpa using ha)] at ht
      cases hb : Str.beforeLast '_' k with
      | none =>
        simp only [hb, Except.ok.injEq] at ht
        exact Or.inr ⟨by simp, ht.symm⟩
      | some var =>
        simp only [hb] at ht
        by_cases hc : (! Dict.has o.conv var && ! Str.startsWith k (py% "GLOBAL_")) = true
        · rw [if_pos hc] at ht
          simp only [Bool.and_eq_true, Bool.not_eq_true'] at hc
          exact Or.inl ⟨⟨ha, var, rfl, hc⟩, (Except.ok.inj ht).symm⟩
        · rw [if_neg hc] at ht
          simp only [Bool.and_eq_true, Bool.not_eq_true'] at hc
          refine Or.inr ⟨?_, (Except.ok.inj ht).symm⟩
          rintro ⟨_, var', hv, h2⟩
          cases hv
          exact hc h2
    · rw [if_pos (by simpa using ha)] at ht
      exact Or.inr ⟨fun h => ha h.1, (Except.ok.inj ht).symm⟩

theorem noUnderscore_section {s : Str} (h : concatE (nameNoUnderscore o) o.keys = .ok s) :
    Spec.Reports (fun p => ∃ k, p = .noUnderscore k ∧ p.Present env o names sizes write)
      (section_ (py% "Detected attribute names with too many or little underscores. Names must have the form Variable_Attribute, Data_Attribute (one underscore), or Data_Variable_Attribute (two underscores):\n") s) := by
  refine names_section h (fun k => by simp [Problem.line, line]) (fun k => rfl) ?_ (fun k h => h.1)
  intro k hk t ht
  unfold nameNoUnderscore convEntry at ht
  cases he : Dict.get? o.conv k with
  | none => simp [he] at ht
  | some e =>
    simp only [he] at ht
    have hp : (Problem.noUnderscore k).Present env o names sizes write ↔ e.typ = py% "attribute" ∧ '_' ∉ k := by
      simp only [Problem.Present, he, Option.some.injEq, exists_eq_left']
      exact ⟨fun h => h.2, fun h => ⟨hk, h⟩⟩
    rw [hp]
    split at ht
    · rename_i hc; exact Or.inl ⟨hc, (Except.ok.inj ht).symm⟩
    · rename_i hc; exact Or.inr ⟨hc, (Except.ok.inj ht).symm⟩

theorem underscores_section {s : Str} (h : concatE (nameVariable o) o.keys = .ok s) :
    Spec.Reports (fun p => ∃ k, p = .underscores k ∧ p.Present env o names sizes write)
      (section_ (py% "Detected variable names with too many underscores.Underscores are only allowed for the variable Data:\n") s) := by
  refine names_section h (fun k => by simp [Problem.line, line]) (fun k => rfl) ?_ (fun k h => h.1)
  intro k hk t ht
  unfold nameVariable convEntry at ht
  cases he : Dict.get? o.conv k with
  | none => simp [he] at ht
  | some e =>
    simp only [he] at ht
    have hp : (Problem.underscores k).Present env o names sizes write ↔
        e.typ ≠ py% "attribute" ∧ '_' ∈ Str.replace k (py% "Data_") [] := by
      rw [underscores_iff]
      simp only [Problem.Present, he, Option.some.injEq]
      constructor
      · rintro ⟨_, _, p, s, rfl, a1, a2, a3⟩; exact ⟨a1, p, s, a2, a3⟩
      · rintro ⟨a1, p, s, a2, a3⟩; exact ⟨hk, e, p, s, rfl, a1, a2, a3⟩
    rw [hp]
    split at ht
    · rename_i hc; exact Or.inl ⟨hc, (Except.ok.inj ht).symm⟩
    · rename_i hc; exact Or.inr ⟨hc, (Except.ok.inj ht).symm⟩

theorem reserved_section {s : Str} (h : concatE (nameReserved o) o.keys = .ok s) :
    Spec.Reports (fun p => ∃ k, p = .reserved k ∧ p.Present env o names sizes write)
      (section_ (py% "Detected variable or attribute with reserved key words PRIVATE, API, or GLOBAL:\n") s) := by
  refine names_section h (fun k => by simp [Problem.line, line]) (fun k => rfl) ?_ (fun k h => h.1)
  intro k hk t ht
  unfold nameReserved convEntry at ht
  simp only at ht
  have hpre : (Str.startsWith k (py% "PRIVATE") || Str.startsWith k (py% "API")) = true ↔
      (py% "PRIVATE") <+: k ∨ (py% "API") <+: k := by
    rw [Bool.or_eq_true, startsWith_iff, startsWith_iff]
  have hexcl : (py% "GLOBAL") <+: k → ¬ ((py% "PRIVATE") <+: k ∨ (py% "API") <+: k) := by
    rintro ⟨r, rfl⟩ (⟨r', h⟩ | ⟨r', h⟩) <;> simp at h
  by_cases hg : (py% "GLOBAL") <+: k
  · have hnp := hexcl hg
    rw [if_neg (fun hh => hnp (hpre.1 hh)), if_pos ((startsWith_iff _ _).2 hg)] at ht
    by_cases hg' : (py% "GLOBAL_") <+: k
    · have hg2 := (startsWith_iff _ _).2 hg'
      simp only [hg2, Bool.not_true, Bool.false_eq_true, if_false] at ht
      cases he : Dict.get? o.conv k with
      | none => simp [he] at ht
      | some e =>
        simp only [he, List.nil_append] at ht
        have hp : (Problem.reserved k).Present env o names sizes write ↔ e.typ ≠ py% "attribute" := by
          simp only [Problem.Present, he, Option.some.injEq, exists_eq_left', hg, hg', not_true_eq_false, false_or, true_and]
          constructor
          · rintro ⟨_, h | h | h⟩
            · exact absurd (Or.inl h) hnp
            · exact absurd (Or.inr h) hnp
            · exact h
          · intro h; exact ⟨hk, Or.inr (Or.inr h)⟩
        rw [hp]
        split at ht
        · rename_i hc; exact Or.inl ⟨hc, (Except.ok.inj ht).symm⟩
        · rename_i hc; exact Or.inr ⟨hc, (Except.ok.inj ht).symm⟩
    · have hg2 : Str.startsWith k (py% "GLOBAL_") = false := by
        rw [← Bool.not_eq_true, startsWith_iff]; exact hg'
      simp only [hg2, Bool.not_false, if_true, List.nil_append, Except.ok.injEq] at ht
      exact Or.inl ⟨⟨hk, Or.inr (Or.inr ⟨hg, Or.inl hg'⟩)⟩, ht.symm⟩
  · rw [if_neg (fun hh => hg ((startsWith_iff _ _).1 hh))] at ht
    have hp : (Problem.reserved k).Present env o names sizes write ↔ (py% "PRIVATE") <+: k ∨ (py% "API") <+: k := by
      constructor
      · rintro ⟨_, h | h | h⟩
        · exact Or.inl h
        · exact Or.inr h
        · exact absurd h.1 hg
      · rintro (h | h)
        · exact ⟨hk, Or.inl h⟩
        · exact ⟨hk, Or.inr (Or.inl h)⟩
    rw [hp]
    by_cases hc : (py% "PRIVATE") <+: k ∨ (py% "API") <+: k
    · rw [if_pos (hpre.2 hc)] at ht
      exact Or.inl ⟨hc, (Except.ok.inj ht).symm⟩
    · rw [if_neg (fun hh => hc (hpre.1 hh))] at ht
      exact Or.inr ⟨hc, (Except.ok.inj ht).symm⟩

/-- the problems with names -/
def IsName : Problem → Prop
  | .noVariable _ => True
  | .noUnderscore _ => True
  | .underscores _ => True
  | .reserved _ => True
  | _ => False

theorem names_report {s : Str} (h : phaseNames o o.keys = .ok s) :
    Spec.Reports (fun p => IsName p ∧ p.Present env o names sizes write) s := by
  unfold phaseNames at h
  cases h1 : concatE (nameNoVariable o) o.keys with
  | error e => simp [h1] at h
  | ok s1 =>
    cases h2 : concatE (nameNoUnderscore o) o.keys with
    | error e => simp [h1, h2] at h
    | ok s2 =>
      cases h3 : concatE (nameVariable o) o.keys with
      | error e => simp [h1, h2, h3] at h
      | ok s3 =>
        cases h4 : concatE (nameReserved o) o.keys with
        | error e => simp [h1, h2, h3, h4] at h
        | ok s4 =>
          simp only [h1, h2, h3, h4, Except.ok.injEq] at h
          subst h
          refine Reports.congr (Reports.append (Reports.append (Reports.append
            (noVariable_section (env := env) (names := names) (sizes := sizes) (write := write) h1)
            (noUnderscore_section (env := env) (names := names) (sizes := sizes) (write := write) h2))
            (underscores_section (env := env) (names := names) (sizes := sizes) (write := write) h3))
            (reserved_section (env := env) (names := names) (sizes := sizes) (write := write) h4)) ?_
          intro p
          constructor
          · rintro (((⟨k, rfl, h⟩ | ⟨k, rfl, h⟩) | ⟨k, rfl, h⟩) | ⟨k, rfl, h⟩) <;> exact ⟨trivial, h⟩
          · rintro ⟨hn, h⟩
            cases p <;> try exact False.elim hn
            · exact Or.inl (Or.inl (Or.inl ⟨_, rfl, h⟩))
            · exact Or.inl (Or.inl (Or.inr ⟨_, rfl, h⟩))
            · exact Or.inl (Or.inr ⟨_, rfl, h⟩)
            · exact Or.inr ⟨_, rfl, h⟩

theorem taken_report {inner : Inner} {s : Str} (h : (phaseCustomNames inner o).1 = .ok s)
    (hn : o.custom ≠ none → inner.out = .ok names) :
    Spec.Reports (fun p => ∃ k, p = .taken k ∧ p.Present env o names sizes write) s := by
  unfold phaseCustomNames at h
  cases hc : o.custom with
  | none =>
    simp only [hc, Except.ok.injEq] at h
    subst h
    apply Reports.nil
    rintro p ⟨k, rfl, c, h, _⟩
    rw [hc] at h
    cases h
  | some c =>
    simp only [hc, hn (by simp [hc]), Except.ok.injEq] at h
    subst h
    refine Collects.reports ?_ (by rintro p ⟨k, rfl, _⟩; rfl)
    unfold nameCustom
    simp only
    refine (Collects.flatten (ps := fun k p => p = .taken k) ?_).congr ?_
    · intro k _
      exact Collects.single (q := .taken k) (by simp [Problem.line, line]) (by simp)
    · intro p
      constructor
      · rintro ⟨k, hk, rfl⟩
        obtain ⟨h1, h2⟩ := List.mem_filter.1 hk
        refine ⟨k, rfl, c, hc, h1, ?_⟩
        simpa using h2
      · rintro ⟨k, rfl, c', h0, h1, n, h2, h3⟩
        rw [hc] at h0
        cases h0
        refine ⟨k, List.mem_filter.2 ⟨h1, ?_⟩, rfl⟩
        simpa using ⟨n, h2, h3⟩

/-! ## Shapes -/

theorem matchShape_inr {api : Dict Nat} {act last s : List Nat} {alts : List Str}
    (h : matchShape api act last alts = .ok (.inr s)) :
    (∀ a ∈ alts, ∃ ref, refShape api a = .ok ref ∧ compareShape act ref.length ≠ ref) ∧
      s = (alts.getLast?.map (fun a => compareShape act a.length)).getD last := by
  induction alts generalizing last with
  | nil =>
    simp only [matchShape, Except.ok.injEq, Sum.inr.injEq] at h
    simp [h]
  | cons a l ih =>
    simp only [matchShape] at h
    cases hr : refShape api a with
    | error e => simp [hr] at h
    | ok ref =>
      simp only [hr] at h
      split at h
      · simp at h
      · rename_i hc
        obtain ⟨ih1, ih2⟩ := ih h
        refine ⟨?_, ?_⟩
        · intro b hb
          rcases List.mem_cons.1 hb with rfl | hb
          · exact ⟨ref, hr, hc⟩
          · exact ih1 b hb
        · rw [ih2, refShape_length hr]
          cases l with
          | nil => rfl
          | cons b l => simp [List.getLast?_cons]

theorem verboseDim_text {api : Dict Nat} {a : Str} {l : List Str} (h : verboseDim api a = .ok l) :
    l = a.map (fun c => c :: '=' :: Str.ofNat ((Dict.get? api [c]).getD 0)) := by
  induction a generalizing l with
  | nil =>
    simp only [verboseDim, Except.ok.injEq] at h
    simp [← h]
  | cons c a ih =>
    simp only [verboseDim] at h
    cases hg : Dict.get? api [c] with
    | none => simp [hg] at h
    | some n =>
      cases hr : verboseDim api a with
      | error e => simp [hg, hr] at h
      | ok r =>
        simp only [hg, hr, Except.ok.injEq] at h
        rw [← h, ih hr, List.map_cons, hg]
        rfl

theorem verboseDims_text {api : Dict Nat} {as l : List Str} (h : verboseDims api as = .ok l) :
    l = as.map (fun a => Spec.requiredText (a.map (fun c => (c, (Dict.get? api [c]).getD 0)))) := by
  induction as generalizing l with
  | nil =>
    simp only [verboseDims, Except.ok.injEq] at h
    simp [← h]
  | cons a as ih =>
    simp only [verboseDims] at h
    cases hg : verboseDim api a with
    | error e => simp [hg] at h
    | ok n =>
      cases hr : verboseDims api as with
      | error e => simp [hg, hr] at h
      | ok r =>
        simp only [hg, hr, Except.ok.injEq] at h
        rw [← h, ih hr, verboseDim_text hg]
        simp only [List.map_cons, Spec.requiredText, List.map_map, Function.comp_def]

theorem upper_alternatives (alts : List Str) (hne : alts ≠ []) (h : ∀ a ∈ alts, ∀ c ∈ a, Str.upperC c ≠ ',' ∧ Str.upperC c ≠ ' ') :
    Str.splitChar ',' ((Str.upper (Str.join (py% ", ") alts)).filter (· ≠ ' ')) = alts.map Str.upper := by
  have hf : ∀ a : Str, (∀ c ∈ a, Str.upperC c ≠ ',' ∧ Str.upperC c ≠ ' ') → (Str.upper a).filter (· ≠ ' ') = Str.upper a ∧
      ',' ∉ Str.upper a := by
    intro a ha
    refine ⟨?_, ?_⟩
    · rw [List.filter_eq_self]
      intro c hc
      obtain ⟨x, hx, rfl⟩ := List.mem_map.1 hc
      simpa using (ha x hx).2
    · intro hc
      obtain ⟨x, hx, h⟩ := List.mem_map.1 hc
      exact (ha x hx).1 h
  induction alts with
  | nil => exact absurd rfl hne
  | cons a l ih =>
    obtain ⟨h1, h2⟩ := hf a (h a (by simp))
    cases l with
    | nil =>
      simp only [Str.join, List.map_cons, List.map_nil]
      rw [h1, splitChar_not_mem h2]
    | cons b l =>
      have hj : Str.join (py% ", ") (a :: b :: l) = a ++ ',' :: ' ' :: Str.join (py% ", ") (b :: l) := by
        simp [Str.join]
      have hu : (Str.upper (Str.join (py% ", ") (a :: b :: l))).filter (· ≠ ' ') =
          Str.upper a ++ ',' :: (Str.upper (Str.join (py% ", ") (b :: l))).filter (· ≠ ' ') := by
        rw [hj, ← h1]
        unfold Str.upper
        rw [List.map_append, List.filter_append]
        rfl
      rw [hu, splitChar_append h2, ih (by simp) (fun x hx => h x (by simp [hx])), List.map_cons (a := a)]

theorem sized_not_blank {c : Char} (h : Spec.Sized o c) : c ≠ ',' ∧ c ≠ ' ' := by
  have h1 := Sized.letter h
  constructor
  · rintro rfl
    have h2 : (',' : Char).toNat = 44 := by decide
    omega
  · rintro rfl
    have h2 : (' ' : Char).toNat = 32 := by decide
    omega

theorem alternatives_eq {d : Str} {alts : List Str} (h : Spec.Alternatives d alts) : alts = Str.splitCommaSpace d := by
  obtain ⟨rfl, h1, h2⟩ := h
  exact (splitCommaSpace_join alts h1 h2).symm

theorem alternatives_self (d : Str) : Spec.Alternatives d (Str.splitCommaSpace d) :=
  ⟨(join_splitCommaSpace d).symm, splitCommaSpace_ne d, splitCommaSpace_pieces d⟩

theorem head_firstAlt (d : Str) : (Str.splitCommaSpace d).head? = some (firstAlt d) := by
  unfold firstAlt
  cases h : Str.splitCommaSpace d with
  | nil => exact absurd h (splitCommaSpace_ne d)
  | cons a l => rfl

theorem compareShape_axes {k typ d : Str} {v : Val} {act : List Nat} (n : Nat)
    (hact : actualShape k typ d v = .ok act) (hc : ',' ∉ firstAlt d) :
    compareShape act n = (List.range n).map
      (Spec.axisSize (decide (typ = py% "attribute" ∨ typ = py% "string")) (firstAlt d).length v.shape) := by
  apply List.ext_getElem?
  intro i
  by_cases hi : i < n
  · rw [getElem?_compareShape hi, actualShape_axis hact hc, List.getElem?_map, List.getElem?_range hi]
    rfl
  · rw [List.getElem?_eq_none, List.getElem?_eq_none (by simpa using hi)]
    unfold compareShape Arr.padOnes
    simp only [List.length_append, List.length_replicate, List.length_take]
    omega

/-- an alternative fits if and only if the sizes of the axes agree -/
theorem compare_iff {k typ d a : Str} {v : Val} {act ref : List Nat} {api : Dict Nat}
    (hact : actualShape k typ d v = .ok act) (hc : ',' ∉ firstAlt d) (hr : refShape api a = .ok ref) :
    compareShape act ref.length = ref ↔ ∀ i c, a[i]? = some c →
      Spec.axisSize (decide (typ = py% "attribute" ∨ typ = py% "string")) (firstAlt d).length v.shape i =
        (if c = 'S' then 1 else (Dict.get? api [Str.upperC c]).getD 0) := by
  obtain ⟨h1, _⟩ := refShape_ok hr
  have hl := refShape_length hr
  have hlen : (compareShape act ref.length).length = ref.length := by
    unfold compareShape Arr.padOnes
    simp only [List.length_append, List.length_replicate, List.length_take]
    omega
  have key : ∀ i c, a[i]? = some c → ((compareShape act ref.length)[i]? = ref[i]? ↔
      Spec.axisSize (decide (typ = py% "attribute" ∨ typ = py% "string")) (firstAlt d).length v.shape i =
        (if c = 'S' then 1 else (Dict.get? api [Str.upperC c]).getD 0)) := by
    intro i c hic
    have hi : i < a.length := by
      rw [List.getElem?_eq_some_iff] at hic
      exact hic.1
    rw [getElem?_compareShape (by omega), actualShape_axis hact hc, h1, List.getElem?_map, hic]
    simp [sizeIn]
  constructor
  · intro h i c hic
    rw [← key i c hic, h]
  · intro h
    apply List.ext_getElem?
    intro i
    cases hic : a[i]? with
    | some c => exact (key i c hic).2 (h i c hic)
    | none =>
      rw [List.getElem?_eq_none_iff] at hic
      rw [List.getElem?_eq_none (by omega), List.getElem?_eq_none (by omega)]

theorem shapeKey_cases (hc : Spec.Checkable o) {api : Dict Nat} {k : Str} {v : Val} {e : Entry} {d : Str}
    (hv : Spec.VariableWith o k v e d) {r : Str ⊕ Str} (h : shapeKey o api k = .ok r) :
    (∃ m, r = .inl m ∧ ∀ is must, ¬ Spec.WrongShape o api k is must) ∨
      ∃ is must, r = .inr (Problem.shape k is must).line ∧
        ∀ is' must', Spec.WrongShape o api k is' must' ↔ is' = is ∧ must' = must := by
  have hcomma : ',' ∉ firstAlt d := fun hm =>
    sized_not_comma (hc.sized k v e d _ hv (isAlternative_of_mem (firstAlt_mem d)) ',' hm)
  unfold shapeKey at h
  simp only [convEntry, hv.entry, getAttr_of_get hv.value, entryDims, hv.dims] at h
  cases hact : actualShape k e.typ d v with
  | error x => simp [hact] at h
  | ok act =>
    simp only [hact] at h
    cases hm : matchShape api act [] (Str.splitCommaSpace d) with
    | error x => simp [hm] at h
    | ok q =>
      cases q with
      | inl m =>
        simp only [hm, Except.ok.injEq] at h
        left
        refine ⟨_, h.symm, ?_⟩
        rintro is must ⟨v', e', d', alts, first, last, hv', ha, hf, _, hall, _⟩
        have h1 := hv.value.symm.trans hv'.value
        cases h1
        have h2 := hv.entry.symm.trans hv'.entry
        cases h2
        have h3 := hv.dims.symm.trans hv'.dims
        cases h3
        rw [alternatives_eq ha] at hf hall
        rw [head_firstAlt, Option.some.injEq] at hf
        subst hf
        obtain ⟨g1, ref, g2, g3⟩ := matchShape_inl hm
        obtain ⟨i, c, hi, hne⟩ := hall m g1
        exact hne ((compare_iff hact hcomma g2).1 g3 i c hi)
      | inr s =>
        simp only [hm] at h
        right
        obtain ⟨hno, hs⟩ := matchShape_inr hm
        split at h
        · simp at h
        · rename_i l hl
          have hup := upper_alternatives (Str.splitCommaSpace d) (splitCommaSpace_ne d) (fun a ha c hx =>
            sized_not_blank (hc.sized k v e d a hv (isAlternative_of_mem ha) c hx))
          rw [join_splitCommaSpace] at hup
          rw [hup] at hl
          have hl := verboseDims_text hl
          rw [List.map_map] at hl
          have hlast : ∃ last, (Str.splitCommaSpace d).getLast? = some last := by
            cases hg : (Str.splitCommaSpace d).getLast? with
            | none => exact absurd (List.getLast?_eq_none_iff.1 hg) (splitCommaSpace_ne d)
            | some last => exact ⟨last, rfl⟩
          obtain ⟨last, hlast⟩ := hlast
          rw [hlast] at hs
          simp only [Option.map_some, Option.getD_some] at hs
          rw [compareShape_axes _ hact hcomma] at hs
          refine ⟨s, (Str.splitCommaSpace d).map (fun a => a.map (fun c =>
            (Str.upperC c, (Dict.get? api [Str.upperC c]).getD 0))), ?_, ?_⟩
          · rw [← (Except.ok.inj h)]
            simp only [Problem.line, hl, Str.upper, List.map_map, Function.comp_def]
          · intro is' must'
            constructor
            · rintro ⟨v', e', d', alts, first, last', hv', ha, hf, hlast', _, h1, h2⟩
              have g1 := hv.value.symm.trans hv'.value
              cases g1
              have g2 := hv.entry.symm.trans hv'.entry
              cases g2
              have g3 := hv.dims.symm.trans hv'.dims
              cases g3
              rw [alternatives_eq ha] at hf hlast' h2
              rw [head_firstAlt, Option.some.injEq] at hf
              subst hf
              rw [hlast, Option.some.injEq] at hlast'
              subst hlast'
              exact ⟨h1.trans hs.symm, h2⟩
            · rintro ⟨rfl, rfl⟩
              refine ⟨v, e, d, _, _, last, hv, alternatives_self d, head_firstAlt d, hlast, ?_, hs, rfl⟩
              intro a ha
              obtain ⟨ref, g2, g3⟩ := hno a ha
              refine Classical.byContradiction fun hn => g3 ((compare_iff hact hcomma g2).2 ?_)
              intro i c hi
              refine Classical.byContradiction fun hne => hn ⟨i, c, hi, hne⟩

theorem shapeLoop_collects (hc : Spec.Checkable o) {api : Dict Nat} {ks : List Str} {dims : Dict Str} {s : Str}
    (hk : ∀ k ∈ ks, ∃ v e d, Spec.VariableWith o k v e d) (h : (shapeLoop o api ks dims).1 = .ok s) :
    Collects (fun p => ∃ k ∈ ks, ∃ is must, p = .shape k is must ∧ Spec.WrongShape o api k is must) s := by
  induction ks generalizing dims s with
  | nil =>
    simp only [shapeLoop, Except.ok.injEq] at h
    subst h
    exact Collects.nil (by simp)
  | cons k ks ih =>
    obtain ⟨v, e, d, hv⟩ := hk k (by simp)
    have hk' : ∀ j ∈ ks, ∃ v e d, Spec.VariableWith o j v e d := fun j hj => hk j (by simp [hj])
    simp only [shapeLoop] at h
    cases hs : shapeKey o api k with
    | error x => simp [hs] at h
    | ok r =>
      rcases shapeKey_cases hc hv hs with ⟨m, rfl, hw⟩ | ⟨is, must, rfl, hw⟩
      · simp only [hs] at h
        refine (ih hk' h).congr ?_
        intro p
        constructor
        · rintro ⟨j, hj, h⟩; exact ⟨j, by simp [hj], h⟩
        · rintro ⟨j, hj, is, must, rfl, hj'⟩
          rcases List.mem_cons.1 hj with rfl | hj
          · exact absurd hj' (hw is must)
          · exact ⟨j, hj, is, must, rfl, hj'⟩
      · simp only [hs] at h
        cases hq : (shapeLoop o api ks dims).1 with
        | error x => simp [hq] at h
        | ok t =>
          simp only [hq, Except.ok.injEq] at h
          subst h
          refine (Collects.append (Collects.single (ps := fun p => p = .shape k is must) rfl (by simp)) (ih hk' hq)).congr ?_
          intro p
          constructor
          · rintro (rfl | ⟨j, hj, h⟩)
            · exact ⟨k, by simp, is, must, rfl, (hw _ _).2 ⟨rfl, rfl⟩⟩
            · exact ⟨j, by simp [hj], h⟩
          · rintro ⟨j, hj, is', must', rfl, h⟩
            rcases List.mem_cons.1 hj with rfl | hj
            · obtain ⟨rfl, rfl⟩ := (hw _ _).1 h
              exact Or.inl rfl
            · exact Or.inr ⟨j, hj, is', must', rfl, h⟩

theorem shapes_report (hc : Spec.Checkable o) {s : Str} (h : (phaseShapes o).1 = .ok s) :
    Spec.Reports (fun p => ∃ k is must, p = .shape k is must ∧ p.Present env o names (o.api.getD []) write) s := by
  unfold phaseShapes at h
  simp only at h
  cases hr : (shapeLoop o (o.api.getD []) (dimKeys o) []).1 with
  | error e => simp [hr] at h
  | ok t =>
    simp only [hr, Except.ok.injEq] at h
    subst h
    refine Collects.reports ?_ (by rintro p ⟨k, _, _, rfl, _⟩; rfl)
    refine (shapeLoop_collects hc (dimKeys_variable hc) hr).congr ?_
    intro p
    constructor
    · rintro ⟨k, _, is, must, rfl, h⟩; exact ⟨k, is, must, rfl, h⟩
    · rintro ⟨k, is, must, rfl, h⟩
      refine ⟨k, ?_, is, must, rfl, h⟩
      obtain ⟨v, e, d, _, _, _, hv, _⟩ := h
      exact dimKeys_mem hv.value hv.entry hv.dims

/-! ## Rules -/

theorem get_none_of_hasAttr {k : Str} (hk : Spec.OrdinaryName k) (h : ¬ o.hasAttr k = true) : Dict.get? o.attrs k = none := by
  cases hg : Dict.get? o.attrs k with
  | none => rfl
  | some v => exact absurd ((hasAttr_data hk.1 hk.2).2 ⟨v, hg⟩) h

theorem general_collects {s g : Str} (hk : Spec.OrdinaryName (Spec.sofarName g)) :
    Collects (fun p => p = .needs (Spec.sofarName g) s ∧ Dict.get? o.attrs (Spec.sofarName g) = none) (generalRule o s g) := by
  unfold generalRule
  rw [toSofar_eq]
  by_cases h : o.hasAttr (Spec.sofarName g) = true
  · rw [if_pos h]
    obtain ⟨v, hv⟩ := (hasAttr_data hk.1 hk.2).1 h
    exact Collects.nil (by simp [hv])
  · rw [if_neg h]
    have := get_none_of_hasAttr hk h
    exact Collects.single (q := .needs (Spec.sofarName g) s) (by simp [Problem.line]) (by simp [this])

/-- the problems with a specific dependency -/
def ItemBreaks (fmt : Val → Str) (aliases : Dict Str) (o : Obj) (sizes : Dict Nat) (k t : Str) (item : SpecItem) (p : Problem) : Prop :=
  match item with
  | .dims l => ∃ d n ns str, p = .size d n str k t ∧ (d, ns, str) ∈ l ∧ Dict.get? sizes d = some n ∧ n ∉ ns
  | .dep g ref => (p = .needsFor (Spec.sofarName g) k t ∧ Dict.get? o.attrs (Spec.sofarName g) = none) ∨
      ∃ l w, ref = some l ∧ p = .valueFor (Spec.sofarName g) (Spec.shown fmt w) l k t ∧
        Dict.get? o.attrs (Spec.sofarName g) = some w ∧ ¬ Spec.Allowed aliases (Spec.sofarName g) w l

theorem item_collects {k t s : Str} {item : SpecItem}
    (hk : ∀ g ref, item = .dep g ref → Spec.OrdinaryName (Spec.sofarName g)) (h : specificRule env o k t item = .ok s) :
    Collects (ItemBreaks env.fmt env.aliases o (o.api.getD []) k t item) s := by
  cases item with
  | dims l =>
    simp only [specificRule] at h
    refine (Collects.concat (ps := fun x p => ∃ n, p = .size x.1 n x.2.2 k t ∧
      Dict.get? (o.api.getD []) x.1 = some n ∧ n ∉ x.2.1) h ?_).congr ?_
    · rintro ⟨d, ns, str⟩ _ u hu
      unfold dimRule at hu
      simp only at hu
      cases hg : Dict.get? (o.api.getD []) d with
      | none => simp [hg] at hu
      | some n =>
        simp only [hg] at hu
        by_cases hn : n ∈ ns
        · rw [if_pos (by simpa using hn)] at hu
          cases hu
          apply Collects.nil
          rintro p ⟨n', _, h1, h2⟩
          simp only [Option.some.injEq] at h1
          exact h2 (h1 ▸ hn)
        · rw [if_neg (by simpa using hn)] at hu
          cases hu
          refine Collects.single (q := .size d n str k t) (by simp [Problem.line]) ?_
          intro p
          constructor
          · rintro ⟨n', rfl, h1, _⟩
            simp only [Option.some.injEq] at h1
            rw [h1]
          · rintro rfl; exact ⟨n, rfl, rfl, hn⟩
    · intro p
      constructor
      · rintro ⟨⟨d, ns, str⟩, hm, n, h1, h2⟩; exact ⟨d, n, ns, str, h1, hm, h2⟩
      · rintro ⟨d, n, ns, str, h1, hm, h2⟩; exact ⟨(d, ns, str), hm, n, h1, h2⟩
  | dep g ref =>
    have hk' := hk g ref rfl
    simp only [specificRule, toSofar_eq] at h
    by_cases ha : o.hasAttr (Spec.sofarName g) = true
    · obtain ⟨w, hw⟩ := (hasAttr_data hk'.1 hk'.2).1 ha
      simp only [ha, Bool.not_true, Bool.false_eq_true, if_false, getAttr_of_get hw] at h
      have hb : ∀ p, ItemBreaks env.fmt env.aliases o (o.api.getD []) k t (.dep g ref) p ↔
          ∃ l, ref = some l ∧ p = .valueFor (Spec.sofarName g) (Spec.shown env.fmt w) l k t ∧
            ¬ Spec.Allowed env.aliases (Spec.sofarName g) w l := by
        intro p
        simp only [ItemBreaks, hw, reduceCtorEq, and_false, false_or, Option.some.injEq]
        constructor
        · rintro ⟨l, _, h1, h2, rfl, h3⟩; exact ⟨l, h1, h2, h3⟩
        · rintro ⟨l, h1, h2, h3⟩; exact ⟨l, w, h1, h2, rfl, h3⟩
      refine Collects.congr ?_ (fun p => (hb p).symm)
      cases ref with
      | none =>
        simp only [Except.ok.injEq] at h
        subst h
        exact Collects.nil (by simp)
      | some r =>
        simp only at h
        have hval := verifyValue_true_iff env.aliases w r (Spec.sofarName g)
        cases hvv : verifyValue env.aliases w (some r) (Spec.sofarName g) with
        | error e => simp [hvv] at h
        | ok b =>
          rw [hvv] at hval
          cases b with
          | true =>
            simp only [hvv, Except.ok.injEq] at h
            subst h
            apply Collects.nil
            rintro p ⟨l, h1, _, h2⟩
            cases h1
            exact h2 (hval.1 rfl)
          | false =>
            simp only [hvv, Except.ok.injEq] at h
            subst h
            refine Collects.single (q := .valueFor (Spec.sofarName g) (Spec.shown env.fmt w) r k t)
              (by simp [Problem.line, pyStr_shown]) ?_
            intro p
            constructor
            · rintro ⟨l, h1, h2, _⟩; cases h1; exact h2
            · rintro rfl
              refine ⟨r, rfl, rfl, fun hh => ?_⟩
              have := hval.2 hh
              simp at this
    · simp only [ha, Bool.not_false, if_true, Except.ok.injEq] at h
      subst h
      have hn := get_none_of_hasAttr hk' ha
      refine Collects.single (q := .needsFor (Spec.sofarName g) k t) (by simp [Problem.line]) ?_
      intro p
      simp [ItemBreaks, hn]

theorem items_eq {rule : Rule} {v : Val} {items : List SpecItem} {t : Str} (h : specificItems rule v = .ok (items, t)) :
    (items = [] ∧ ∀ sp t0, rule.specific = some sp → Spec.text v = some t0 → Dict.get? sp (Spec.ruleValue t0) = none ∨
        Dict.get? sp (Spec.ruleValue t0) = some []) ∨
      ∃ sp t0, rule.specific = some sp ∧ Spec.text v = some t0 ∧ t = Spec.ruleValue t0 ∧ Dict.get? sp t = some items := by
  unfold specificItems at h
  cases hs : rule.specific with
  | none =>
    simp only [hs, Except.ok.injEq, Prod.mk.injEq] at h
    exact Or.inl ⟨h.1.symm, by simp⟩
  | some sp =>
    simp only [hs, asStr_text] at h
    cases ht : Spec.text v with
    | none =>
      simp only [ht] at h
      left
      refine ⟨?_, by simp⟩
      cases v <;> simp at h
      all_goals exact h.1
    | some t0 =>
      simp only [ht, lowerTest_eq, Except.ok.injEq, Prod.mk.injEq] at h
      obtain ⟨h1, h2⟩ := h
      cases hg : Dict.get? sp (Spec.ruleValue t0) with
      | none =>
        left
        simp only [hg, Option.getD_none] at h1
        refine ⟨h1.symm, ?_⟩
        rintro sp' t1 a b
        cases a; cases b
        exact Or.inl hg
      | some l =>
        right
        simp only [hg, Option.getD_some] at h1
        exact ⟨sp, t0, rfl, rfl, h2.symm, by rw [← h2, hg, h1]⟩

theorem rule_collects {key : Str} {rule : Rule} {s : Str} (hk : Spec.OrdinaryRule key rule)
    (h : ruleKey env o (key, rule) = .ok s) :
    Collects (Spec.Breaks env.fmt env.aliases o (o.api.getD []) key rule) s := by
  unfold ruleKey at h
  simp only [toSofar_eq] at h
  by_cases ha : o.hasAttr (Spec.sofarName key) = true
  · obtain ⟨v, hv⟩ := (hasAttr_data hk.name.1 hk.name.2).1 ha
    simp only [ha, Bool.not_true, Bool.false_eq_true, if_false, getAttr_of_get hv] at h
    cases hvv : verifyValue env.aliases v rule.value (Spec.sofarName key) with
    | error e => simp [hvv] at h
    | ok b =>
      simp only [hvv] at h
      cases hsi : specificItems rule v with
      | error e => simp [hsi] at h
      | ok q =>
        obtain ⟨items, t⟩ := q
        simp only [hsi] at h
        cases hcc : concatE (specificRule env o (Spec.sofarName key) t) items with
        | error e => simp [hcc] at h
        | ok s3 =>
          simp only [hcc, Except.ok.injEq] at h
          subst h
          -- values
          have c1 : Collects (fun p => ∃ l, p = .value (Spec.sofarName key) (Spec.shown env.fmt v) l ∧ rule.value = some l ∧
              ¬ Spec.Allowed env.aliases (Spec.sofarName key) v l)
              (if b then [] else py% "- " ++ Spec.sofarName key ++ py% " is " ++ pyStr env v ++ py% " but must be "
                ++ Str.join (py% ", ") (rule.value.getD []) ++ py% "\n") := by
            cases hrv : rule.value with
            | none =>
              rw [hrv] at hvv
              cases hvv
              exact Collects.nil (by simp)
            | some l =>
              have hval := verifyValue_true_iff env.aliases v l (Spec.sofarName key)
              rw [← hrv, hvv] at hval
              cases b with
              | true =>
                apply Collects.nil
                rintro p ⟨l', _, h1, h2⟩
                cases h1
                exact h2 (hval.1 rfl)
              | false =>
                refine Collects.single (q := .value (Spec.sofarName key) (Spec.shown env.fmt v) l)
                  (by simp [Problem.line, pyStr_shown]) ?_
                intro p
                constructor
                · rintro ⟨l', rfl, h1, _⟩; cases h1; rfl
                · rintro rfl
                  refine ⟨l, rfl, rfl, fun hh => ?_⟩
                  have := hval.2 hh
                  simp at this
          have c2 := Collects.flatten (f := generalRule o (Spec.sofarName key)) (l := rule.general)
            (ps := fun g p => p = .needs (Spec.sofarName g) (Spec.sofarName key) ∧
              Dict.get? o.attrs (Spec.sofarName g) = none)
            (fun g hg => general_collects (hk.general g hg))
          have hit := items_eq hsi
          have c3 := Collects.concat (ps := ItemBreaks env.fmt env.aliases o (o.api.getD []) (Spec.sofarName key) t) hcc
            (by
              intro i hi u hu
              refine item_collects ?_ hu
              rintro g ref rfl
              rcases hit with ⟨rfl, _⟩ | ⟨sp, t0, h1, h2, h3, h4⟩
              · simp at hi
              · exact hk.specific sp t items h1 h4 g ref hi)
          refine ((c1.append c2).append c3).congr ?_
          have hdem : ∀ t' items', Spec.Demands o rule (Spec.sofarName key) t' items' → items' ≠ [] → t' = t ∧ items' = items := by
            rintro t' items' ⟨v', t0, sp, h1, h2, h3, h4, h5⟩ hne
            rw [hv] at h1
            cases h1
            rcases hit with ⟨rfl, h6⟩ | ⟨sp', t0', h6, h7, h8, h9⟩
            · subst h3
              rcases h6 sp t0 h4 h2 with h6 | h6
              · rw [h5] at h6; cases h6
              · rw [h5] at h6; cases h6; exact absurd rfl hne
            · rw [h2] at h7
              cases h7
              rw [h4] at h6
              cases h6
              subst h8
              subst h3
              rw [h5] at h9
              cases h9
              exact ⟨rfl, rfl⟩
          have hdem' : items ≠ [] → Spec.Demands o rule (Spec.sofarName key) t items := by
            intro hne
            rcases hit with ⟨rfl, _⟩ | ⟨sp, t0, h1, h2, h3, h4⟩
            · exact absurd rfl hne
            · exact ⟨v, t0, sp, hv, h2, h3, h1, h4⟩
          intro p
          constructor
          · rintro ((⟨l, rfl, h1, h2⟩ | ⟨g, hg, rfl, h1⟩) | ⟨i, hi, hb⟩)
            · exact ⟨rfl, h1, v, hv, rfl, h2⟩
            · exact ⟨rfl, ⟨v, hv⟩, g, hg, rfl, h1⟩
            · have hd := hdem' (List.ne_nil_of_mem hi)
              cases i with
              | dims l =>
                obtain ⟨d, n, ns, str, rfl, h1, h2⟩ := hb
                exact ⟨rfl, items, l, ns, hd, hi, h1, h2⟩
              | dep g ref =>
                rcases hb with ⟨rfl, h1⟩ | ⟨l, w, rfl, rfl, h1, h2⟩
                · exact ⟨rfl, items, g, ref, hd, hi, rfl, h1⟩
                · exact ⟨rfl, items, g, w, hd, hi, rfl, h1, rfl, h2⟩
          · intro hb
            cases p <;> try exact False.elim hb
            case value k s l =>
              obtain ⟨rfl, h1, v', hv', rfl, h2⟩ := hb
              rw [hv] at hv'
              cases hv'
              exact Or.inl (Or.inl ⟨l, rfl, h1, h2⟩)
            case needs g k =>
              obtain ⟨rfl, _, g', hg, rfl, h1⟩ := hb
              exact Or.inl (Or.inr ⟨g', hg, rfl, h1⟩)
            case needsFor g k t' =>
              obtain ⟨rfl, items', g', ref, hd, hi, rfl, h1⟩ := hb
              obtain ⟨rfl, rfl⟩ := hdem _ _ hd (List.ne_nil_of_mem hi)
              exact Or.inr ⟨_, hi, Or.inl ⟨rfl, h1⟩⟩
            case valueFor g s l k t' =>
              obtain ⟨rfl, items', g', w, hd, hi, rfl, h1, rfl, h2⟩ := hb
              obtain ⟨rfl, rfl⟩ := hdem _ _ hd (List.ne_nil_of_mem hi)
              exact Or.inr ⟨_, hi, Or.inr ⟨l, w, rfl, rfl, h1, h2⟩⟩
            case size d n str k t' =>
              obtain ⟨rfl, items', ls, ns, hd, hi, h1, h2⟩ := hb
              obtain ⟨rfl, rfl⟩ := hdem _ _ hd (List.ne_nil_of_mem hi)
              exact Or.inr ⟨_, hi, d, n, ns, str, rfl, h1, h2⟩
  · simp only [ha, Bool.not_false, if_true, Except.ok.injEq] at h
    subst h
    have hn := get_none_of_hasAttr hk.name ha
    apply Collects.nil
    intro p hb
    cases p <;> try exact False.elim hb
    case value k s l => obtain ⟨rfl, h1, v', hv', h2⟩ := hb; rw [hn] at hv'; cases hv'
    case needs g k => obtain ⟨rfl, ⟨v, hv⟩, _⟩ := hb; rw [hn] at hv; cases hv
    case needsFor => obtain ⟨rfl, _, _, _, ⟨v, _, _, hv, _⟩, _⟩ := hb; rw [hn] at hv; cases hv
    case valueFor => obtain ⟨rfl, _, _, _, ⟨v, _, _, hv, _⟩, _⟩ := hb; rw [hn] at hv; cases hv
    case size => obtain ⟨rfl, _, _, _, ⟨v, _, _, hv, _⟩, _⟩ := hb; rw [hn] at hv; cases hv

/-- the problems with rules and units -/
def IsRule : Problem → Prop
  | .value _ _ _ => True
  | .needs _ _ => True
  | .needsFor _ _ _ => True
  | .valueFor _ _ _ _ _ => True
  | .size _ _ _ _ _ => True
  | .upperCase _ _ => True
  | _ => False

theorem units_collects {mode : Mode} {s : Str} (h : phaseUnits env o mode = .ok s) :
    Collects (fun p => ∃ k u, p = .upperCase k u ∧ p.Present env o names sizes (decide (mode = .write))) s := by
  cases mode with
  | read =>
    simp only [phaseUnits, Except.ok.injEq] at h
    subst h
    apply Collects.nil
    rintro p ⟨k, u, rfl, h, _⟩
    simp at h
  | write =>
    simp only [phaseUnits] at h
    refine (Collects.concat (ps := fun k p => ∃ u, p = .upperCase k u ∧ ∃ v, Dict.get? o.attrs k = some v ∧
      Spec.text v = some u ∧ Str.lower u ≠ u) h ?_).congr ?_
    · intro k hk t ht
      obtain ⟨v, hv⟩ := get_of_mem_keys (List.mem_filter.1 hk).1
      unfold unitKey at ht
      simp only [getAttr_of_get hv, asStr_text] at ht
      cases hu : Spec.text v with
      | none => simp [hu] at ht
      | some u =>
        simp only [hu] at ht
        have hp : ∀ u', (∃ v, Dict.get? o.attrs k = some v ∧ Spec.text v = some u' ∧ Str.lower u' ≠ u') ↔
            u' = u ∧ Str.lower u ≠ u := by
          intro u'
          constructor
          · rintro ⟨v', h1, h2, h3⟩
            rw [hv] at h1
            cases h1
            rw [hu] at h2
            cases h2
            exact ⟨rfl, h3⟩
          · rintro ⟨rfl, h⟩; exact ⟨v, hv, hu, h⟩
        simp only [hp]
        by_cases hl : Str.lower u = u
        · rw [if_pos hl] at ht
          cases ht
          exact Collects.nil (by simp [hl])
        · rw [if_neg hl] at ht
          cases ht
          exact Collects.single (q := .upperCase k u) (by simp [Problem.line, pyStr_shown, Spec.shown, hu]) (by simp [hl])
    · intro p
      have he : ∀ k, Str.endsWith k (py% "Units") = true ↔ (py% "Units") <:+ k := by
        intro k
        unfold Str.endsWith
        exact List.isSuffixOf_iff_suffix
      constructor
      · rintro ⟨k, hk, u, rfl, h⟩
        exact ⟨k, u, rfl, by simp, (he k).1 (List.mem_filter.1 hk).2, h⟩
      · rintro ⟨k, u, rfl, _, h1, v, h2, h3⟩
        exact ⟨k, List.mem_filter.2 ⟨mem_keys_of_get h2, (he k).2 h1⟩, u, rfl, v, h2, h3⟩

theorem rules_report {mode : Mode} {s : Str} (hk : ∀ p ∈ env.rules, Spec.OrdinaryRule p.1 p.2)
    (h : phaseRules env o mode = .ok s) :
    Spec.Reports (fun p => IsRule p ∧ p.Present env o names (o.api.getD []) (decide (mode = .write))) s := by
  unfold phaseRules at h
  cases h1 : concatE (ruleKey env o) env.rules with
  | error e => simp [h1] at h
  | ok s1 =>
    cases h2 : phaseUnits env o mode with
    | error e => simp [h1, h2] at h
    | ok s2 =>
      simp only [h1, h2, Except.ok.injEq] at h
      subst h
      have c1 := Collects.concat (ps := fun x p => Spec.Breaks env.fmt env.aliases o (o.api.getD []) x.1 x.2 p) h1
        (fun x hx t ht => rule_collects (hk x hx) ht)
      refine Collects.reports ((c1.append (units_collects (names := names) (sizes := o.api.getD []) h2)).congr ?_) ?_
      · intro p
        constructor
        · rintro (⟨⟨key, rule⟩, hm, hb⟩ | ⟨k, u, rfl, h⟩)
          · cases p <;> try exact False.elim hb
            all_goals exact ⟨trivial, key, rule, hm, hb⟩
          · exact ⟨trivial, h⟩
        · rintro ⟨hr, h⟩
          cases p <;> try exact False.elim hr
          case upperCase k u => exact Or.inr ⟨k, u, rfl, h⟩
          all_goals
            obtain ⟨key, rule, hm, hb⟩ := h
            exact Or.inl ⟨(key, rule), hm, hb⟩
      · rintro p ⟨hr, _⟩
        cases p <;> try exact False.elim hr
        all_goals rfl

theorem deprecations_report {mode : Mode} {e8 w8 : Str} (h : phaseDeprecations env o mode = .ok (e8, w8))
    (hv : ∃ v, Dict.get? o.attrs (py% "GLOBAL_SOFAConventions") = some v) :
    Spec.Reports (fun p => ∃ c new, p = .deprecated c new ∧ p.Present env o names sizes (decide (mode = .write))) e8 := by
  obtain ⟨v, hv⟩ := hv
  unfold phaseDeprecations at h
  simp only [getAttr_of_get hv, asStr_text] at h
  split at h
  · simp at h
  · split at h
    · simp at h
    · cases mode with
      | read =>
        simp only [Except.ok.injEq, Prod.mk.injEq] at h
        rw [← h.1]
        apply Reports.nil
        rintro p ⟨c, new, rfl, h, _⟩
        simp at h
      | write =>
        simp only [Except.ok.injEq, Prod.mk.injEq] at h
        rw [← h.1]
        cases ht : Spec.text v with
        | none =>
          apply Reports.nil
          rintro p ⟨c, new, rfl, _, v', h1, h2, _⟩
          rw [hv] at h1
          cases h1
          rw [ht] at h2
          cases h2
        | some c =>
          simp only
          unfold deprecationText
          cases hd : Dict.get? env.deprecations c with
          | none =>
            apply Reports.nil
            rintro p ⟨c', new, rfl, _, v', h1, h2, h3⟩
            rw [hv] at h1
            cases h1
            rw [ht] at h2
            cases h2
            rw [hd] at h3
            cases h3
          | some new =>
            simp only
            have hp : ∀ p : Problem, (∃ c new, p = .deprecated c new ∧ p.Present env o names sizes (decide (Mode.write = .write))) ↔
                p = .deprecated c new := by
              intro p
              constructor
              · rintro ⟨c', new', rfl, _, v', h1, h2, h3⟩
                rw [hv] at h1
                cases h1
                rw [ht] at h2
                cases h2
                rw [hd] at h3
                cases h3
                rfl
              · rintro rfl
                exact ⟨c, new, rfl, by simp, v, hv, ht, hd⟩
            refine ⟨[(py% "Detected deprecations:\n", [py% "- GLOBAL_SOFAConventions is " ++ c
              ++ py% ", which is deprecated. Use Sofa.upgrade_convention() to upgrade to " ++ new])], by simp, ?_, ?_⟩
            · intro s hs
              rw [List.mem_singleton] at hs
              subst hs
              refine ⟨by simp, ?_⟩
              intro l hl
              rw [List.mem_singleton] at hl
              exact ⟨.deprecated c new, (hp _).2 rfl, rfl, hl⟩
            · intro p hpp
              have hpp := (hp p).1 hpp
              subst hpp
              exact ⟨_, List.mem_singleton.2 rfl, rfl, List.mem_singleton.2 rfl⟩

/-! ## Everything -/

theorem present_same {o' : Obj} (h1 : o'.attrs = o.attrs) (h2 : o'.conv = o.conv) (h3 : o'.custom = o.custom)
    (p : Problem) : p.Present env o' names sizes write ↔ p.Present env o names sizes write := by
  have hv : ∀ k v e d, Spec.VariableWith o' k v e d ↔ Spec.VariableWith o k v e d := by
    intro k v e d
    constructor
    · intro h; exact ⟨h1 ▸ h.value, h2 ▸ h.entry, h.dims⟩
    · intro h; exact ⟨h1.symm ▸ h.value, h2.symm ▸ h.entry, h.dims⟩
  cases p <;> simp only [Problem.Present, Spec.WrongShape, Spec.Breaks, Spec.Demands, hv, h1, h2, h3]

/-- the result of the last phase of `verify` -/
def handled (w e : Str) (ih : IH) (o : Obj) (ev : List Event) : Ret (Option Str) :=
  let h := handleIssues w e ih
  match h.out with
  | .error x => ⟨.error x, o, ev ++ h.ev⟩
  | .ok (occurred, issues) => ⟨.ok (if occurred && ih == .ret then issues else none), o, ev ++ h.ev⟩

theorem verifyTail_handled {env : Env} {o : Obj} {mode : Mode} {e6 e8 w8 : Str} (h9 : phaseRules env o mode = .ok e6)
    (h10 : phaseDeprecations env o mode = .ok (e8, w8)) (ih : IH) (hi : ih ≠ .ignore) (w e : Str) (ev : List Event) :
    verifyTail env o ih mode w e ev = handled (w ++ w8) (e ++ e6 ++ e8) ih o ev := by
  unfold verifyTail
  simp only [h9, h10]
  cases ih with
  | ignore => exact absurd rfl hi
  | _ => rfl

theorem deprecations_warning {env : Env} {o : Obj} {mode : Mode} {e8 w8 : Str} {cv : Val}
    (h : phaseDeprecations env o mode = .ok (e8, w8)) (hc : Dict.get? o.attrs (py% "GLOBAL_SOFAConventions") = some cv)
    (hv : ∃ v t q, Dict.get? o.attrs (py% "GLOBAL_SOFAConventionsVersion") = some v ∧ Spec.text v = some t ∧
      pyFloat t = some q) : Spec.Warning env o (decide (mode = .write)) w8 := by
  obtain ⟨v, t, q, h1, h2, h3⟩ := hv
  refine ⟨cv, v, t, q, hc, h1, h2, h3, ?_⟩
  have hf : valFloat v = .ok q := by
    cases v <;> simp_all [Spec.text, valFloat]
  have hs : pyStr env v = t := by rw [pyStr_shown, Spec.shown, h2]; rfl
  have hp : preliminaryText env v = .ok (if q < 1 then py% "\n\nDetected preliminary conventions version " ++ t ++
        py% ":\n - Upgrade data to version >= 1.0 if possible. Preliminary conventions might change in the future, which could invalidate data that was written before the changes." else []) := by
    simp only [preliminaryText, hf, hs]
    split <;> rfl
  simp only [phaseDeprecations, getAttr_of_get hc, getAttr_of_get h1, hp, asStr_text] at h
  cases mode with
  | write =>
    simp only [Except.ok.injEq, Prod.mk.injEq] at h
    rw [← h.2]
    simp
  | read =>
    simp only [Except.ok.injEq, Prod.mk.injEq] at h
    rw [← h.2]
    congr 1
    simp only [reduceCtorEq, decide_false, Bool.false_eq_true, if_false]
    cases ht : Spec.text cv with
    | none => rfl
    | some c =>
      simp only [Option.bind_some, deprecationText]
      cases hd : Dict.get? env.deprecations c with
      | none => rfl
      | some new => simp [Problem.heading, Problem.line]

/-- the texts of the checks that follow the checks for missing data and wrong types -/
theorem verifyBody_texts {inner : Inner} {env : Env} {o : Obj} {mode : Mode} {names : List Str}
    (h : Ready inner env o) (ht : Typed o) (hm : Spec.HasMandatory o) (hn : o.custom ≠ none → inner.out = .ok names) :
    ∃ body w8 o3 ev api, Spec.Reports (fun p => p.Present env o names api (decide (mode = .write))) body ∧
      Spec.Warning env o (decide (mode = .write)) w8 ∧ o3.api = some api ∧
      (∀ c, Spec.Sized o c → ∃ n, Dict.get? api [c] = some n) ∧ (o.custom = none → ev = []) ∧
      ∀ w ih, ih ≠ .ignore → verifyBody inner env o o.keys ih mode w [] = handled (w ++ w8) body ih o3 ev := by
  obtain ⟨e3, h3⟩ := phaseNames_total (keys_known h.check)
  obtain ⟨e3', h3'⟩ := customNames_total h.inner
  obtain ⟨h4, api, h5, h6, h7⟩ := phaseDims_total h.check
  have a1 : (phaseDims o).2.attrs = o.attrs := by rw [h5]
  have a2 : (phaseDims o).2.conv = o.conv := by rw [h5]
  have a3 : (phaseDims o).2.custom = o.custom := by rw [h5]
  have a4 : (phaseDims o).2.api.getD [] = api := by rw [h5]; rfl
  obtain ⟨e5, h8⟩ := phaseShapes_total (Checkable.same h.check a1 a2 a3) (api := api) (by rw [h5])
    (fun c hc => h7 c ((Sized.same a1 a2).1 hc))
  obtain ⟨d, hd⟩ := phaseShapes_obj (phaseDims o).2
  have b1 : (phaseShapes (phaseDims o).2).2.attrs = o.attrs := by rw [hd, a1]
  have b2 : (phaseShapes (phaseDims o).2).2.conv = o.conv := by rw [hd, a2]
  have b3 : (phaseShapes (phaseDims o).2).2.api = some api := by rw [hd, h5]
  have b4 : (phaseShapes (phaseDims o).2).2.custom = o.custom := by rw [hd, a3]
  generalize ho3 : (phaseShapes (phaseDims o).2).2 = o3 at b1 b2 b3 b4
  obtain ⟨e6, h9⟩ := phaseRules_total (RegularRules.same h.rules b1 b2) (o := o3)
    (by unfold Typed; rw [b1, b2]; exact ht) b3 (fun c hc => h7 c ((Sized.same b1 b2).1 hc)) mode
  obtain ⟨cv, hcv⟩ := h.conv
  obtain ⟨e8, w8, h10⟩ := phaseDeprecations_total (env := env) (o := o3) (mode := mode) (cv := cv) (by rw [b1, hcv])
    (by rw [b1]; exact h.check.version)
  have b5 : o3.api.getD [] = api := by rw [b3]; rfl
  have r3 := names_report (env := env) (names := names) (sizes := api) (write := decide (mode = .write)) h3
  have r3' := taken_report (env := env) (names := names) (sizes := api) (write := decide (mode = .write)) h3' hn
  have r5 := shapes_report (env := env) (names := names) (write := decide (mode = .write))
    (Checkable.same h.check a1 a2 a3) h8
  have r6 := rules_report (names := names) h.rules.ordinary h9
  have r8 := deprecations_report (names := names) (sizes := api) h10 ⟨cv, by rw [b1, hcv]⟩
  simp only [present_same a1 a2 a3, a4] at r5
  simp only [present_same b1 b2 b4, b5] at r6 r8
  have hwarn := deprecations_warning h10 (by rw [b1, hcv]) (by rw [b1]; exact h.check.version)
  refine ⟨e3 ++ e3' ++ e5 ++ e6 ++ e8, w8, o3, (phaseCustomNames inner o).2, api, ?_, ?_, b3, h7, ?_, ?_⟩
  · refine Reports.congr (Reports.append (Reports.append (Reports.append (Reports.append r3 r3') r5) r6) r8) ?_
    intro p
    constructor
    · rintro ((((⟨_, h⟩ | ⟨_, _, h⟩) | ⟨_, _, _, _, h⟩) | ⟨_, h⟩) | ⟨_, _, _, h⟩) <;> exact h
    · intro hp
      cases p
      case missing k =>
        obtain ⟨e, f, g1, g2, g3, g4⟩ := hp
        exact absurd (hm k e f g1 g2 g3) g4
      case wrongType k t =>
        obtain ⟨v, e, g1, g2, g3, _⟩ := hp
        obtain ⟨e', g4, g5⟩ := ht k v g1
        rw [g2] at g4
        cases g4
        exact absurd g5 g3
      case noVariable => exact Or.inl (Or.inl (Or.inl (Or.inl ⟨trivial, hp⟩)))
      case noUnderscore => exact Or.inl (Or.inl (Or.inl (Or.inl ⟨trivial, hp⟩)))
      case underscores => exact Or.inl (Or.inl (Or.inl (Or.inl ⟨trivial, hp⟩)))
      case reserved => exact Or.inl (Or.inl (Or.inl (Or.inl ⟨trivial, hp⟩)))
      case taken k => exact Or.inl (Or.inl (Or.inl (Or.inr ⟨k, rfl, hp⟩)))
      case shape k is must => exact Or.inl (Or.inl (Or.inr ⟨k, is, must, rfl, hp⟩))
      case deprecated c new => exact Or.inr ⟨c, new, rfl, hp⟩
      all_goals exact Or.inl (Or.inr ⟨trivial, hp⟩)
  · obtain ⟨c, v, t, q, g1, g2, g3⟩ := hwarn
    rw [b1] at g1 g2
    exact ⟨c, v, t, q, g1, g2, g3⟩
  · intro hc
    unfold phaseCustomNames
    simp only [hc]
  · intro w ih hi
    unfold verifyBody
    simp only [h3, h3', h4, h8, ho3]
    rw [verifyTail_handled h9 h10 ih hi]
    simp

theorem verifyBody_report {inner : Inner} {env : Env} {o : Obj} {mode : Mode} {names : List Str}
    (h : Ready inner env o) (ht : Typed o) (hm : Spec.HasMandatory o) (hn : o.custom ≠ none → inner.out = .ok names) (w : Str) :
    ∃ body, Spec.Reports (fun p => p.Present env o names ((verifyBody inner env o o.keys .raise mode w []).obj.api.getD [])
          (decide (mode = .write))) body ∧
      (verifyBody inner env o o.keys .raise mode w []).out =
        if body = [] then .ok none else .error (.valueError (errorHeader ++ body)) := by
  obtain ⟨body, w8, o3, ev, api, h1, _, h3, _, _, h6⟩ := verifyBody_texts (mode := mode) h ht hm hn
  rw [h6 w .raise (by simp)]
  by_cases he : body = []
  · subst he
    obtain ⟨i, hi⟩ := handle_noerr (w ++ w8) .raise
    refine ⟨[], ?_, ?_⟩
    · unfold handled
      simp only [hi, h3, Option.getD_some]
      exact h1
    · unfold handled
      simp [hi]
  · refine ⟨body, ?_, ?_⟩
    · unfold handled
      simp only [handle_raise_err _ _ he, h3, Option.getD_some]
      exact h1
    · rw [if_neg he]
      unfold handled
      simp only [handle_raise_err _ _ he]

/-- the report of `verify` with `raise` -/
theorem verifyG_report {inner : Env → Obj → Inner} {env : Env} {o o1 : Obj} {mode : Mode} {names : List Str}
    (hr : resetConvention env o = .ok o1) (h : Ready (inner env o1) env o1)
    (hn : o1.custom ≠ none → (inner env o1).out = .ok names) :
    ∃ body, Spec.Reports (fun p => p.Present env o1 names ((verifyG inner env o .raise mode).obj.api.getD [])
          (decide (mode = .write)) ∧
        (p.First ∨ ∀ q : Problem, q.First → ¬ q.Present env o1 names ((verifyG inner env o .raise mode).obj.api.getD [])
          (decide (mode = .write)))) body ∧
      (verifyG inner env o .raise mode).out =
        if body = [] then .ok none else .error (.valueError (errorHeader ++ body)) := by
  have hf := fillMissing_raise o1.keys o1.conv o1
  obtain ⟨missing, hm⟩ := fillMissing_false_total o1.keys o1.conv o1
  obtain ⟨e2, h2⟩ := phaseTypes_total (env := env) (o := o1) (keys := o1.keys) (by
    intro k hk
    obtain ⟨e, he⟩ := h.check.known k hk
    obtain ⟨v, hv⟩ := get_of_mem_keys hk
    exact ⟨e, v, he, hv⟩)
  have heq : verifyG inner env o .raise mode =
      if ! (section_ (py% "Detected missing mandatory data call sofa.add_missing() to fix this):\n") missing ++ e2).isEmpty then
        verifyEarly o1 .raise (section_ (py% "Detected missing mandatory data call sofa.add_missing() to fix this):\n") missing ++ e2)
      else verifyBody (inner env o1) env o1 o1.keys .raise mode []
        (section_ (py% "Detected missing mandatory data call sofa.add_missing() to fix this):\n") missing ++ e2) := by
    unfold verifyG
    rw [hr]
    simp only [ne_eq, not_true_eq_false, decide_false, if_true, hm, hf, h2]
    simp
  generalize hS : (verifyG inner env o .raise mode).obj.api.getD [] = sizes
  have c1 := missing_collects o1.keys o1.conv o1 missing hm
  have r1 : Spec.Reports (fun p => ∃ k, p = .missing k ∧ p.Present env o1 names sizes (decide (mode = .write)))
      (section_ (py% "Detected missing mandatory data call sofa.add_missing() to fix this):\n") missing) := by
    refine Collects.reports (c1.congr ?_) (by rintro p ⟨k, rfl, _⟩; rfl)
    intro p
    constructor
    · rintro ⟨k, rfl, h⟩; exact ⟨k, rfl, h⟩
    · rintro ⟨k, rfl, h⟩; exact ⟨k, rfl, h⟩
  have r2 := types_collects (names := names) (sizes := sizes) (write := decide (mode = .write)) h2
  have r12 : Spec.Reports (fun p => p.First ∧ p.Present env o1 names sizes (decide (mode = .write)))
      (section_ (py% "Detected missing mandatory data call sofa.add_missing() to fix this):\n") missing ++ e2) := by
    refine Reports.congr (Reports.append r1 r2) ?_
    intro p
    constructor
    · rintro (⟨k, rfl, h⟩ | ⟨k, t, rfl, h⟩) <;> exact ⟨trivial, h⟩
    · rintro ⟨h1, h⟩
      cases p <;> try exact False.elim h1
      · exact Or.inl ⟨_, rfl, h⟩
      · exact Or.inr ⟨_, _, rfl, h⟩
  by_cases he : section_ (py% "Detected missing mandatory data call sofa.add_missing() to fix this):\n") missing ++ e2 = []
  · -- all checks
    have hnone := (Reports.empty r12).1 he
    have hE : section_ (py% "Detected missing mandatory data call sofa.add_missing() to fix this):\n") missing = [] ∧ e2 = [] := by
      simpa using he
    have htyped := typed_of_nil (hE.2 ▸ h2)
    have hmand : Spec.HasMandatory o1 := by
      intro k e f g1 g2 g3
      refine Classical.byContradiction fun hk => ?_
      exact hnone (.missing k) ⟨trivial, e, f, g1, g2, g3, hk⟩
    rw [he] at heq
    simp only [List.isEmpty_nil, Bool.not_true, Bool.false_eq_true, if_false] at heq
    obtain ⟨body, hb1, hb2⟩ := verifyBody_report (mode := mode) h htyped hmand hn []
    refine ⟨body, ?_, by rw [heq]; exact hb2⟩
    rw [← heq, hS] at hb1
    refine Reports.congr hb1 ?_
    intro p
    constructor
    · intro hp; exact ⟨hp, Or.inr (fun q hq1 hq2 => hnone q ⟨hq1, hq2⟩)⟩
    · intro hp; exact hp.1
  · refine ⟨_, Reports.congr r12 ?_, ?_⟩
    · intro p
      constructor
      · rintro ⟨h1, h2⟩; exact ⟨h2, Or.inl h1⟩
      · rintro ⟨h1, h2 | h2⟩
        · exact ⟨h2, h1⟩
        · exfalso
          apply he
          rw [Reports.empty r12]
          rintro q ⟨hq1, hq2⟩
          exact h2 q hq1 hq2
    · rw [if_neg he, heq, if_pos (by simpa using he)]
      unfold verifyEarly
      simp only [handle_raise_err _ _ he]

/-- the results of `verify` with `raise` and `return` if no mandatory data is missing -/
theorem verifyG_split {inner : Env → Obj → Inner} {env : Env} {o o1 : Obj} {mode : Mode} {names : List Str}
    (hr : resetConvention env o = .ok o1) (h : Ready (inner env o1) env o1)
    (hn : o1.custom ≠ none → (inner env o1).out = .ok names) (hm : Spec.HasMandatory o1) :
    (∃ report, report ≠ [] ∧ (verifyG inner env o .ret mode).out = .ok (some (errorHeader ++ report)) ∧
      ∀ sizes, Spec.Reports (fun p => p.First ∧ p.Present env o1 names sizes (decide (mode = .write))) report) ∨
    ∃ body w8 o3 ev api, Spec.Reports (fun p => p.Present env o1 names api (decide (mode = .write))) body ∧
      (∀ p : Problem, p.First → ∀ sizes, ¬ p.Present env o1 names sizes (decide (mode = .write))) ∧
      Spec.Warning env o1 (decide (mode = .write)) w8 ∧ o3.api = some api ∧
      (∀ c, Spec.Sized o1 c → ∃ n, Dict.get? api [c] = some n) ∧ (o1.custom = none → ev = []) ∧
      ∀ ih, ih ≠ .ignore → verifyG inner env o ih mode = handled w8 body ih o3 ev := by
  have hg := fun ih => verifyG_present inner env o o1 ih mode hr ((isMandatory_iff o1).2 hm)
  obtain ⟨e2, h2⟩ := phaseTypes_total (env := env) (o := o1) (keys := o1.keys) (by
    intro k hk
    obtain ⟨e, he⟩ := h.check.known k hk
    obtain ⟨v, hv⟩ := get_of_mem_keys hk
    exact ⟨e, v, he, hv⟩)
  simp only [h2] at hg
  have hfirst : ∀ sizes, Spec.Reports (fun p => p.First ∧ p.Present env o1 names sizes (decide (mode = .write))) e2 := by
    intro sizes
    refine Reports.congr (types_collects (names := names) (sizes := sizes) (write := decide (mode = .write)) h2) ?_
    intro p
    constructor
    · rintro ⟨k, t, rfl, h⟩; exact ⟨trivial, h⟩
    · rintro ⟨h1, h⟩
      cases p <;> try exact False.elim h1
      case missing k =>
        obtain ⟨e, f, g1, g2, g3, g4⟩ := h
        exact absurd (hm k e f g1 g2 g3) g4
      case wrongType k t => exact ⟨k, t, rfl, h⟩
  by_cases he : e2 = []
  · right
    subst he
    obtain ⟨body, w8, o3, ev, api, h1, h3, h4, h5, h6, h7⟩ := verifyBody_texts (mode := mode) h (typed_of_nil h2) hm hn
    refine ⟨body, w8, o3, ev, api, h1, ?_, h3, h4, h5, h6, ?_⟩
    · intro p hp sizes hpp
      exact (Reports.empty (hfirst sizes)).1 rfl p ⟨hp, hpp⟩
    · intro ih hi
      rw [hg]
      simpa using h7 [] ih hi
  · left
    refine ⟨e2, he, ?_, hfirst⟩
    rw [hg, if_pos (by simpa using he)]
    unfold verifyEarly
    simp [handle_err _ _ .ret he (by simp)]

theorem handled_ret (w e : Str) (o : Obj) (ev : List Event) (he : e ≠ []) :
    (handled w e .ret o ev).out = .ok (some (errorHeader ++ e ++ (if w = [] then [] else py% "\n" ++ (warningHeader ++ w)))) := by
  unfold handled
  simp [handle_err _ _ .ret he (by simp)]

theorem handled_nil (w : Str) (ih : IH) (o : Obj) (ev : List Event) : (handled w [] ih o ev).out = .ok none := by
  unfold handled
  obtain ⟨i, hi⟩ := handle_noerr w ih
  simp [hi]

theorem handled_obj (w e : Str) (ih : IH) (o : Obj) (ev : List Event) : (handled w e ih o ev).obj = o := by
  unfold handled
  simp only
  split <;> rfl

theorem handled_raise_ev (w e : Str) (o : Obj) (ev : List Event) :
    (handled w e .raise o ev).ev = ev ++ (if w = [] then [] else [.warn (warningHeader ++ w)]) := by
  unfold handled
  cases w <;> cases e <;> simp [handleIssues]

end Sofar
