import Verif.Lemmas.Upgrade
import Verif.Lemmas.Init
import Verif.Lemmas.Names
import Verif.Lemmas.Custom
import Verif.Spec.IO
import Verif.Model.IO
/-!
# Paths, versions, tables and stored values: the functions of the model and the vocabulary of the specifications
-/
namespace Sofar

theorem splitChar_mem_ne {c : Char} {s a : Str} (ha : a ∈ Str.splitChar c s) : c ∉ a := by
  induction s generalizing a with
  | nil => simp [Str.splitChar] at ha; subst ha; simp
  | cons d t ih =>
    unfold Str.splitChar at ha
    by_cases h : d = c
    · rw [if_pos h] at ha
      rcases List.mem_cons.1 ha with rfl | ha
      · simp
      · exact ih ha
    · rw [if_neg h] at ha
      cases hs : Str.splitChar c t with
      | nil => exact absurd hs (splitChar_ne c t)
      | cons x l =>
        rw [hs] at ha ih
        simp only [Str.consHead] at ha
        rcases List.mem_cons.1 ha with rfl | ha
        · simp only [List.mem_cons, not_or]
          exact ⟨Ne.symm h, ih (by simp)⟩
        · exact ih (by simp [ha])

theorem join_splitChar (c : Char) (s : Str) : Str.join [c] (Str.splitChar c s) = s := by
  induction s with
  | nil => rfl
  | cons d t ih =>
    unfold Str.splitChar
    cases hs : Str.splitChar c t with
    | nil => exact absurd hs (splitChar_ne c t)
    | cons x l =>
      rw [hs] at ih
      by_cases h : d = c
      · subst h
        simp only [if_true, Str.join, List.nil_append, ih]
        rfl
      · simp only [if_neg h, Str.consHead]
        cases l with
        | nil => simp only [Str.join] at ih ⊢; rw [ih]
        | cons y l => simp only [Str.join, List.cons_append] at ih ⊢; rw [ih]

theorem splitChar_joined {c : Char} {l : List Str} (hl : l ≠ []) (h : ∀ n ∈ l, c ∉ n) :
    Str.splitChar c (Str.join [c] l) = l := by
  induction l with
  | nil => exact absurd rfl hl
  | cons a l ih =>
    cases l with
    | nil => exact splitChar_not_mem (h a (by simp))
    | cons b l =>
      simp only [Str.join]
      have := splitChar_append (h a (by simp)) (Str.join [c] (b :: l))
      rw [List.append_assoc]
      refine this.trans ?_
      rw [ih (by simp) (fun n hn => h n (by simp [hn]))]

theorem namesIn_iff (filename : Str) (names : List Str) : Spec.NamesIn filename names ↔ pathParts filename = names := by
  constructor
  · rintro ⟨pieces, h1, h2, rfl, rfl⟩
    unfold pathParts
    rw [splitChar_joined (c := '/') h1 h2]
  · rintro rfl
    exact ⟨Str.splitChar '/' filename, splitChar_ne _ _, fun p hp => splitChar_mem_ne hp, (join_splitChar '/' filename).symm,
      rfl⟩

theorem stemOf_unique {name stem : Str} (h : Spec.StemOf name stem) : suffixedName name = stem ++ py% ".sofa" := by
  unfold suffixedName
  rcases h with ⟨ending, rfl, h1, h2, h3⟩ | ⟨rfl, h⟩
  · rw [beforeLast_append _ _ h3]
    simp only
    rw [if_pos ⟨h1, by cases ending with | nil => exact absurd rfl h2 | cons x l => simp⟩]
  · cases hb : Str.beforeLast '.' stem with
    | none => rfl
    | some s =>
      obtain ⟨e, he, hd⟩ := beforeLast_some hb
      simp only
      rw [if_neg]
      rintro ⟨h1, h2⟩
      rcases h s e he hd with h | h
      · exact h1 h
      · subst h
        rw [he] at h2
        simp at h2

theorem stemOf_exists (name : Str) : ∃ stem, Spec.StemOf name stem := by
  cases hb : Str.beforeLast '.' name with
  | none =>
    refine ⟨name, Or.inr ⟨rfl, fun s e he hd => ?_⟩⟩
    rw [he, beforeLast_append _ _ hd] at hb
    cases hb
  | some s =>
    obtain ⟨e, he, hd⟩ := beforeLast_some hb
    by_cases h : s = [] ∨ e = []
    · refine ⟨name, Or.inr ⟨rfl, fun s' e' he' hd' => ?_⟩⟩
      rw [he', beforeLast_append _ _ hd'] at hb
      cases hb
      have : e' = e := by
        rw [he'] at he
        have := List.append_cancel_left he
        simpa using this
      rw [this]
      exact h
    · simp only [not_or] at h
      exact ⟨s, Or.inl ⟨e, he, h.1, h.2, hd⟩⟩

theorem startsWith_slash (s : Str) : Str.startsWith s (py% "/") = decide (s.head? = some '/') := by
  cases s with
  | nil => rfl
  | cons c s =>
    simp only [Str.startsWith, List.isPrefixOf, List.head?_cons, Option.some.injEq, Bool.and_true]
    by_cases h : c = '/'
    · subst h; rfl
    · rw [decide_eq_false h]
      exact beq_false_of_ne (Ne.symm h)

theorem withSuffix_iff {filename path : Str} : withSuffix filename = .ok path ↔ Spec.FileFor filename path := by
  unfold withSuffix Spec.FileFor
  constructor
  · intro h
    cases hl : (pathParts filename).getLast? with
    | none => rw [hl] at h; cases h
    | some name =>
      rw [hl] at h
      simp only [Except.ok.injEq] at h
      obtain ⟨stem, hst⟩ := stemOf_exists name
      have hne : pathParts filename ≠ [] := by intro h0; rw [h0] at hl; cases hl
      have hn : pathParts filename = (pathParts filename).dropLast ++ [name] := by
        rw [List.getLast?_eq_getLast_of_ne_nil hne, Option.some.injEq] at hl
        rw [← hl, List.dropLast_append_getLast]
      refine ⟨(pathParts filename).dropLast, name, stem, (namesIn_iff _ _).2 hn, hst, ?_⟩
      rw [← h, stemOf_unique hst, startsWith_slash]
      simp only [Spec.location, decide_eq_true_eq]
  · rintro ⟨dir, name, stem, hn, hs, rfl⟩
    rw [(namesIn_iff _ _).1 hn]
    simp only [List.getLast?_append, List.getLast?_singleton, Option.some_or, List.dropLast_concat, startsWith_slash,
      stemOf_unique hs, Spec.location, decide_eq_true_eq]

instance (filename path : Str) : Decidable (Spec.FileFor filename path) := decidable_of_iff _ withSuffix_iff

/-! ## Versions -/

theorem digit_spec (c : Char) : Str.digit? c = if 48 ≤ c.toNat ∧ c.toNat ≤ 57 then some (c.toNat - 48) else none := rfl

theorem digitsGo_iff (s : Str) (acc n : Nat) : Str.digitsGo acc s = some n ↔
    (∀ c ∈ s, 48 ≤ c.toNat ∧ c.toNat ≤ 57) ∧ n = s.foldl (fun a c => a * 10 + (c.toNat - 48)) acc := by
  induction s generalizing acc with
  | nil => simp [Str.digitsGo, eq_comm]
  | cons c s ih =>
    unfold Str.digitsGo
    rw [digit_spec]
    by_cases h : 48 ≤ c.toNat ∧ c.toNat ≤ 57
    · rw [if_pos h]
      simp only [ih, List.mem_cons, forall_eq_or_imp, List.foldl_cons]
      exact ⟨fun ⟨a, b⟩ => ⟨⟨h, a⟩, b⟩, fun ⟨⟨_, a⟩, b⟩ => ⟨a, b⟩⟩
    · rw [if_neg h]
      simp only [List.mem_cons, forall_eq_or_imp]
      exact ⟨fun h' => (by cases h'), fun ⟨⟨a, _⟩, _⟩ => absurd a h⟩

theorem digits_iff (s : Str) (n : Nat) : Str.digits? s = some n ↔ Spec.Digits s n := by
  unfold Str.digits? Spec.Digits
  cases s with
  | nil => simp
  | cons c s =>
    simp only [List.isEmpty_cons, Bool.false_eq_true, if_false, digitsGo_iff, ne_eq, reduceCtorEq, not_false_eq_true, true_and]

theorem mapM_some_iff {α β : Type} (f : α → Option β) (l : List α) (r : List β) :
    l.mapM f = some r ↔ List.Forall₂ (fun a b => f a = some b) l r := by
  induction l generalizing r with
  | nil =>
    constructor
    · intro h
      simp at h
      subst h
      exact .nil
    · intro h
      cases h
      rfl
  | cons a l ih =>
    rw [List.mapM_cons]
    constructor
    · intro h
      cases ha : f a with
      | none => simp [ha] at h
      | some b =>
        cases hl : l.mapM f with
        | none => simp [ha, hl] at h
        | some t =>
          simp [ha, hl] at h
          subst h
          exact .cons ha ((ih t).1 hl)
    · intro h
      cases h with
      | cons h1 h2 => simp [h1, (ih _).2 h2]

theorem number_dot {s : Str} {n : Nat} (h : Spec.Digits s n) : '.' ∉ s := by
  intro hm
  have := h.2.1 _ hm
  revert this
  decide

theorem parseVersion_iff {v : Str} {l : List Nat} : parseVersion v = .ok l ↔ Spec.VersionNumbers v l := by
  have h0 : parseVersion v = .ok l ↔ (Str.splitChar '.' v).mapM Str.digits? = some l := by
    unfold parseVersion
    cases (Str.splitChar '.' v).mapM Str.digits? with
    | none => simp
    | some r => simp
  rw [h0, mapM_some_iff]
  have h1 : ∀ (a : List Str) (b : List Nat), List.Forall₂ (fun a b => Str.digits? a = some b) a b ↔ List.Forall₂ Spec.Digits a b :=
    fun a b => by simp only [digits_iff]
  rw [h1]
  constructor
  · intro h
    exact ⟨_, splitChar_ne _ _, (join_splitChar '.' v).symm, h⟩
  · rintro ⟨parts, hne, rfl, h⟩
    rw [splitChar_joined (c := '.') hne]
    · exact h
    · have : ∀ (a : List Str) (b : List Nat), List.Forall₂ Spec.Digits a b → ∀ x ∈ a, '.' ∉ x := by
        intro a b hab
        induction hab with
        | nil => simp
        | cons h1 _ ih =>
          intro x hx
          rcases List.mem_cons.1 hx with rfl | hx
          · exact number_dot h1
          · exact ih x hx
      exact this _ _ h

/-! ## Tables and values -/

theorem tableOf_convertKeys (d : Dict Entry) : Spec.TableOf d (convertKeys d) where
  names := convertKeys_nodup d
  only := fun _ _ h => convertKeys_get (Dict.get?_of_mem (convertKeys_nodup d) h)
  all := fun k0 _ h => convertKeys_mem d k0 (List.mem_map_of_mem (f := Prod.fst) h)
  regular := convertKeys_injective d

theorem not_mem_convertKeys {d : Dict Entry} {n : Str} (h : ∀ p ∈ d, Spec.sofarName p.1 ≠ n) :
    n ∉ (convertKeys d).map Prod.fst := by
  intro hm
  obtain ⟨p, hp, rfl⟩ := List.mem_map.1 hm
  obtain ⟨k0, h1, h2⟩ := (tableOf_convertKeys d).only p.1 p.2 hp
  exact h _ h1 h2.symm

theorem storedAs_normalise {x : Inp} {w : Val} (hw : normalise x = .ok w) : Spec.StoredAs x w := by
  cases x with
  | val v => simp only [normalise, Except.ok.injEq] at hw; exact hw.symm
  | pybool b => simp only [normalise, Except.ok.injEq] at hw; exact hw.symm
  | ragged => simp [normalise] at hw
  | list a =>
    intro hwf
    have hs : (a.withShape (Arr.atleast2 a.shape)).size = a.data.length := by
      rw [hwf]; exact size_atleast2 a.shape
    unfold normalise at hw
    simp only [hs] at hw
    by_cases h1 : a.data.length = 1
    · obtain ⟨k, s, d⟩ := a
      match d, h1 with
      | [e], _ =>
        simp only [List.length_singleton, if_true, Arr.withShape, Except.ok.injEq] at hw
        subst hw
        refine ⟨?_, ?_, by simp⟩
        · cases k <;> cases e <;> rfl
        · intro _; cases k <;> cases e <;> trivial
    · simp only [h1, if_false, Except.ok.injEq] at hw
      subst hw
      refine ⟨rfl, fun h => absurd h h1, fun _ => ⟨_, rfl, rfl, ?_, ?_, ?_⟩⟩
      · simp only [Arr.withShape]
        match a.shape with
        | [] => simp [Arr.atleast2]
        | [_] => simp [Arr.atleast2]
        | _ :: _ :: _ => simp [Arr.atleast2]
      · simp only [Arr.withShape, Spec.SameUpToOnes]
        match a.shape with
        | [] => rfl
        | [_] => rfl
        | _ :: _ :: _ => rfl
      · simp only [Arr.withShape]
        match a.shape with
        | [] => simp
        | [_] => simp
        | _ :: _ :: _ => simp [Arr.atleast2]

end Sofar
