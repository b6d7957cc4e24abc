import Verif.Model.Object
import Verif.Lemmas.Dict
/-! # Lemmas on attribute access -/
namespace Sofar

theorem privateMembers_private : ∀ n ∈ privateMembers, isPrivate n = true := by decide

theorem privateInst_private (o : Obj) : ∀ n ∈ o.privateInst, isPrivate n = true := by
  intro n hn
  unfold Obj.privateInst at hn
  rcases o with ⟨_, _, c, d, a, _, _⟩
  cases c <;> cases d <;> cases a <;> simp at hn <;> grind [isPrivate, Str.startsWith]

/-- `hasattr` for public names -/
theorem hasAttr_public (o : Obj) (n : Str) (h : isPrivate n = false) :
    o.hasAttr n = true ↔ Dict.has o.attrs n = true ∨ n ∈ publicMembers := by
  have h1 : n ∉ privateMembers := fun hm => by simp [privateMembers_private n hm] at h
  have h2 : n ∉ o.privateInst := fun hm => by simp [privateInst_private o n hm] at h
  simp [Obj.hasAttr, h1, h2]

/-- All outcomes of an assignment. -/
theorem setAttr_cases (o : Obj) (n : Str) (v : Inp) :
    (∃ e, (setAttr o n v).out = .error e ∧ (setAttr o n v).obj = o ∧ (setAttr o n v).ev = []) ∨
    (∃ b, v = .pybool b ∧ n = py% "protected" ∧ (o.prot = true → o.readOnly.has n = false) ∧
      setAttr o n v = ⟨.ok (), { o with prot := b }, []⟩) ∨
    (∃ w, normalise v = .ok w ∧ n ≠ py% "protected" ∧ isPrivate n = false ∧
      (o.prot = true → o.readOnly.has n = false) ∧
      setAttr o n v = ⟨.ok (), { o with attrs := Dict.put o.attrs n w }, []⟩ ∧
      (o.prot = true → o.hasAttr n = true)) := by
  unfold setAttr
  by_cases h1 : (o.prot && ! o.hasAttr n) = true
  · left; exact ⟨_, by simp [h1]; rfl, by simp [h1], by simp [h1]⟩
  simp only [h1]
  by_cases h2 : (o.readOnly.has n && o.prot) = true
  · left; exact ⟨_, by simp [h2]; rfl, by simp [h2], by simp [h2]⟩
  simp only [h2]
  have hro : o.prot = true → o.readOnly.has n = false := by
    intro hp; simpa [hp] using h2
  by_cases h3 : n = py% "protected"
  · simp only [h3, if_true]
    cases v with
    | pybool b => right; left; exact ⟨b, rfl, trivial, h3 ▸ hro, by simp⟩
    | val _ => left; exact ⟨_, rfl, rfl, rfl⟩
    | list _ => left; exact ⟨_, rfl, rfl, rfl⟩
    | ragged => left; exact ⟨_, rfl, rfl, rfl⟩
  simp only [h3, if_false]
  cases hv : normalise v with
  | error e => left; exact ⟨_, rfl, rfl, rfl⟩
  | ok w =>
    simp only
    by_cases h4 : n = py% "list_dimensions"
    · left; exact ⟨_, by simp [h4]; rfl, by simp [h4], by simp [h4]⟩
    simp only [h4, if_false]
    by_cases h5 : isPrivate n = true
    · left; exact ⟨_, by simp [h5]; rfl, by simp [h5], by simp [h5]⟩
    right; right
    refine ⟨w, rfl, h3, by simpa using h5, hro, by simp [h5], ?_⟩
    intro hp; simpa [hp] using h1

/-- All outcomes of a deletion. -/
theorem delAttr_cases (o : Obj) (n : Str) :
    (∃ e, (delAttr o n).out = .error e ∧ (delAttr o n).obj = o) ∨
    (Dict.has o.attrs n = true ∧ (o.prot = true → ∃ e, Dict.get? o.conv n = some e ∧ mandatory e.flags = false) ∧
      delAttr o n = ⟨.ok (), { o with attrs := Dict.del o.attrs n,
                                      custom := o.custom.map (fun c => Dict.del c n) }, []⟩) := by
  have hr : (∃ e, (removeAttr o n).out = .error e ∧ (removeAttr o n).obj = o) ∨
      (Dict.has o.attrs n = true ∧ removeAttr o n =
        ⟨.ok (), { o with attrs := Dict.del o.attrs n, custom := o.custom.map (fun c => Dict.del c n) }, []⟩) := by
    unfold removeAttr
    by_cases h : Dict.has o.attrs n = true
    · right; simp [h]
    · left
      by_cases h2 : isPrivate n = true
      · exact ⟨_, by simp [h, h2]; rfl, by simp [h, h2]⟩
      · exact ⟨_, by simp [h, h2]; rfl, by simp [h, h2]⟩
  unfold delAttr
  by_cases h1 : o.hasAttr n = true
  · by_cases hp : o.prot = true
    · cases hc : Dict.get? o.conv n with
      | none => left; exact ⟨_, by simp [h1, hp]; rfl, by simp [h1, hp]⟩
      | some e =>
        by_cases hm : mandatory e.flags = true
        · left; exact ⟨_, by simp [h1, hp, hm]; rfl, by simp [h1, hp, hm]⟩
        · simp only [h1, hp, hm]
          rcases hr with hr | ⟨hr1, hr2⟩
          · left; simpa using hr
          · right; exact ⟨hr1, fun _ => ⟨e, rfl, by simpa using hm⟩, by simpa [hp] using hr2⟩
    · simp only [h1, hp]
      rcases hr with hr | ⟨hr1, hr2⟩
      · left; simpa using hr
      · right; exact ⟨hr1, by simp, by simpa [hp] using hr2⟩
  · left; exact ⟨_, by simp [h1]; rfl, by simp [h1]⟩

end Sofar

namespace Sofar

theorem size_atleast2 (s : List Nat) :
    (Arr.atleast2 s).foldr (· * ·) 1 = s.foldr (· * ·) 1 := by
  match s with
  | [] => rfl
  | [n] => simp [Arr.atleast2]
  | _ :: _ :: _ => rfl

theorem normalise_ok {v : Inp} (h : v ≠ .ragged) : ∃ w, normalise v = .ok w := by
  cases v with
  | val v => exact ⟨v, rfl⟩
  | pybool b => exact ⟨_, rfl⟩
  | list a =>
    unfold normalise
    simp only
    split
    · split <;> exact ⟨_, rfl⟩
    · exact ⟨_, rfl⟩
  | ragged => exact absurd rfl h

end Sofar
