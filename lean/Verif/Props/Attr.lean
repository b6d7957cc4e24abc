import Verif.Spec.Verify
import Verif.Model.Object
import Verif.Lemmas.Attr
import Verif.Spec.Basic
/-!
# C02 – C06: assignment and deletion
-/
namespace Sofar

/-- small object used for non-vacuity examples: two entries, one of them read only and mandatory -/
def exObj : Obj where
  attrs := [(py% "GLOBAL_Conventions", .str (py% "SOFA")), (py% "Note", .str (py% "hi"))]
  conv := [(py% "GLOBAL_Conventions", ⟨some (py% "rm"), none, py% "attribute", .val (.str (py% "SOFA")), []⟩),
           (py% "Note", ⟨none, none, py% "attribute", .val (.str []), []⟩)]
  custom := none
  dims := none
  api := none
  readOnly := .names [py% "GLOBAL_Conventions", py% "X"]
  prot := true

/-! ## C02 -/

/-- C02 (without the names of methods of the class `Sofa`): assigning to a new name raises TypeError. -/
theorem C02_assign_new_name_raises_partial (o : Obj) (n : Str) (v : Inp) (hp : o.prot = true)
    (hn : Dict.get? o.attrs n = none) (hm : n ∉ Spec.methodNames) (hpm : n ∉ privateMembers)
    (hpi : n ∉ o.privateInst) :
    (∃ msg, (setAttr o n v).out = .error (.typeError msg)) ∧ (setAttr o n v).obj = o
      ∧ (setAttr o n v).ev = [] := by
  have h : o.hasAttr n = false := by simp [Obj.hasAttr, Dict.has, hn, show n ∉ publicMembers from hm, hpm, hpi]
  simp [setAttr, hp, h]

example : exObj.prot = true ∧ Dict.get? exObj.attrs (py% "Foo") = none ∧ py% "Foo" ∉ Spec.methodNames
    ∧ py% "Foo" ∉ privateMembers ∧ py% "Foo" ∉ exObj.privateInst := by decide

/-- C02, names of data: assignment to a protected object adds no data name except the name of a method. -/
theorem C02_no_new_names_partial (o : Obj) (n : Str) (v : Inp) (hp : o.prot = true) (hm : n ∉ Spec.methodNames) :
    Dict.keys (setAttr o n v).obj.attrs = Dict.keys o.attrs := by
  rcases setAttr_cases o n v with ⟨_, _, h2, _⟩ | ⟨b, _, _, _, h2⟩ | ⟨w, _, h1, h5, _, h2, hh⟩
  · rw [h2]
  · rw [h2]
  · rw [h2]
    have := (hasAttr_public o n h5).1 (hh hp)
    exact Dict.keys_put_of_has w (this.resolve_right hm)

example : exObj.prot = true ∧ py% "Note" ∉ Spec.methodNames := by decide

/-- C02 is false in general: `sofa.verify = 'x'` is accepted by a protected object and adds data. -/
theorem C02_refuted : ∃ (o : Obj) (n : Str) (v : Inp), o.prot = true ∧ Dict.get? o.attrs n = none ∧
    (setAttr o n v).out = .ok () ∧ Dict.keys (setAttr o n v).obj.attrs ≠ Dict.keys o.attrs :=
  ⟨exObj, py% "verify", .val (.str (py% "x")), by decide⟩

/-! ## C03 -/

/-- C03: mandatory data can not be deleted. -/
theorem C03_mandatory_not_deletable (o : Obj) (n : Str) (e : Entry) (f : Str) (hp : o.prot = true)
    (hc : Dict.get? o.conv n = some e) (hf : e.flags = some f) (hm : 'm' ∈ f) :
    (∃ msg, (delAttr o n).out = .error (.typeError msg)) ∧ (delAttr o n).obj = o := by
  unfold delAttr
  by_cases h : o.hasAttr n = true <;> simp [h, hp, hc, mandatory, hf, hm]

example : exObj.prot = true ∧ Dict.get? exObj.conv (py% "GLOBAL_Conventions")
    = some ⟨some (py% "rm"), none, py% "attribute", .val (.str (py% "SOFA")), []⟩ ∧ 'm' ∈ py% "rm" := by decide

/-- C03: deleting optional data removes exactly this entry. -/
theorem C03_optional_deletable (o : Obj) (n : Str) (e : Entry) (v : Val)
    (hv : Dict.get? o.attrs n = some v) (hc : Dict.get? o.conv n = some e)
    (hm : ∀ f, e.flags = some f → 'm' ∉ f) :
    (delAttr o n).out = .ok () ∧ Dict.get? (delAttr o n).obj.attrs n = none ∧
      (∀ k, k ≠ n → Dict.get? (delAttr o n).obj.attrs k = Dict.get? o.attrs k) ∧
      (delAttr o n).obj.conv = o.conv ∧ (delAttr o n).obj.prot = o.prot := by
  have hh : Dict.has o.attrs n = true := by simp [Dict.has, hv]
  have ha : o.hasAttr n = true := by simp [Obj.hasAttr, hh]
  have hmf : mandatory e.flags = false := by
    unfold mandatory
    cases hf : e.flags with
    | none => rfl
    | some f => simpa using hm f hf
  have : delAttr o n = removeAttr o n := by
    unfold delAttr
    cases hp : o.prot <;> simp [ha, hc, hmf]
  rw [this]
  simp only [removeAttr, hh, if_true]
  refine ⟨trivial, by simp, ?_, trivial, trivial⟩
  intro k hk
  exact Dict.get?_del_ne _ hk

example : Dict.get? exObj.attrs (py% "Note") = some (.str (py% "hi")) ∧ Dict.get? exObj.conv (py% "Note")
    = some ⟨none, none, py% "attribute", .val (.str []), []⟩ := by decide

/-- C03: deleting something that is neither data nor a member of the class raises TypeError. -/
theorem C03_missing_raises (o : Obj) (n : Str) (hn : Dict.get? o.attrs n = none) (hm : n ∉ Spec.methodNames)
    (hpm : n ∉ privateMembers) (hpi : n ∉ o.privateInst) :
    (∃ msg, (delAttr o n).out = .error (.typeError msg)) ∧ (delAttr o n).obj = o := by
  have h : o.hasAttr n = false := by simp [Obj.hasAttr, Dict.has, hn, show n ∉ publicMembers from hm, hpm, hpi]
  simp [delAttr, h]

example : (∃ msg, (delAttr exObj (py% "Foo")).out = .error (.typeError msg)) ∧ (delAttr exObj (py% "Foo")).obj = exObj :=
  C03_missing_raises exObj (py% "Foo") (by decide) (by decide) (by decide) (by decide)

/-! ## C04 -/

/-- C04 for assignments: a rejected assignment changes nothing. -/
theorem C04_rejected_assignment (o : Obj) (n : Str) (v : Inp) (e : Exc)
    (h : (setAttr o n v).out = .error e) : (setAttr o n v).obj = o := by
  rcases setAttr_cases o n v with ⟨_, _, h2, _⟩ | ⟨b, _, _, _, h2⟩ | ⟨w, _, _, _, _, h2, _⟩
  · exact h2
  · simp [h2] at h
  · simp [h2] at h

example : (setAttr exObj (py% "GLOBAL_Conventions") (.val (.str []))).out
    = .error (.typeError (py% "GLOBAL_Conventions is a read only attribute.")) := by decide

/-- C04 for deletions: a rejected deletion changes nothing. -/
theorem C04_rejected_deletion (o : Obj) (n : Str) (e : Exc) (h : (delAttr o n).out = .error e) :
    (delAttr o n).obj = o := by
  rcases delAttr_cases o n with ⟨_, _, h2⟩ | ⟨_, _, h2⟩
  · exact h2
  · simp [h2] at h

example : (delAttr exObj (py% "Foo")).out = .error (.typeError (py% "Foo is not an attribute")) := by decide

/-- C04 for adding data: a rejected call changes nothing if numpy can convert the value. Missing for the full
claim: values numpy refuses to convert (see `C04_refuted`). -/
theorem C04_rejected_add_partial (o : Obj) (n : Str) (v : Inp) (dtype : Str) (dims : Option Str) (e : Exc)
    (hv : v ≠ .ragged) (hpriv : isPrivate n = false)
    (h : (addVariable o n v dtype dims).out = .error e) : (addVariable o n v dtype dims).obj = o := by
  unfold addVariable addEntry at *
  cases hc : checkEntry o n dtype dims with
  | some e => rfl
  | none =>
    exfalso
    have ha : o.hasAttr n = false := by
      unfold checkEntry at hc
      by_cases h1 : o.hasAttr n = true
      · simp [h1] at hc
      · simpa using h1
    have hp : n ≠ py% "protected" := by
      rintro rfl
      simp [Obj.hasAttr, publicMembers] at ha
    have hl : n ≠ py% "list_dimensions" := by
      rintro rfl
      simp [Obj.hasAttr, publicMembers] at ha
    simp only [hc, addCustomApiEntry] at h
    generalize ho : registerCustom _ _ _ = o1 at h
    have hprot : o1.prot = false := by
      rw [← ho]; unfold registerCustom; split <;> rfl
    have hn : ∃ w, normalise v = .ok w := by
      cases v <;> simp_all [normalise]
      split
      · split <;> simp
      · simp
    obtain ⟨w, hw⟩ := hn
    simp [setAttr, hprot, hp, hl, hpriv, hw] at h

example : (addVariable exObj (py% "a_b") (.val (.str [])) (py% "double") none).out
    = .error (.valueError (py% "underscores '_' in the name are only allowed for attributes")) := by decide

/-- C04 is false in general: `add_variable('Foo', [[1, 2], [3]], 'double', 'MR')` raises, but the object is no
longer protected and lists a custom entry `Foo`. -/
theorem C04_refuted : ∃ (o : Obj) (n : Str) (v : Inp) (dtype : Str) (dims : Option Str) (e : Exc),
    (addVariable o n v dtype dims).out = .error e ∧ o.prot = true ∧
    (addVariable o n v dtype dims).obj.prot = false ∧
    (∃ c, (addVariable o n v dtype dims).obj.custom = some c ∧ Dict.has c n = true) :=
  ⟨exObj, py% "Foo", .ragged, py% "double", some (py% "MR"),
    .valueError (py% "setting an array element with a sequence."), by decide, by decide, by decide,
    _, rfl, by decide⟩

/-! ## C05 -/

/-- C05, strings and arrays: the stored value is the assigned value. -/
theorem C05_strings_and_arrays (o : Obj) (n : Str) (v : Val) (h : (setAttr o n (.val v)).out = .ok ())
    : Dict.get? (setAttr o n (.val v)).obj.attrs n = some v := by
  rcases setAttr_cases o n (.val v) with ⟨e, h1, _⟩ | ⟨b, h1, _⟩ | ⟨w, hw, _, _, _, h2, _⟩
  · simp [h] at h1
  · simp at h1
  · simp only [normalise, Except.ok.injEq] at hw
    subst hw
    simp [h2]

example : (setAttr exObj (py% "Note") (.val (.arr ⟨.f, [2], [.num (.fin 1), .num .nan]⟩))).out = .ok () := by decide

/-- C05, lists: a list with a single element becomes a scalar, all other lists become an array of at least
two dimensions and the same shape up to singleton dimensions; elements and their order are kept. -/
theorem C05_lists (o : Obj) (n : Str) (a : Arr) (hwf : a.WF) (h : (setAttr o n (.list a)).out = .ok ()) :
    ∃ v, Dict.get? (setAttr o n (.list a)).obj.attrs n = some v ∧ Spec.elems v = a.data ∧
      (a.data.length = 1 → Spec.IsScalar v) ∧
      (a.data.length ≠ 1 → ∃ b, v = .arr b ∧ b.kind = a.kind ∧ 2 ≤ b.shape.length ∧
        Spec.SameUpToOnes b.shape a.shape ∧ (2 ≤ a.shape.length → b.shape = a.shape)) := by
  rcases setAttr_cases o n (.list a) with ⟨e, h1, _⟩ | ⟨b, h1, _⟩ | ⟨w, hw, _, _, _, h2, _⟩
  · simp [h] at h1
  · simp at h1
  · refine ⟨w, by simp [h2], ?_⟩
    have hs : (a.withShape (Arr.atleast2 a.shape)).size = a.data.length := by
      rw [hwf]; exact size_atleast2 a.shape
    unfold normalise at hw
    simp only [hs] at hw
    by_cases h1 : a.data.length = 1
    · obtain ⟨k, s, d⟩ := a
      match d, h1 with
      | [e], _ =>
        simp only [List.length_singleton, if_true, Arr.withShape, Except.ok.injEq] at hw
        subst hw
        refine ⟨?_, ?_, by simp⟩
        · cases k <;> cases e <;> rfl
        · intro _; cases k <;> cases e <;> trivial
    · simp only [h1, if_false, Except.ok.injEq] at hw
      subst hw
      refine ⟨rfl, fun h => absurd h h1, fun _ => ⟨_, rfl, rfl, ?_, ?_, ?_⟩⟩
      · simp only [Arr.withShape]
        match a.shape with
        | [] => simp [Arr.atleast2]
        | [_] => simp [Arr.atleast2]
        | _ :: _ :: _ => simp [Arr.atleast2]
      · simp only [Arr.withShape, Spec.SameUpToOnes]
        match a.shape with
        | [] => rfl
        | [_] => rfl
        | _ :: _ :: _ => rfl
      · simp only [Arr.withShape]
        match a.shape with
        | [] => simp
        | [_] => simp
        | _ :: _ :: _ => simp [Arr.atleast2]

example : (setAttr exObj (py% "Note") (.list ⟨.i, [2], [.num (.fin 1), .num (.fin 2)]⟩)).out = .ok () ∧
    (⟨.i, [2], [.num (.fin 1), .num (.fin 2)]⟩ : Arr).WF := by decide

/-! ## C06 -/

/-- C06: assignment changes nothing but the named entry. -/
theorem C06_assignment_frame (o : Obj) (n : Str) (v : Inp) (hn : n ≠ py% "protected") :
    (∀ k, k ≠ n → Dict.get? (setAttr o n v).obj.attrs k = Dict.get? o.attrs k) ∧
    ((setAttr o n v).obj.keys.filter (· ≠ n) = o.keys.filter (· ≠ n)) ∧
    (setAttr o n v).obj.prot = o.prot ∧ (setAttr o n v).obj.conv = o.conv ∧
    (setAttr o n v).obj.custom = o.custom := by
  rcases setAttr_cases o n v with ⟨_, _, h2, _⟩ | ⟨b, _, h, _⟩ | ⟨w, _, _, _, _, h2, _⟩
  · rw [h2]; simp
  · exact absurd h hn
  · rw [h2]
    refine ⟨fun k hk => Dict.get?_put_ne _ _ hk, ?_, rfl, rfl, rfl⟩
    simp only [Obj.keys, Dict.keys_put]
    split <;> simp

example : Dict.get? (setAttr exObj (py% "Note") (.val (.str (py% "new")))).obj.attrs (py% "GLOBAL_Conventions") =
    some (.str (py% "SOFA")) ∧ (setAttr exObj (py% "Note") (.val (.str (py% "new")))).out = .ok () :=
  ⟨(C06_assignment_frame exObj (py% "Note") (.val (.str (py% "new"))) (by decide)).1 _ (by decide), by decide⟩

/-- C06: assigning to `protected` changes no data. -/
theorem C06_protected_frame (o : Obj) (v : Inp) : (setAttr o (py% "protected") v).obj.attrs = o.attrs := by
  rcases setAttr_cases o (py% "protected") v with ⟨_, _, h2, _⟩ | ⟨b, _, _, _, h2⟩ | ⟨w, _, h, _⟩
  · rw [h2]
  · rw [h2]
  · exact absurd rfl h

example : (setAttr exObj (py% "protected") (.pybool false)).out = .ok () ∧
    (setAttr exObj (py% "protected") (.pybool false)).obj.attrs = exObj.attrs ∧
    (setAttr exObj (py% "protected") (.pybool false)).obj.prot = false :=
  ⟨by decide, C06_protected_frame exObj (.pybool false), by decide⟩

/-- C06: deletion changes nothing but the named entry. -/
theorem C06_deletion_frame (o : Obj) (n : Str) :
    (∀ k, k ≠ n → Dict.get? (delAttr o n).obj.attrs k = Dict.get? o.attrs k) ∧
    ((delAttr o n).obj.keys.filter (· ≠ n) = o.keys.filter (· ≠ n)) ∧
    (delAttr o n).obj.prot = o.prot ∧ (delAttr o n).obj.conv = o.conv := by
  rcases delAttr_cases o n with ⟨_, _, h2⟩ | ⟨_, _, h2⟩
  · rw [h2]; simp
  · rw [h2]
    refine ⟨fun k hk => Dict.get?_del_ne _ hk, ?_, rfl, rfl⟩
    simp [Obj.keys, Dict.keys_del]

example : (setAttr exObj (py% "Note") (.val (.str []))).out = .ok () ∧ (delAttr exObj (py% "Note")).out = .ok ()
    ∧ Dict.get? exObj.attrs (py% "GLOBAL_Conventions") = some (.str (py% "SOFA")) := by decide

end Sofar
