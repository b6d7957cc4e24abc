import Verif.Spec.Verify
import Verif.Lemmas.Dims
import Verif.Props.Verify
/-!
# C31: get_dimension
-/
namespace Sofar

/-- C31: the size returned by `get_dimension`, in terms of the object after the call. `D` are the dimensions detected
for the variables (`list_dimensions` shows them); each of them is one of the alternatives of the convention. -/
theorem C31_get_dimension (env : Env) (o : Obj) (d : Str) (n : Nat) (h : (getDimension env o d).out = .ok n) :
    let o' := (getDimension env o d).obj
    (d = py% "C" → n = 3) ∧ (d = py% "I" → n = 1) ∧
    (d = py% "S" →
      (∀ k v e dims a, Dict.get? o'.attrs k = some v → Dict.get? o'.conv k = some e → e.dims = some dims →
        Spec.IsFirstAlternative dims a → 'S' ∈ a → Spec.longest (Spec.elems v) ≤ n) ∧
      (n = 0 ∨ ∃ k v e dims a, Dict.get? o'.attrs k = some v ∧ Dict.get? o'.conv k = some e ∧ e.dims = some dims ∧
        Spec.IsFirstAlternative dims a ∧ 'S' ∈ a ∧ Spec.longest (Spec.elems v) = n)) ∧
    ∃ D, o'.dims = some D ∧
      ∀ k v e dims, Dict.get? o'.attrs k = some v → Dict.get? o'.conv k = some e → e.dims = some dims →
        ∃ alt, Dict.get? D k = some (Str.upper alt) ∧ Spec.IsAlternative dims alt ∧
          ∀ first i c, Spec.IsFirstAlternative dims first → ',' ∉ first → (Str.upper alt)[i]? = some c → c ≠ 'S' →
            d = [c] →
            Spec.axisSize (decide (e.typ = py% "attribute" ∨ e.typ = py% "string")) first.length v.shape i = n := by
  obtain ⟨o1, o2, api, dims, hd, hn⟩ := getDimension_ok h
  simp only
  refine ⟨?_, ?_, ?_, ?_⟩
  · rintro rfl; rw [hd.apiOk.C] at hn; cases hn; rfl
  · rintro rfl; rw [hd.apiOk.I] at hn; cases hn; rfl
  · rintro rfl
    obtain ⟨m, hm, h1, h2⟩ := hd.apiOk.S
    rw [hm] at hn
    cases hn
    rw [hd.obj]
    refine ⟨?_, ?_⟩
    · intro k v e dims a hv he hdm ha hS
      rw [← longest_eq]
      exact h1 v a ⟨k, dimKeys_mem hv he hdm, e, dims, getAttr_of_get hv, he, hdm, (firstAlt_of_isFirst ha).symm⟩ hS
    · rcases h2 with h2 | ⟨v, s, ⟨k, hk, e, dims, hv, he, hdm, rfl⟩, hS, hl⟩
      · exact Or.inl h2
      · rcases getAttr_ok hv with hv | ⟨_, rfl, _⟩
        · right
          exact ⟨k, v, e, dims, _, hv, he, hdm, isFirst_firstAlt dims, hS, by rw [← longest_eq]; exact hl⟩
        · left
          rw [← hl]; rfl
  · refine ⟨dims, by rw [hd.obj], ?_⟩
    intro k v e dm hv he hdm
    rw [hd.obj] at hv he
    obtain ⟨m, hm, hs⟩ := hd.shapes k (dimKeys_mem hv he hdm)
    obtain ⟨alt, act, h1, h2, h3, h4, _⟩ := hs.use hv he hdm
    refine ⟨alt, by rw [hm, h2], isAlternative_of_mem h1, ?_⟩
    intro first i c hf hc hi hcS hdc
    have hfa := firstAlt_of_isFirst hf
    subst hfa
    rw [← actualShape_axis h3 hc]
    simp only [Str.upper, List.getElem?_map, Option.map_eq_some_iff] at hi
    obtain ⟨c0, hc0, rfl⟩ := hi
    have hlt : i < alt.length := (List.getElem?_eq_some_iff.1 hc0).1
    have h5 := getElem?_compareShape (act := act) hlt
    rw [h4, List.getElem?_map, hc0] at h5
    have hne : c0 ≠ 'S' := by rintro rfl; exact hcS (by decide)
    simp only [Option.map_some, hne, if_false, Option.some.injEq] at h5
    rw [← h5, sizeIn, ← hdc, hn]
    rfl

example : (getDimension exEnv exSofa (py% "N")).out = .ok 3 ∧ (getDimension exEnv exSofa (py% "R")).out = .ok 2 ∧
    (getDimension exEnv exSofa (py% "M")).out = .ok 1 ∧ (getDimension exEnv exSofa (py% "S")).out = .ok 5 ∧
    (getDimension exEnv exSofa (py% "C")).out = .ok 3 ∧
    Dict.get? (getDimension exEnv exSofa (py% "N")).obj.attrs (py% "Data_IR") =
      some (.arr (exNums .i [1, 2, 3] [1, 2, 3, 4, 5, 6])) := by decide +kernel

/-- C31: a dimension that no variable has raises ValueError (the object verifies and no custom data has the name of a
method). -/
theorem C31_unknown_dimension (env : Env) (o : Obj) (d : Str) (h : (verify env o .ret .write).out = .ok none)
    (hcust : ∀ c, (verify env o .ret .write).obj.custom = some c → ∀ k ∈ c.map Prod.fst, k ∉ Spec.methodNames)
    (hC : d ≠ py% "C") (hI : d ≠ py% "I") (hS : d ≠ py% "S")
    (hd : ∀ k v e dims a c, Dict.get? (verify env o .ret .write).obj.attrs k = some v →
      Dict.get? (verify env o .ret .write).obj.conv k = some e → e.dims = some dims →
      Spec.IsFirstAlternative dims a → c ∈ a → d ≠ [Str.upperC c]) :
    ∃ msg, (getDimension env o d).out = .error (.valueError msg) := by
  have hu : updateDimensions env o = ⟨.ok (), (verify env o .ret .write).obj, (verify env o .ret .write).ev⟩ := by
    unfold updateDimensions
    simp only [h]
  have hu' : (updateDimensions env o).out = .ok () := by rw [hu]
  obtain ⟨ho, o1, o2, api, dims, hD⟩ := updateDimensions_ok hu'
  rw [ho] at hD
  unfold getDimension
  simp only [hu]
  have ha : (verify env o .ret .write).obj.api = some api := by rw [hD.obj]
  simp only [ha]
  cases hg : Dict.get? api d with
  | none => exact ⟨_, rfl⟩
  | some n =>
    exfalso
    obtain ⟨v, s, i, c, ⟨k, hk, e, dm, hv, he, hdm, rfl⟩, hc, _, hdc, _⟩ := hD.apiOk.others d n hC hI hS hg
    rw [hD.obj] at hd hcust
    rcases getAttr_ok hv with hv | ⟨hv, _, hh⟩
    · exact hd k v e dm _ c hv he hdm (isFirst_firstAlt dm) (List.mem_of_getElem? hc) hdc
    · unfold dimKeys at hk
      rcases List.mem_append.1 hk with hk | hk
      · obtain ⟨w, hw⟩ := get_of_mem_keys (List.mem_filter.1 hk).1
        rw [hv] at hw
        cases hw
      · cases hcs : o2.custom with
        | none => simp [hcs] at hk
        | some cs =>
          simp only [hcs] at hk
          obtain ⟨p, hp, rfl⟩ := List.mem_map.1 hk
          rw [List.mem_filter] at hp
          have hpriv : isPrivate p.1 = false := by
            have := hp.2
            simp only [Bool.and_eq_true, Bool.not_eq_true'] at this
            exact this.1
          rcases (hasAttr_public o2 p.1 hpriv).1 hh with h1 | h1
          · rw [Dict.has_iff] at h1
            obtain ⟨w, hw⟩ := h1
            rw [hv] at hw
            cases hw
          · exact hcust cs hcs p.1 (List.mem_map_of_mem hp.1) h1

example : (verify exEnv exSofa .ret .write).out = .ok none ∧ (verify exEnv exSofa .ret .write).obj.custom = none ∧
    (match (getDimension exEnv exSofa (py% "Q")).out with | .error (.valueError _) => true | _ => false) = true := by
  decide +kernel

end Sofar
