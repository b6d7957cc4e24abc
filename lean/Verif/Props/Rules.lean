import Verif.Lemmas.Congr
import Verif.Lemmas.Names
import Verif.Props.Verify
/-!
# C10 (verify), C24 – C30: names, rules, units, modes, repeated verification
-/
namespace Sofar

/-! ## C10 -/

/-- C10, `verify`: after a successful verification the object is protected, whatever it was before. -/
theorem C10_verify_protects (env : Env) (o : Obj) (mode : Mode) (r : Option Str)
    (h : (verify env o .raise mode).out = .ok r) : (verify env o .raise mode).obj.prot = true := by
  obtain ⟨o1, api, dims, hV⟩ := verify_ok h
  rw [hV.obj]

example : (verify exEnv { exSofa with prot := false } .raise .write).out = .ok none := by decide +kernel

/-- C10, `verify` that returns no issues. -/
theorem C10_verify_return_protects (env : Env) (o : Obj) (mode : Mode)
    (h : (verify env o .ret mode).out = .ok none) : (verify env o .ret mode).obj.prot = true := by
  revert h
  unfold verify verifyG
  cases resetConvention env o with
  | error x => simp
  | ok o1 =>
    simp only
    generalize fillMissing _ o1.keys o1.conv o1 = f
    obtain ⟨f1, o2⟩ := f
    cases f1 with
    | error x => simp
    | ok missing =>
      simp only
      cases phaseTypes env o2 o1.keys with
      | error x => simp
      | ok e2 =>
        simp only [reduceCtorEq, if_false, List.nil_append]
        by_cases he : e2 = []
        · subst he
          simp only [List.isEmpty_nil, Bool.not_true, Bool.false_and, Bool.false_eq_true, if_false]
          unfold verifyBody
          cases phaseNames o2 o1.keys with
          | error x => simp
          | ok e3 =>
            simp only
            cases (phaseCustomNames (referenceNames env o2) o2).1 with
            | error x => simp
            | ok e3' =>
              obtain ⟨a, ha⟩ := phaseDims_obj o2
              obtain ⟨d, hd⟩ := phaseShapes_obj (phaseDims o2).2
              simp only
              cases (phaseDims o2).1 with
              | error x => simp
              | ok u =>
                simp only
                cases (phaseShapes (phaseDims o2).2).1 with
                | error x => simp
                | ok e5 => simp only [verifyTail_obj]; rw [hd, ha]; simp
        · have h1 : e2.isEmpty = false := by simpa [List.isEmpty_iff] using he
          rw [if_pos (by simp [h1])]
          unfold verifyEarly
          simp [handle_err _ _ .ret he (by decide)]

example : (verify exEnv { exMissing with prot := false } .ret .write).out = .ok none := by decide +kernel

/-- C10 is false if data of wrong type is returned or printed: the object stays unprotected. -/
theorem C10_refuted : ∃ (env : Env) (o : Obj) (t : Str), o.prot = false ∧
    (verify env o .print .write).out = .ok none ∧ (verify env o .print .write).obj.prot = false ∧
    (verify env o .ret .write).out = .ok (some t) ∧ (verify env o .ret .write).obj.prot = false :=
  ⟨exEnv, { exWrongType with prot := false },
    py% "\nERRORS\n------\nDetected data of wrong type:\n- Names must be string or numpy array but is \n",
    by decide +kernel, by decide +kernel, by decide +kernel, by decide +kernel, by decide +kernel⟩

/-! ## C24 -/

/-- C24: attributes belong to a variable of the convention or are GLOBAL, every underscore in the name of a variable
is preceded by `Data`, reserved words are not used. Missing for the full claim: `Data_` need not be a prefix
(`C24_refuted`). -/
theorem C24_names_partial (env : Env) (o : Obj) (mode : Mode) (r : Option Str)
    (h : (verify env o .raise mode).out = .ok r) (k : Str) (v : Val) (hv : Dict.get? o.attrs k = some v) :
    ∃ e, Dict.get? (verify env o .raise mode).obj.conv k = some e ∧
      (e.typ = py% "attribute" → ∃ var att, k = var ++ '_' :: att ∧ '_' ∉ att ∧
        ((py% "GLOBAL_") <+: k ∨ ∃ e', Dict.get? (verify env o .raise mode).obj.conv var = some e')) ∧
      (e.typ ≠ py% "attribute" → ∀ p s, k = p ++ '_' :: s → (py% "Data") <:+ p) ∧
      ¬ (py% "PRIVATE") <+: k ∧ ¬ (py% "API") <+: k ∧
      ((py% "GLOBAL") <+: k → (py% "GLOBAL_") <+: k ∧ e.typ = py% "attribute") := by
  obtain ⟨o1, api, dims, hV⟩ := verify_ok h
  obtain ⟨e, he, ht⟩ := hV.types hv
  obtain ⟨h1, h2, h3, h4⟩ := hV.attrs
  have hall : ∀ j ∈ o1.keys, ∃ e, Dict.get? o1.conv j = some e := by
    intro j hj
    obtain ⟨w, hw⟩ := get_of_mem_keys hj
    rw [h2] at hw
    obtain ⟨e', he', _⟩ := hV.types hw
    exact ⟨e', h3 ▸ he'⟩
  have hk : k ∈ o1.keys := mem_keys_of_get (h2 ▸ hv)
  have hn := (phaseNames_nil o1 o1.keys hall).1 hV.passes.names k hk e (h3 ▸ he)
  refine ⟨e, he, ?_, ?_, ?_, ?_, ?_⟩
  · intro hty
    obtain ⟨var, hb, hor⟩ := hn.attr hty
    obtain ⟨att, hka, hatt⟩ := beforeLast_some hb
    refine ⟨var, att, hka, hatt, ?_⟩
    rcases hor with hor | hor
    · exact Or.inl (by simpa [Str.startsWith] using hor)
    · right
      rw [h3]
      exact (Dict.has_iff _ _).1 hor
  · intro hty p s hps
    exact replace_data (hn.var hty) p s hps
  · intro hp
    have := hn.notPrivate
    rw [Str.startsWith, List.isPrefixOf_iff_prefix.2 hp] at this
    cases this
  · intro hp
    have := hn.notApi
    rw [Str.startsWith, List.isPrefixOf_iff_prefix.2 hp] at this
    cases this
  · intro hp
    have := hn.glob (by simpa [Str.startsWith] using hp)
    simpa [Str.startsWith] using this

example : (verify exEnv exSofa .raise .write).out = .ok none ∧
    Dict.get? exSofa.attrs (py% "SourcePosition_Units") = some (.str (py% "degree, degree, metre")) ∧
    (Dict.get? exSofa.attrs (py% "Data_IR")).isSome = true := by decide +kernel

/-- C24, custom data: no custom entry has the name of an entry of a new object of the same convention and
version, also if `GLOBAL_` is added to or removed from the name. -/
theorem C24_custom_names (env : Env) (o : Obj) (mode : Mode) (r : Option Str)
    (h : (verify env o .raise mode).out = .ok r) (c : Dict Entry)
    (hc : (verify env o .raise mode).obj.custom = some c) :
    ∃ name version arg ref, (initSofa env name false arg .auto).out = .ok ref ∧
      (∃ cv, Dict.get? o.attrs (py% "GLOBAL_SOFAConventions") = some cv ∧ Spec.text cv = some name) ∧
      (∃ vv, Dict.get? o.attrs (py% "GLOBAL_SOFAConventionsVersion") = some vv ∧ Spec.text vv = some version) ∧
      (version ≠ py% "latest" → arg = .exact version) ∧
      ∀ k ∈ c.map Prod.fst, ∀ n ∈ ref.conv.map Prod.fst,
        k ≠ n ∧ k ≠ py% "GLOBAL_" ++ n ∧ n ≠ py% "GLOBAL_" ++ k := by
  obtain ⟨o1, api, dims, hV⟩ := verify_ok h
  obtain ⟨h1, h2, h3, h4⟩ := hV.attrs
  obtain ⟨names, hn, hk⟩ := (phaseCustomNames_nil _ _).1 hV.passes.custom c (h4 ▸ hc)
  unfold referenceNames at hn
  have hget : ∀ n w, isPrivate n = false → n ∉ publicMembers → o1.getAttr n = .ok w → Dict.get? o.attrs n = some w := by
    intro n w hp hm hg
    unfold Obj.getAttr at hg
    rw [h2] at hg
    cases hd : Dict.get? o.attrs n with
    | some x => simp only [hd, Except.ok.injEq] at hg; rw [hg]
    | none =>
      simp only [hd] at hg
      have : o1.hasAttr n = false := by
        rw [← Bool.not_eq_true, hasAttr_public o1 n hp, h2]
        rintro (hh | hh)
        · simp [Dict.has, hd] at hh
        · exact hm hh
      simp [this] at hg
  cases hcv : o1.getAttr (py% "GLOBAL_SOFAConventions") with
  | error x => simp [hcv] at hn
  | ok cv =>
    simp only [hcv] at hn
    cases hvv : o1.getAttr (py% "GLOBAL_SOFAConventionsVersion") with
    | error x => simp [hvv] at hn
    | ok vv =>
      simp only [hvv] at hn
      cases hct : cv.asStr with
      | none => simp [hct] at hn
      | some name =>
        cases hvt : vv.asStr with
        | none => simp [hct, hvt] at hn
        | some version =>
          simp only [hct, hvt] at hn
          cases hi : (initSofa env name false (if version = py% "latest" then .latest else .exact version) .auto).out with
          | error x => simp [hi] at hn
          | ok ref =>
            simp only [hi, Except.ok.injEq] at hn
            subst hn
            rw [asStr_text] at hct hvt
            refine ⟨name, version, _, ref, hi, ⟨cv, hget _ _ (by decide) (by decide) hcv, hct⟩,
              ⟨vv, hget _ _ (by decide) (by decide) hvv, hvt⟩, fun hv => if_neg hv, ?_⟩
            intro k hkc n hnr
            have hne := hk k hkc n hnr
            refine ⟨?_, ?_, ?_⟩
            · rintro rfl; exact hne rfl
            · rintro rfl; exact hne (replace_global n).symm
            · rintro rfl; exact hne (replace_global k)

/-- an object with custom data -/
def exCustom : Obj := (addVariable exSofa (py% "Temperature") (.list (exNums .f [] [20])) (py% "double") (some (py% "I"))).obj

example : (verify exEnv exCustom .raise .write).out = .ok none ∧
    ((verify exEnv exCustom .raise .write).obj.custom.map Dict.keys) = some [py% "Temperature"] := by decide +kernel

/-- an object with a custom variable as created by `read_sofa` for a variable `FooData.Bar` in the file -/
def exFooData : Obj := (addCustomApiEntry exSofa (py% "FooData_Bar") (.list (exNums .f [] [20])) none (some (py% "I"))
  (py% "double")).obj

/-- C24 is false: underscores are also accepted inside the name of a variable. -/
theorem C24_refuted : ∃ (env : Env) (o : Obj) (k : Str) (v : Val), (verify env o .raise .write).out = .ok none ∧
    Dict.get? o.attrs k = some v ∧ ¬ (py% "Data_") <+: k ∧ '_' ∈ k ∧
    (Dict.get? (verify env o .raise .write).obj.conv k).map (·.typ) = some (py% "double") :=
  ⟨exEnv, exFooData, py% "FooData_Bar", .num .f (.num (.fin 20)), by decide +kernel, by decide +kernel, by decide +kernel,
    by decide +kernel, by decide +kernel⟩

/-! ## C25 -/

/-- C25: a successful verification implies all rules, in both modes. The rules are checked for the object after the
call, which has the same data (C21) and the sizes of the dimensions. -/
theorem C25_rules_hold (env : Env) (ho : ∀ p ∈ env.rules, Spec.OrdinaryRule p.1 p.2) (o : Obj) (mode : Mode)
    (r : Option Str) (h : (verify env o .raise mode).out = .ok r) (key : Str) (rule : Rule)
    (hr : (key, rule) ∈ env.rules) : Spec.RuleHolds env.aliases (verify env o .raise mode).obj key rule := by
  obtain ⟨o1, api, dims, hV⟩ := verify_ok h
  exact (((phaseRules_nil ho).1 hV.passes.rules).1 _ hr).1

/-- C25: in mode `write` the units are in lower case. -/
theorem C25_lower_case_units (env : Env) (ho : ∀ p ∈ env.rules, Spec.OrdinaryRule p.1 p.2) (o : Obj)
    (r : Option Str) (h : (verify env o .raise .write).out = .ok r) (k : Str) (v : Val)
    (hv : Dict.get? o.attrs k = some v) (hk : (py% "Units") <:+ k) :
    ∃ u, Spec.text v = some u ∧ Str.lower u = u := by
  obtain ⟨o1, api, dims, hV⟩ := verify_ok h
  exact ((phaseRules_nil ho).1 hV.passes.rules).2 rfl k v (hV.attrs.1 ▸ hv) hk

/-- the rules of the example refer to ordinary names -/
theorem exEnv_ordinary : ∀ p ∈ exEnv.rules, Spec.OrdinaryRule p.1 p.2 := by
  intro p hp
  simp only [exEnv, List.mem_cons, List.not_mem_nil, or_false] at hp
  rcases hp with rfl | rfl
  · refine ⟨⟨by decide, by decide⟩, ?_, ?_⟩
    · intro g hg; simp at hg; subst hg; exact ⟨by decide, by decide⟩
    · intro sp t items h; simp at h
  · refine ⟨⟨by decide, by decide⟩, ?_, ?_⟩
    · intro g hg; simp at hg
    · intro sp t items h1 h2 k ref hm
      simp at h1
      subst h1
      have := Dict.mem_of_get? h2
      simp at this
      obtain ⟨_, rfl⟩ := this
      simp at hm
      obtain ⟨rfl, _⟩ := hm
      exact ⟨by decide, by decide⟩

example : (verify exEnv exSofa .raise .write).out = .ok none ∧ exEnv.rules.length = 2 ∧
    Spec.text (.str (py% "degree, degree, metre")) = some (py% "degree, degree, metre") ∧
    Dict.get? exSofa.attrs (py% "SourcePosition_Units") = some (.str (py% "degree, degree, metre")) := by decide +kernel

/-- C25, conversely a violated rule is always reported: neither `raise` nor `return` ends without issues.
(For `return` it is assumed that no mandatory data is missing, in which case the report refers to the data
after adding it.) -/
theorem C25_violation_reported (env : Env) (ho : ∀ p ∈ env.rules, Spec.OrdinaryRule p.1 p.2) (o o1 : Obj) (mode : Mode)
    (hr1 : resetConvention env o = .ok o1) (hm : Spec.HasMandatory o1) (key : Str) (rule : Rule)
    (hr : (key, rule) ∈ env.rules)
    (hv : ¬ Spec.RuleHolds env.aliases (verify env o .raise mode).obj key rule) :
    (∀ r, (verify env o .raise mode).out ≠ .ok r) ∧ (verify env o .ret mode).out ≠ .ok none := by
  have h1 : ∀ r, (verify env o .raise mode).out ≠ .ok r := fun r h => hv (C25_rules_hold env ho o mode r h key rule hr)
  exact ⟨h1, fun h => h1 none ((C19_raise_return env o o1 mode hr1 hm).2.1 h)⟩

/-- an object that violates the rule for the units -/
def exWrongUnit : Obj := exPut exSofa (py% "SourcePosition_Units") (.str (py% "degree, degree, degree"))

example : (match (verify exEnv exWrongUnit .raise .write).out with | .error (.valueError _) => true | _ => false) = true := by
  decide +kernel

/-- C25, no false alarms: an object without custom data that obeys all rules passes, if it passes without any rule.
In mode `read` nothing else depends on the rule set. -/
theorem C25_no_false_alarm (env : Env) (ho : ∀ p ∈ env.rules, Spec.OrdinaryRule p.1 p.2) (o : Obj) (hc : o.custom = none)
    (h0 : (verify { env with rules := [] } o .raise .read).out = .ok none)
    (hrules : ∀ p ∈ env.rules,
      Spec.RuleHolds env.aliases (verify { env with rules := [] } o .raise .read).obj p.1 p.2 ∧
      ∀ v, Dict.get? o.attrs (Spec.sofarName p.1) = some v → p.2.specific ≠ none → (∀ a, v ≠ .arr a) ∧ v ≠ .dict) :
    (verify env o .raise .read).out = .ok none := by
  obtain ⟨o1, api, dims, hV⟩ := verify_ok h0
  unfold verify
  rw [verifyG_raise_ok_iff]
  refine ⟨rfl, o1, _, hV.reset, (?_ : Passes _ env o1 (verify { env with rules := [] } o .raise .read).obj .read)⟩
  have hp := hV.passes
  have hcust : o1.custom = none := by
    obtain ⟨c, k, hf, hk⟩ := resetConvention_frame hV.reset
    rw [hf]
    rw [hc] at hk
    simpa using hk
  refine ⟨hp.mandatory, hp.types, hp.names, ?_, hp.dims, hp.shapes, ?_, hp.deprec⟩
  · rw [phaseCustomNames_nil]
    intro c hc'
    rw [hcust] at hc'
    cases hc'
  · rw [phaseRules_nil ho]
    refine ⟨?_, by simp⟩
    intro p hpm
    refine ⟨(hrules p hpm).1, ?_⟩
    rw [hV.attrs.1]
    exact (hrules p hpm).2

example : exSofa.custom = none ∧ (verify { exEnv with rules := [] } exSofa .raise .read).out = .ok none := by
  decide +kernel

/-! ## C26 -/

/-- C26: a unit string is accepted exactly if it is the reference itself (also in other case), or consists of the same
number of units, each of which is an alias of the unit in the reference at the same position. -/
theorem C26_units (aliases : Dict Str) (key t r : Str) (hk : (py% "Units") <:+ key) :
    verifyValue aliases (.str t) (some [r]) key = .ok true ↔
      t = r ∨ Str.lower t = r ∨
      ∃ ut ur, Spec.Units (Str.lower t) ut ∧ Spec.Units r ur ∧ Spec.AliasOf aliases ut ur := by
  have k1 : key ≠ py% "GLOBAL_DataType" := by
    rintro rfl
    have := List.reverse_prefix.2 hk
    revert this
    decide
  have k2 : key ≠ py% "GLOBAL_SOFAConventions" := by
    rintro rfl
    have := List.reverse_prefix.2 hk
    revert this
    decide
  rw [verifyValue_true_iff]
  unfold Spec.Allowed
  simp only [Spec.text, Option.some.injEq, exists_eq_left', List.mem_singleton, k1, k2, hk, ne_eq, not_false_eq_true,
    true_and]
  constructor
  · rintro (h | h | ⟨r', ut, ur, h1, h2⟩)
    · exact Or.inl h
    · exact Or.inr (Or.inl h)
    · simp at h1; subst h1; exact Or.inr (Or.inr ⟨ut, ur, h2⟩)
  · rintro (h | h | ⟨ut, ur, h2⟩)
    · exact Or.inl h
    · exact Or.inr (Or.inl h)
    · exact Or.inr (Or.inr ⟨r, ut, ur, rfl, h2⟩)

/-- C26: a unit string that is not accepted is rejected without an internal exception. -/
theorem C26_no_exception (aliases : Dict Str) (key t r : Str) :
    ∃ b, verifyValue aliases (.str t) (some [r]) key = .ok b := by
  unfold verifyValue
  simp only [Val.asStr]
  split
  · exact ⟨_, rfl⟩
  · split
    · exact ⟨_, rfl⟩
    · split
      · exact ⟨_, rfl⟩
      · split
        · exact verifyUnit_total _ _ _
        · exact ⟨_, rfl⟩

example : verifyValue exEnv.aliases (.str (py% "Degrees,degree, Meter")) (some [py% "degree, degree, metre"])
    (py% "SourcePosition_Units") = .ok true :=
  (C26_units exEnv.aliases (py% "SourcePosition_Units") _ _ ⟨py% "SourcePosition_", rfl⟩).2
    (.inr (.inr ⟨[py% "degrees", py% "degree", py% "meter"], [py% "degree", py% "degree", py% "metre"],
      by rw [units_iff]; decide, by rw [units_iff]; decide,
      .cons _ _ _ _ (by decide) (.cons _ _ _ _ (by decide) (.cons _ _ _ _ (by decide) .nil))⟩))

example : verifyValue exEnv.aliases (.str (py% ",, ,")) (some [py% "degree, degree, metre"]) (py% "SourcePosition_Units") =
    .ok false := by
  obtain ⟨b, hb⟩ := C26_no_exception exEnv.aliases (py% "SourcePosition_Units") (py% ",, ,") (py% "degree, degree, metre")
  cases b with
  | false => exact hb
  | true => exact absurd hb (by decide +kernel)

/-- C26: the decomposition into units is unique, so that "the same number of units" is well defined. -/
theorem C26_units_unique (t : Str) (us us' : List Str) (h : Spec.Units t us) (h' : Spec.Units t us') : us = us' := by
  rw [units_iff] at h h'
  rw [← h, ← h']

example : Spec.Units (Str.lower (py% "Degrees,degree, Meter")) [py% "degrees", py% "degree", py% "meter"] ∧
    Spec.AliasOf exEnv.aliases [py% "degrees", py% "degree", py% "meter"] [py% "degree", py% "degree", py% "metre"] ∧
    Spec.Units (py% "degree, degree, metre") [py% "degree", py% "degree", py% "metre"] := by
  refine ⟨by rw [units_iff]; decide, ?_, by rw [units_iff]; decide⟩
  exact .cons _ _ _ _ (by decide) (.cons _ _ _ _ (by decide) (.cons _ _ _ _ (by decide) .nil))

/-! ## C27 -/

/-- C27 is false: a unit string without comma is never accepted for a reference with more than one unit (unless it is
literally the reference). -/
theorem C27_refuted (aliases : Dict Str) (key t r : Str) (hk : (py% "Units") <:+ key) (ht : ',' ∉ t)
    (hr : ',' ∈ r) : verifyValue aliases (.str t) (some [r]) key = .ok false := by
  obtain ⟨b, hb⟩ := C26_no_exception aliases key t r
  cases b with
  | false => exact hb
  | true =>
    exfalso
    have hl : ',' ∉ Str.lower t := by
      intro hm
      obtain ⟨c, hc, hcc⟩ := List.mem_map.1 hm
      have : c = ',' := by
        unfold Str.lowerC at hcc
        split at hcc
        · rename_i h
          have h1 : (Char.ofNat (c.toNat + 32)).toNat = c.toNat + 32 := ofNat_toNat (by
            have : 'Z'.toNat = 90 := rfl
            omega)
          rw [hcc] at h1
          have h2 : ','.toNat = 44 := rfl
          have h3 : 'A'.toNat = 65 := rfl
          omega
        · exact hcc
      subst this
      exact ht hc
    rcases (C26_units aliases key t r hk).1 hb with h | h | ⟨ut, ur, h1, h2, h3⟩
    · subst h; exact ht hr
    · rw [← h] at hr; exact hl hr
    · have e1 : ut = [Str.lower t] := C26_units_unique _ _ _ h1 (.one _ hl)
      subst e1
      cases h3 with
      | cons _ r0 _ rs _ h4 =>
        cases h4
        cases h2 with
        | one _ h => exact h hr
        | comma _ _ _ _ _ h => cases h
        | commaSpace _ _ _ _ h => cases h

example : verifyValue exEnv.aliases (.str (py% "degree degree metre")) (some [py% "degree, degree, metre"])
      (py% "SourcePosition_Units") = .ok false ∧
    verifyValue exEnv.aliases (.str (py% "degrees, degree, metre")) (some [py% "degree, degree, metre"])
      (py% "SourcePosition_Units") = .ok true := by decide

theorem units_join_comma (us : List Str) (hne : us ≠ []) (h : ∀ u ∈ us, ',' ∉ u ∧ ∀ u', u ≠ ' ' :: u') :
    Spec.Units (Str.join (py% ",") us) us := by
  induction us with
  | nil => exact absurd rfl hne
  | cons u us ih =>
    cases us with
    | nil => exact .one u (h u (by simp)).1
    | cons b us =>
      have e : Str.join (py% ",") (u :: b :: us) = u ++ ',' :: Str.join (py% ",") (b :: us) := by simp [Str.join]
      rw [e]
      refine .comma u _ _ (h u (by simp)).1 ?_ (ih (by simp) (fun x hx => h x (by simp [hx])))
      intro t' ht
      have hb := (h b (by simp))
      cases b with
      | nil => cases us with
        | nil => simp [Str.join] at ht
        | cons c us => simp [Str.join] at ht
      | cons x b => cases us with
        | nil => simp [Str.join] at ht; exact hb.2 b (by rw [ht.1])
        | cons c us => simp [Str.join] at ht; exact hb.2 b (by rw [ht.1])

theorem units_join_commaSpace (us : List Str) (hne : us ≠ []) (h : ∀ u ∈ us, ',' ∉ u) :
    Spec.Units (Str.join (py% ", ") us) us := by
  induction us with
  | nil => exact absurd rfl hne
  | cons u us ih =>
    cases us with
    | nil => exact .one u (h u (by simp))
    | cons b us =>
      have e : Str.join (py% ", ") (u :: b :: us) = u ++ ',' :: ' ' :: Str.join (py% ", ") (b :: us) := by simp [Str.join]
      rw [e]
      exact .commaSpace u _ _ (h u (by simp)) (ih (by simp) (fun x hx => h x (by simp [hx])))

/-- C27, what holds: units in lower case may be separated by `','` instead of `', '`. Missing: separation by a space
(`C27_refuted`). -/
theorem C27_separators_partial (aliases : Dict Str) (us : List Str) (r : Str)
    (hne : us ≠ []) (h : ∀ u ∈ us, ',' ∉ u ∧ ∀ u', u ≠ ' ' :: u') :
    verifyUnit aliases (Str.join (py% ",") us) [r] = verifyUnit aliases (Str.join (py% ", ") us) [r] := by
  have h1 := units_split (units_join_comma us hne h)
  have h2 := units_split (units_join_commaSpace us hne (fun u hu => (h u hu).1))
  simp only [verifyUnit, h1, h2]

example : verifyUnit exEnv.aliases (py% "degrees,degree,metre") [py% "degree, degree, metre"] = .ok true ∧
    Str.join (py% ",") [py% "degrees", py% "degree", py% "metre"] = py% "degrees,degree,metre" := by decide

/-! ## C28 -/

/-- C28: an object that passes in mode `write` passes in mode `read`. -/
theorem C28_write_implies_read (env : Env) (o : Obj) (r : Option Str)
    (h : (verify env o .raise .write).out = .ok r) : (verify env o .raise .read).out = .ok none := by
  unfold verify at h ⊢
  rw [verifyG_raise_ok_iff] at h ⊢
  obtain ⟨_, o1, o3, h1, h2⟩ := h
  exact ⟨rfl, o1, o3, h1, h2.write_read⟩

example : (verify exEnv exSofa .raise .write).out = .ok none := exSofa_ok

/-! ## C29 -/

/-- C29: an object of a deprecated convention can not be written. -/
theorem C29_deprecated_not_written (env : Env) (o : Obj) (c : Str) (v : Val) (new : Str)
    (hv : Dict.get? o.attrs (py% "GLOBAL_SOFAConventions") = some v) (hc : Spec.text v = some c)
    (hd : Dict.get? env.deprecations c = some new) (r : Option Str) :
    (verify env o .raise .write).out ≠ .ok r := by
  intro h
  obtain ⟨o1, api, dims, hV⟩ := verify_ok h
  obtain ⟨w, hw⟩ := hV.passes.deprec
  unfold phaseDeprecations at hw
  rw [getAttr_of_get (hV.attrs.1 ▸ hv)] at hw
  rw [← asStr_text] at hc
  simp only [hc] at hw
  split at hw
  · simp at hw
  · split at hw
    · simp at hw
    · simp [deprecationText, hd] at hw

/-- the conventions of the example with a deprecation -/
def exEnvDeprecated : Env := { exEnv with deprecations := [(py% "FIR", py% "TF")] }

example : Dict.get? exSofa.attrs (py% "GLOBAL_SOFAConventions") = some (.str (py% "FIR")) ∧
    Dict.get? exEnvDeprecated.deprecations (py% "FIR") = some (py% "TF") ∧
    (verify exEnvDeprecated exSofa .raise .read).out = .ok none := by decide +kernel

/-- C29: in mode `read` the outcome does not depend on the table of deprecations. -/
theorem C29_read_ignores_deprecations (env : Env) (o : Obj) (d : Dict Str) :
    (verify { env with deprecations := d } o .raise .read).out = (verify env o .raise .read).out :=
  verifyG_read_deprec referenceNames env d o (referenceNames_deprec env d)

example : (verify exEnvDeprecated exSofa .raise .read).out = .ok none ∧
    (verify exEnvDeprecated exSofa .raise .write).out ≠ .ok none := by
  refine ⟨?_, C29_deprecated_not_written exEnvDeprecated exSofa (py% "FIR") (.str (py% "FIR")) (py% "TF") (by decide +kernel) rfl
    (by decide +kernel) none⟩
  have h := C29_read_ignores_deprecations exEnv exSofa [(py% "FIR", py% "TF")]
  exact h.trans (by decide +kernel)

/-! ## C30 -/

/-- C30: verifying again after a successful verification has the same result, the same side effects, and leaves the
object as it is. -/
theorem C30_idempotent (env : Env) (o : Obj) (mode : Mode) (r : Option Str)
    (h : (verify env o .raise mode).out = .ok r) :
    verify env (verify env o .raise mode).obj .raise mode = verify env o .raise mode := by
  obtain ⟨o1, api, dims, hV⟩ := verify_ok h
  exact verify_again hV.reset hV.passes.mandatory h

example : (verify exEnv exCustom .raise .write).out = .ok none ∧
    (verify exEnv exCustom .raise .write).obj ≠ exCustom := by decide +kernel

/-- C30 for all values of `issue_handling` (also if issues are returned or printed), provided that no mandatory data is
missing. Missing: objects with missing mandatory data, where the first call adds data and reports it. -/
theorem C30_idempotent_modes_partial (env : Env) (o o1 : Obj) (ih : IH) (mode : Mode) (r : Option Str)
    (hr : resetConvention env o = .ok o1) (hm : Spec.HasMandatory o1)
    (h : (verify env o ih mode).out = .ok r) :
    verify env (verify env o ih mode).obj ih mode = verify env o ih mode :=
  verify_again hr ((isMandatory_iff o1).2 hm) h

example : (match (verify exEnv exWrong .ret .write).out with | .ok (some _) => true | _ => false) = true := by
  decide +kernel

end Sofar
