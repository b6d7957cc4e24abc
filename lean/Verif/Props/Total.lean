import Verif.Lemmas.Checkers
import Verif.Props.Rules
/-!
# C57, C58: verification reports every problem and accepts everything that follows the convention
-/
namespace Sofar

theorem getAttr_ordinary {o : Obj} {n : Str} {w : Val} (hp : isPrivate n = false) (hm : n ∉ publicMembers)
    (hg : o.getAttr n = .ok w) : Dict.get? o.attrs n = some w := by
  rcases getAttr_ok hg with h | ⟨h1, _, h2⟩
  · exact h
  · rw [hasAttr_public o n hp] at h2
    rcases h2 with h2 | h2
    · simp [Dict.has, h1] at h2
    · exact absurd h2 hm

/-- a new object of the convention and version of the given object can be created -/
def Spec.CanCreate (env : Env) (o : Obj) (n : Obj) : Prop :=
  ∃ cv c vv v, Dict.get? o.attrs (py% "GLOBAL_SOFAConventions") = some cv ∧ Spec.text cv = some c ∧
    Dict.get? o.attrs (py% "GLOBAL_SOFAConventionsVersion") = some vv ∧ Spec.text vv = some v ∧
    (initSofa env c false (.exact v) .auto).out = .ok n

theorem reference_of_create {env : Env} {o n : Obj} (hc : Spec.Checkable o) (h : Spec.CanCreate env o n) :
    (referenceNames env o).out = .ok (Dict.keys n.conv) := by
  obtain ⟨cv, c, vv, v, h1, h2, h3, h4, h5⟩ := h
  refine reference_total h1 h2 h3 h4 ?_ h5
  rintro rfl
  obtain ⟨v', t, q, g1, g2, g3⟩ := hc.version
  rw [h3] at g1
  cases g1
  rw [h4] at g2
  cases g2
  revert g3
  have : pyFloat (py% "latest") = none := by decide
  rw [this]
  simp

theorem ready_of {env : Env} {o o1 : Obj} (hr : resetConvention env o = .ok o1) (hc : Spec.Checkable o1)
    (hrules : Spec.RegularRules env o1) (hnew : o1.custom ≠ none → ∃ n, Spec.CanCreate env o1 n) :
    Ready (referenceNames env o1) env o1 := by
  refine ⟨hc, hrules, ?_, ?_⟩
  · obtain ⟨x, k, rfl, _⟩ := resetConvention_frame hr
    unfold resetConvention at hr
    cases hg : o.getAttr (py% "GLOBAL_SOFAConventions") with
    | error e => simp [hg] at hr
    | ok cv =>
      have := getAttr_ordinary (by decide) (by decide) hg
      exact ⟨cv, this⟩
  · intro hn
    obtain ⟨n, hn⟩ := hnew hn
    exact ⟨_, reference_of_create hc hn⟩

/-! ## C57 -/

/-- C57: verification never crashes. `verify(issue_handling="raise")` of an object that can be checked (see
`Spec.Checkable` and `Spec.RegularRules`) either succeeds or raises a ValueError that contains the report, whatever
is wrong with the data. Missing for the full claim: data that can not be checked (`C57_refuted_units`,
`C57_refuted_strings`). -/
theorem C57_reports_partial (env : Env) (o o1 : Obj) (mode : Mode) (hr : resetConvention env o = .ok o1)
    (hc : Spec.Checkable o1) (hrules : Spec.RegularRules env o1)
    (hnew : o1.custom ≠ none → ∃ n, Spec.CanCreate env o1 n) :
    (verify env o .raise mode).out = .ok none ∨
      ∃ t, (verify env o .raise mode).out = .error (.valueError (py% "\nERRORS\n------\n" ++ t)) := by
  rcases verifyG_raise_regular (inner := referenceNames) (mode := mode) hr (ready_of hr hc hrules hnew) with
    ⟨r, h⟩ | ⟨_, t, h⟩
  · left
    have := ((verifyG_raise_ok_iff _ _ _ _ _).1 h).1
    rw [this] at h
    exact h
  · exact Or.inr ⟨t, h⟩

/-- C57: `verify` with `return` and `print` never raises for objects that can be checked and contain all mandatory
data. (If mandatory data is missing it is added before the checks.) -/
theorem C57_returns_partial (env : Env) (o o1 : Obj) (mode : Mode) (hr : resetConvention env o = .ok o1)
    (hc : Spec.Checkable o1) (hrules : Spec.RegularRules env o1)
    (hnew : o1.custom ≠ none → ∃ n, Spec.CanCreate env o1 n) (hm : Spec.HasMandatory o1) :
    (∃ r, (verify env o .ret mode).out = .ok r) ∧ ∃ r, (verify env o .print mode).out = .ok r := by
  have hready := ready_of hr hc hrules hnew
  constructor
  · rcases verifyG_present_regular (inner := referenceNames) (mode := mode) (ih := .ret) hr hready hm (by simp) with
      h | ⟨h, _⟩
    · exact h
    · cases h
  · rcases verifyG_present_regular (inner := referenceNames) (mode := mode) (ih := .print) hr hready hm (by simp) with
      h | ⟨h, _⟩
    · exact h
    · cases h

/-- the object after loading its convention (examples only) -/
def exReset (o : Obj) : Obj := match resetConvention exEnv o with
  | .ok o1 => o1
  | .error _ => emptyObj []

/-- an object with wrong units, wrong shapes and wrong names can be checked, and all problems are reported -/
def exProblems : Obj :=
  exPut (exPut (exPut exSofa (py% "SourcePosition_Units") (.str (py% "Yard"))) (py% "SourcePosition")
    (.arr (exNums .i [4, 2] [1, 2, 3, 4, 5, 6, 7, 8]))) (py% "GLOBAL_DataType") (.str (py% "ABC"))

example : resetConvention exEnv exProblems = .ok (exReset exProblems) ∧ Spec.Checkable (exReset exProblems) ∧
    Spec.RegularRules exEnv (exReset exProblems) ∧ (exReset exProblems).custom = none ∧
    Spec.HasMandatory (exReset exProblems) ∧
    (verify exEnv exProblems .ret .write).out = .ok (some (py% "\nERRORS\n------\nDetected variables of wrong shape:\n- SourcePosition has shape (4, 2) but must have (I=1, C=3), (M=1, C=3)\nDetected violations of the SOFA convention:\n- SourcePosition_Units is Yard but must be degree, degree, metre\n- GLOBAL_DataType is ABC but must be FIR, TF\n- SourcePosition_Units is Yard but must contain only lower case letters when writing SOFA files to disk.\n")) :=
  ⟨by decide +kernel, checkableB_sound (by decide +kernel), regularRulesB_sound (by decide +kernel), by decide +kernel,
    (isMandatory_iff _).1 (by decide +kernel), by decide +kernel⟩

/-- an object with a numeric variable whose name ends with `Units` -/
def exUnitsVariable : Obj :=
  (addVariable exSofa (py% "DisplayUnits") (.list (exNums .f [] [1])) (py% "double") (some (py% "I"))).obj

/-- C57 is false: a variable whose name ends with `Units` is accepted by `verify(mode="read")`, but makes
`verify(mode="write")`, and thus writing, fail with an AttributeError. -/
theorem C57_refuted_units : ∃ (env : Env) (o : Obj) (m : Str), (verify env o .raise .read).out = .ok none ∧
    (verify env o .raise .write).out = .error (.attributeError m) ∧
    (verify env o .ret .write).out = .error (.attributeError m) :=
  ⟨exEnv, exUnitsVariable, py% "lower", by decide +kernel, by decide +kernel, by decide +kernel⟩

/-- an object with a string array with two rows and two columns -/
def exStringMatrix : Obj :=
  exPut exSofa (py% "Names") (.arr ⟨.U, [2, 2], [.str (py% "a"), .str (py% "b"), .str (py% "c"), .str (py% "d")]⟩)

/-- C57 is false: a string array with two axes is not reported as an array of wrong shape but makes `verify` fail
with an exception of numpy, for all ways of handling issues. -/
theorem C57_refuted_strings : ∃ (env : Env) (o : Obj) (m : Str), ¬ (py% "\nERRORS") <+: m ∧
    (verify env o .raise .write).out = .error (.valueError m) ∧
    (verify env o .ret .write).out = .error (.valueError m) ∧
    (verify env o .print .write).out = .error (.valueError m) :=
  ⟨exEnv, exStringMatrix, py% "The truth value of an array with more than one element is ambiguous.",
    by decide +kernel, by decide +kernel, by decide +kernel, by decide +kernel⟩

/-! ## C58 -/

/-- C58: every object that can be checked and follows its convention passes, and nothing is modified but the internal
sizes of the dimensions, the tables of the convention and the protection. -/
theorem C58_accepted (env : Env) (o o1 : Obj) (mode : Mode) (hr : resetConvention env o = .ok o1)
    (hc : Spec.Checkable o1) (hrules : Spec.RegularRules env o1)
    (hf : Spec.Conforms env o1 (decide (mode = .write)))
    (hcust : ∀ c, o1.custom = some c → ∃ n, Spec.CanCreate env o1 n ∧
      ∀ k ∈ c.map Prod.fst, ∀ m ∈ n.conv.map Prod.fst,
        Str.replace m (py% "GLOBAL_") [] ≠ Str.replace k (py% "GLOBAL_") []) :
    (verify env o .raise mode).out = .ok none ∧ (verify env o .raise mode).obj.attrs = o.attrs := by
  have hready := ready_of hr hc hrules (by
    intro hn
    obtain ⟨c, hcc⟩ := Option.ne_none_iff_exists'.1 hn
    obtain ⟨n, hn, _⟩ := hcust c hcc
    exact ⟨n, hn⟩)
  obtain ⟨o3, hp⟩ := passes_of_conforms hready hf (by
    intro c hcc
    obtain ⟨n, hn, hk⟩ := hcust c hcc
    exact ⟨_, reference_of_create hc hn, hk⟩)
  have hok : (verify env o .raise mode).out = .ok none :=
    (verifyG_raise_ok_iff _ _ _ _ _).2 ⟨rfl, o1, o3, hr, hp⟩
  refine ⟨hok, ?_⟩
  obtain ⟨o1', api, dims, hV⟩ := verify_ok hok
  exact hV.attrs.1

/-- sizes of the dimensions of the example -/
def exSizes (c : Char) : Nat := if c = 'C' then 3 else if c = 'I' then 1 else if c = 'M' then 1 else if c = 'R' then 2 else 3

/-- the example obeys the rules of the example -/
theorem exRules_obeyed (o : Obj) (h1 : Dict.get? o.attrs (py% "SourcePosition_Units") = some (.str (py% "degree, degree, metre")))
    (h2 : (Dict.get? o.attrs (py% "SourcePosition")).isSome = true)
    (h3 : Dict.get? o.attrs (py% "GLOBAL_DataType") = some (.str (py% "FIR")))
    (h4 : (Dict.get? o.attrs (py% "Data_IR")).isSome = true) :
    ∀ key rule, (key, rule) ∈ exEnv.rules → Spec.RuleObeyed exEnv.aliases o exSizes key rule := by
  have e1 : Spec.sofarName (py% "SourcePosition:Units") = py% "SourcePosition_Units" := by decide
  have e2 : Spec.sofarName (py% "GLOBAL:DataType") = py% "GLOBAL_DataType" := by decide
  have e3 : Spec.sofarName (py% "SourcePosition") = py% "SourcePosition" := by decide
  have e4 : Spec.sofarName (py% "Data.IR") = py% "Data_IR" := by decide
  have e5 : Spec.ruleValue (py% "FIR") = py% "FIR" := by decide
  obtain ⟨w2, h2⟩ := Option.isSome_iff_exists.1 h2
  obtain ⟨w4, h4⟩ := Option.isSome_iff_exists.1 h4
  intro key rule hm
  simp only [exEnv, List.mem_cons, List.not_mem_nil, or_false, Prod.mk.injEq] at hm
  rcases hm with ⟨rfl, rfl⟩ | ⟨rfl, rfl⟩
  · intro v hv
    rw [e1, h1] at hv
    cases hv
    refine ⟨?_, ?_, by simp⟩
    · rintro l hl
      cases hl
      exact ⟨_, rfl, Or.inl (by simp)⟩
    · intro g hg
      simp only [List.mem_cons, List.not_mem_nil, or_false] at hg
      subst hg
      exact ⟨w2, by rw [e3]; exact h2⟩
  · intro v hv
    rw [e2, h3] at hv
    cases hv
    refine ⟨?_, by simp, ?_⟩
    · rintro l hl
      cases hl
      exact ⟨_, rfl, Or.inl (by simp)⟩
    · intro sp t items hsp ht hg i hi
      cases hsp
      cases ht
      rw [e5] at hg
      simp only [Dict.get?, if_true, Option.some.injEq] at hg
      subst hg
      simp only [List.mem_cons, List.not_mem_nil, or_false] at hi
      rcases hi with rfl | rfl
      · exact ⟨w4, by rw [e4]; exact h4, by simp⟩
      · intro d sizes str hm
        simp only [List.mem_cons, List.not_mem_nil, or_false, Prod.mk.injEq] at hm
        obtain ⟨rfl, rfl, rfl⟩ := hm
        exact ⟨'C', rfl, by decide, Or.inr (Or.inl rfl), by decide⟩

/-- the hypotheses are met by a new object with custom data -/
example : resetConvention exEnv exCustom = .ok (exReset exCustom) ∧ Spec.Checkable (exReset exCustom) ∧
    Spec.RegularRules exEnv (exReset exCustom) ∧ Spec.Conforms exEnv (exReset exCustom) true ∧
    (exReset exCustom).custom.map Dict.keys = some [py% "Temperature"] ∧
    (initSofa exEnv (py% "FIR") false (.exact (py% "1.0")) .auto).out = .ok exSofa :=
  ⟨by decide +kernel, checkableB_sound (by decide +kernel), regularRulesB_sound (by decide +kernel),
    conformsB_sound (by decide +kernel) exSizes (by decide +kernel)
      (exRules_obeyed _ (by decide +kernel) (by decide +kernel) (by decide +kernel) (by decide +kernel)),
    by decide +kernel, by decide +kernel⟩

end Sofar
