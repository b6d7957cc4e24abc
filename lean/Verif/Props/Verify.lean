import Verif.Lemmas.Paths
import Verif.Lemmas.VerifyOk
import Verif.Lemmas.Events
import Verif.Props.Example
/-!
# C19 – C24: results of `Sofa.verify`
-/
namespace Sofar

/-- assign without checks (examples only) -/
def exPut (o : Obj) (k : Str) (v : Val) : Obj := { o with attrs := Dict.put o.attrs k v }

/-- the new object verifies -/
theorem exSofa_ok : (verify exEnv exSofa .raise .write).out = .ok none := by decide +kernel

/-! ## C19 -/

/-- C19, `raise` and `return`: if no mandatory data is missing (so that the call does not modify the data), the
outcome of `verify(issue_handling="raise")` is determined by the outcome of `verify(issue_handling="return")`:
the same internal exception, or no exception if `None` is returned, or a ValueError whose report is the
beginning of the returned text. -/
theorem C19_raise_return (env : Env) (o o1 : Obj) (mode : Mode) (hr : resetConvention env o = .ok o1)
    (hm : Spec.HasMandatory o1) :
    (∀ x, (verify env o .ret mode).out = .error x → (verify env o .raise mode).out = .error x) ∧
    ((verify env o .ret mode).out = .ok none → (verify env o .raise mode).out = .ok none) ∧
    (∀ t, (verify env o .ret mode).out = .ok (some t) → ∃ t0, (verify env o .raise mode).out = .error (.valueError t0) ∧
      t0 <+: t ∧ (py% "\nERRORS\n------\n") <+: t0) := by
  have h := verifyG_raise_ret referenceNames env o o1 mode hr ((isMandatory_iff o1).2 hm)
  exact ⟨h.exception, h.none, h.some⟩

/-- C19, the other direction: a report is raised only if it is returned. -/
theorem C19_return_raise (env : Env) (o o1 : Obj) (mode : Mode) (hr : resetConvention env o = .ok o1)
    (hm : Spec.HasMandatory o1) :
    ((verify env o .raise mode).out = .ok none → (verify env o .ret mode).out = .ok none) ∧
    (∀ x, (verify env o .raise mode).out = .error x → (verify env o .ret mode).out = .error x ∨
      ∃ t t0, x = .valueError t0 ∧ (verify env o .ret mode).out = .ok (some t) ∧ t0 <+: t) := by
  obtain ⟨h1, h2, h3⟩ := C19_raise_return env o o1 mode hr hm
  cases h : (verify env o .ret mode).out with
  | error x =>
    have := h1 x h
    rw [this]
    refine ⟨by simp, ?_⟩
    rintro y hy
    left
    exact hy
  | ok r =>
    cases r with
    | none => rw [h2 h]; exact ⟨fun _ => rfl, by simp⟩
    | some t =>
      obtain ⟨t0, h4, h5, _⟩ := h3 t h
      rw [h4]
      refine ⟨by simp, ?_⟩
      intro x hx
      right
      simp only [Except.error.injEq] at hx
      exact ⟨t, t0, hx.symm, rfl, h5⟩

/-- an object with an issue: three sources in one measurement -/
def exWrong : Obj := exPut exSofa (py% "SourcePosition") (.arr (exNums .i [2, 2] [0, 0, 1, 1]))

example : ∃ o1, resetConvention exEnv exWrong = .ok o1 ∧ Spec.HasMandatory o1 ∧
    (verify exEnv exWrong .ret .write).out ≠ .ok none ∧
    (match (verify exEnv exWrong .ret .write).out with | .ok (some _) => True | _ => False) := by
  have h : (match resetConvention exEnv exWrong with
    | .ok o1 => decide (∀ p ∈ o1.conv, mandatory p.2.flags = true → p.1 ∈ o1.keys)
    | .error _ => false) = true := by decide +kernel
  cases hr : resetConvention exEnv exWrong with
  | error x => simp [hr] at h
  | ok o1 =>
    simp only [hr, decide_eq_true_eq] at h
    exact ⟨o1, rfl, (isMandatory_iff o1).1 h, by decide +kernel, by
      have : (match (verify exEnv exWrong .ret .write).out with | .ok (some _) => true | _ => false) = true := by
        decide +kernel
      revert this
      cases (verify exEnv exWrong .ret .write).out with
      | error x => simp
      | ok r => cases r <;> simp⟩

/-- C19, `print` never raises because of issues: for every object it has the same internal exceptions as `return`. -/
theorem C19_print (env : Env) (o : Obj) (mode : Mode) :
    (∀ x, (verify env o .print mode).out = .error x ↔ (verify env o .ret mode).out = .error x) ∧
    ((verify env o .print mode).out = .ok none ↔ ∃ t, (verify env o .ret mode).out = .ok t) := by
  have h := verifyG_print_ret referenceNames env o mode
  unfold verify
  constructor
  · intro x
    refine ⟨fun hx => ?_, h.exception x⟩
    cases hr : (verifyG referenceNames env o .ret mode).out with
    | error y => rw [h.exception y hr] at hx; exact hx
    | ok t => rw [h.ok t hr] at hx; simp at hx
  · refine ⟨fun hx => ?_, fun ⟨t, ht⟩ => h.ok t ht⟩
    cases hr : (verifyG referenceNames env o .ret mode).out with
    | error y => rw [h.exception y hr] at hx; simp at hx
    | ok t => exact ⟨t, rfl⟩

example : (verify exEnv exWrong .print .write).out = .ok none := by decide +kernel

/-- C19, `ignore`: raises nothing if there are no issues. Missing: objects with issues, see `C19_refuted`. -/
theorem C19_ignore_partial (env : Env) (o : Obj) (mode : Mode) (h : (verify env o .ret mode).out = .ok none) :
    (verify env o .ignore mode).out = .ok none :=
  verifyG_ignore_ret referenceNames env o mode h

example : (verify exEnv exSofa .ret .write).out = .ok none := by decide +kernel

/-- an object with an issue of the data type: a string variable that holds a number -/
def exWrongType : Obj := exPut exSofa (py% "Names") (.num .i (.num (.fin 1)))

/-- C19 is false for the undocumented value `ignore`: wrong data types cause an internal exception. -/
theorem C19_refuted : (match (verify exEnv exWrongType .ret .write).out with | .ok (some _) => true | _ => false) = true ∧
    (match (verify exEnv exWrongType .ignore .write).out with | .error (.typeError _) => true | _ => false) = true := by
  decide +kernel

/-! ## C20 -/

/-- C20: whatever `verify(issue_handling="print")` prints is contained in the text returned by
`verify(issue_handling="return")`, if this is not `None`; and `None` is returned only if nothing but warnings
are printed. Missing: with warnings only `None` is returned (`C20_refuted`). -/
theorem C20_returns_all_issues_partial (env : Env) (o : Obj) (mode : Mode) (m : Str)
    (hm : Event.print m ∈ (verify env o .print mode).ev) :
    (∀ t, (verify env o .ret mode).out = .ok (some t) → m <:+: t) ∧
    ((verify env o .ret mode).out = .ok none → (py% "\nWARNINGS\n--------\n") <+: m) := by
  have h := verifyG_prints referenceNames env o mode (fun o' m => referenceNames_ev env o' m)
  exact ⟨fun t ht => h.some t ht m hm, fun hn => h.none hn m hm⟩

example : ∃ m, Event.print m ∈ (verify exEnv exWrong .print .write).ev := by
  have : (verify exEnv exWrong .print .write).ev.any (fun e => match e with | .print _ => true | .warn _ => false) = true := by
    decide +kernel
  obtain ⟨e, he, h⟩ := List.any_eq_true.1 this
  cases e with
  | print m => exact ⟨m, he⟩
  | warn m => simp at h

/-- an object of a preliminary convention -/
def exPreliminary : Obj := exPut exSofa (py% "GLOBAL_SOFAConventionsVersion") (.str (py% "0.9"))

/-- C20 is false: a warning is detected (and printed), but `None` is returned. -/
theorem C20_refuted : ∃ (env : Env) (o : Obj), (verify env o .print .write).ev ≠ [] ∧
    (verify env o .ret .write).out = .ok none :=
  ⟨exEnv, exPreliminary, by decide +kernel, by decide +kernel⟩

/-! ## C21 -/

/-- C21: no call of `verify`, successful or not, changes or removes data; the order is kept. -/
theorem C21_data_unchanged (env : Env) (o : Obj) (ih : IH) (mode : Mode) :
    (∀ k v, Dict.get? o.attrs k = some v → Dict.get? (verify env o ih mode).obj.attrs k = some v) ∧
    o.attrs.map Prod.fst <+: (verify env o ih mode).obj.attrs.map Prod.fst := by
  have h := verifyG_frame referenceNames env o ih mode
  refine ⟨?_, h.keys⟩
  intro k v hv
  rcases h.attrs k with h1 | ⟨_, hk, _⟩
  · unfold verify; rw [h1, hv]
  · exact absurd (mem_keys_of_get hv) hk

/-- C21: with `issue_handling="raise"` nothing is added. -/
theorem C21_raise_adds_nothing (env : Env) (o : Obj) (mode : Mode) :
    (verify env o .raise mode).obj.attrs = o.attrs :=
  (verifyG_frame referenceNames env o .raise mode).raise rfl

/-- C21: whatever is added is missing mandatory data of the convention with its default value. -/
theorem C21_adds_only_defaults (env : Env) (o : Obj) (ih : IH) (mode : Mode) (k : Str) (v : Val)
    (hk : Dict.get? o.attrs k = none) (hv : Dict.get? (verify env o ih mode).obj.attrs k = some v) :
    ∃ e f, (k, e) ∈ (verify env o ih mode).obj.conv ∧ e.flags = some f ∧ 'm' ∈ f ∧ Spec.StoredAs e.default v := by
  rcases (verifyG_frame referenceNames env o ih mode).attrs k with h1 | ⟨_, _, o1, e, w, hr, he, hm, hn, hg⟩
  · unfold verify at hv; rw [h1, hk] at hv; cases hv
  · unfold verify at hv
    rw [hg] at hv
    cases hv
    cases hf : e.flags with
    | none => simp [mandatory, hf] at hm
    | some f =>
      refine ⟨e, f, ?_, hf, by simpa [mandatory, hf] using hm, storedAs_normalise hn⟩
      unfold verify
      rw [((verifyG_frame referenceNames env o ih mode).loaded o1 hr).1]
      exact he

/-- an object without the mandatory source position -/
def exMissing : Obj := { exSofa with attrs := Dict.del exSofa.attrs (py% "SourcePosition") }

example : Dict.get? exMissing.attrs (py% "SourcePosition") = none ∧
    Dict.get? (verify exEnv exMissing .ret .write).obj.attrs (py% "SourcePosition") =
      some (.arr (exNums .i [1, 3] [0, 0, 1])) := by decide +kernel

/-! ## C22 -/

/-- C22: after a successful verification every value has the type given by the convention. -/
theorem C22_types (env : Env) (o : Obj) (mode : Mode) (r : Option Str) (h : (verify env o .raise mode).out = .ok r)
    (k : Str) (v : Val) (hv : Dict.get? o.attrs k = some v) :
    ∃ e, Dict.get? (verify env o .raise mode).obj.conv k = some e ∧ Spec.HasType e.typ v := by
  obtain ⟨o1, api, dims, hV⟩ := verify_ok h
  exact hV.types hv

/-- C22, converse: data of wrong type never passes. -/
theorem C22_wrong_type_detected (env : Env) (o o1 : Obj) (mode : Mode) (r : Option Str)
    (hr : resetConvention env o = .ok o1) (k : Str) (v : Val) (e : Entry) (hv : Dict.get? o.attrs k = some v)
    (he : Dict.get? o1.conv k = some e) (ht : ¬ Spec.HasType e.typ v) : (verify env o .raise mode).out ≠ .ok r := by
  intro h
  obtain ⟨o1', api, dims, hV⟩ := verify_ok h
  obtain ⟨e', he', ht'⟩ := hV.types hv
  have : o1' = o1 := by
    have := hV.reset
    rw [hr] at this
    cases this
    rfl
  subst this
  rw [hV.attrs.2.2.1, he] at he'
  cases he'
  exact ht ht'

example : (verify exEnv exSofa .raise .write).out = .ok none ∧
    Dict.get? exSofa.attrs (py% "Names") = some (.arr ⟨.U, [2, 1], [.str (py% "left"), .str (py% "right")]⟩) := by
  decide +kernel

/-- C22 is false for numpy byte strings: type `S` is documented to be accepted, but is always rejected. -/
theorem C22_refuted (env : Env) (o o1 : Obj) (mode : Mode) (r : Option Str)
    (hr : resetConvention env o = .ok o1) (k : Str) (a : Arr) (e : Entry) (hv : Dict.get? o.attrs k = some (.arr a))
    (hS : a.kind = .S) (he : Dict.get? o1.conv k = some e) (ht : e.typ = py% "string") :
    (verify env o .raise mode).out ≠ .ok r := by
  apply C22_wrong_type_detected env o o1 mode r hr k (.arr a) e hv he
  simp [ht, Spec.HasType, Spec.IsStringVariable, Spec.IsString, hS]

example : ∃ o1 e a, resetConvention exEnv (exPut exSofa (py% "Names") (.arr ⟨.S, [1], [.str (py% "a")]⟩)) = .ok o1 ∧
    Dict.get? o1.conv (py% "Names") = some e ∧ e.typ = py% "string" ∧
    Dict.get? (exPut exSofa (py% "Names") (.arr ⟨.S, [1], [.str (py% "a")]⟩)).attrs (py% "Names") = some (.arr a) ∧
    a.kind = .S := by
  have h : (match resetConvention exEnv (exPut exSofa (py% "Names") (.arr ⟨.S, [1], [.str (py% "a")]⟩)) with
    | .ok o1 => (Dict.get? o1.conv (py% "Names")).map (·.typ)
    | .error _ => none) = some (py% "string") := by decide +kernel
  cases hr : resetConvention exEnv (exPut exSofa (py% "Names") (.arr ⟨.S, [1], [.str (py% "a")]⟩)) with
  | error x => simp [hr] at h
  | ok o1 =>
    simp only [hr] at h
    cases he : Dict.get? o1.conv (py% "Names") with
    | none => simp [he] at h
    | some e =>
      simp [he] at h
      exact ⟨o1, e, ⟨.S, [1], [.str (py% "a")]⟩, rfl, he, h, by decide +kernel, rfl⟩

/-! ## C23 -/

/-- C23: after a successful verification there is a size for every dimension such that the shape of every variable
agrees, up to singleton dimensions, with one of its alternatives in the convention (`S` counts as 1, because
the shape of string arrays does not reflect the length of the strings).
Missing for the full claim: variables with more dimensions than the convention prescribes (`C23_refuted`), and
conventions in which the alternatives of one variable differ in the number of dimensions. -/
theorem C23_consistent_dimensions_partial (env : Env) (o : Obj) (mode : Mode) (r : Option Str)
    (h : (verify env o .raise mode).out = .ok r) :
    ∃ size : Char → Nat, size 'C' = 3 ∧ size 'I' = 1 ∧
      ∀ k v e d n, Dict.get? o.attrs k = some v → Dict.get? (verify env o .raise mode).obj.conv k = some e →
        e.dims = some d → Spec.UniformDims d n → 1 ≤ n → v.shape.length ≤ n →
        ∃ alt, Spec.IsAlternative d alt ∧
          Spec.SameUpToOnes v.shape (alt.map (fun c => if c = 'S' then 1 else size (Str.upperC c))) := by
  obtain ⟨o1, api, dims, hV⟩ := verify_ok h
  refine ⟨sizeIn api, by simp [sizeIn, hV.apiOk.C], by simp [sizeIn, hV.apiOk.I], ?_⟩
  intro k v e d n hv he hd hu hn hr
  obtain ⟨alt, act, h1, _, h2, h3, _⟩ := hV.shape hv he hd
  have ha := isAlternative_of_mem h1
  have hf := hu _ (isAlternative_of_mem (firstAlt_mem d))
  refine ⟨alt, ha, ?_⟩
  have hl := (hu alt ha).1
  have := compare_upToOnes hn h2 hf.1 hf.2 hr
  unfold Spec.SameUpToOnes
  rw [← h3, ← this, hl]

/-- the hypotheses are met e.g. by the dimension string `"IC, MC"` of the source position -/
theorem uniform_ICMC : Spec.UniformDims (py% "IC, MC") 2 := by
  rw [uniformDims_iff]
  decide

example : (verify exEnv exSofa .raise .write).out = .ok none ∧
    Dict.get? exSofa.attrs (py% "SourcePosition") = some (.arr (exNums .i [1, 3] [0, 0, 1])) ∧
    (Dict.get? (verify exEnv exSofa .raise .write).obj.conv (py% "SourcePosition")).map (·.dims) =
      some (some (py% "IC, MC")) := by
  decide +kernel

/-- C23, variables with more dimensions than the convention prescribes: at least the first dimensions have the
sizes of one of the alternatives. -/
theorem C23_first_dimensions (env : Env) (o : Obj) (mode : Mode) (r : Option Str)
    (h : (verify env o .raise mode).out = .ok r) :
    ∃ size : Char → Nat, size 'C' = 3 ∧ size 'I' = 1 ∧
      ∀ k v e d n, Dict.get? o.attrs k = some v → Dict.get? (verify env o .raise mode).obj.conv k = some e →
        e.dims = some d → Spec.UniformDims d n → 2 ≤ n → n < v.shape.length →
        ∃ alt, Spec.IsAlternative d alt ∧
          v.shape.take n = alt.map (fun c => if c = 'S' then 1 else size (Str.upperC c)) := by
  obtain ⟨o1, api, dims, hV⟩ := verify_ok h
  refine ⟨sizeIn api, by simp [sizeIn, hV.apiOk.C], by simp [sizeIn, hV.apiOk.I], ?_⟩
  intro k v e d n hv he hd hu hn hr
  obtain ⟨alt, act, h1, _, h2, h3, _⟩ := hV.shape hv he hd
  have ha := isAlternative_of_mem h1
  have hf := hu _ (isAlternative_of_mem (firstAlt_mem d))
  refine ⟨alt, ha, ?_⟩
  have hl := (hu alt ha).1
  rw [← h3, hl]
  exact (compare_take hn h2 hf.1 hf.2 hr).symm

/-- an impulse response with five dimensions -/
def exTooMany : Obj :=
  exPut exSofa (py% "Data_IR") (.arr ⟨.i, [1, 2, 3, 5, 7], List.replicate 210 (.num (.fin 0))⟩)

example : (verify exEnv exTooMany .raise .write).out = .ok none ∧
    (Dict.get? exTooMany.attrs (py% "Data_IR")).map (·.shape) = some [1, 2, 3, 5, 7] := by
  decide +kernel

/-- C23 is false: additional dimensions that are not singleton are ignored. -/
theorem C23_refuted : ∃ (env : Env) (o : Obj) (a : Arr), (verify env o .raise .write).out = .ok none ∧
    a.WF ∧ Dict.get? o.attrs (py% "Data_IR") = some (.arr a) ∧
    ∀ alt : List Nat, alt.length = 3 → ¬ Spec.SameUpToOnes a.shape alt := by
  refine ⟨exEnv, exTooMany, ⟨.i, [1, 2, 3, 5, 7], List.replicate 210 (.num (.fin 0))⟩, by decide +kernel,
    by decide +kernel, by decide +kernel, ?_⟩
  intro alt hl hs
  have h := congrArg List.length hs
  have : (alt.filter (· ≠ 1)).length ≤ 3 := hl ▸ List.length_filter_le _ _
  rw [← h] at this
  simp at this

end Sofar
