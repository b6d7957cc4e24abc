import Verif.Lemmas.Report
import Verif.Props.Total
/-!
# C70: the report of the verification lists exactly the problems
-/
namespace Sofar

/-- C70: the text of the ValueError that is raised by `verify` consists of sections, every line names a problem of the
object, and every problem is named by a line of its section, whatever else is wrong with the object. No error is raised
if and only if there is no problem. As long as mandatory data is missing or data has the wrong type, only these problems
are listed. `n` is a new object of the same convention, it is needed for the names of custom data. Missing for the full
claim: data that can not be checked (see C57), and problems of custom variables are named twice (`C70_refuted`). -/
theorem C70_report_partial (env : Env) (o o1 n : Obj) (mode : Mode) (hr : resetConvention env o = .ok o1)
    (hc : Spec.Checkable o1) (hrules : Spec.RegularRules env o1) (hnew : o1.custom ≠ none → Spec.CanCreate env o1 n)
    (sizes : Dict Nat) (hs : sizes = (verify env o .raise mode).obj.api.getD []) (present : Spec.Problem → Prop)
    (hp : present = Spec.Problem.Present env o1 (n.conv.map Prod.fst) sizes (decide (mode = .write))) :
    ∃ report, Spec.Reports (fun p => present p ∧ (p.First ∨ ∀ q : Spec.Problem, q.First → ¬ present q)) report ∧
      (verify env o .raise mode).out = if report = [] then .ok none else
        .error (.valueError (py% "\nERRORS\n------\n" ++ report)) := by
  have hready := ready_of hr hc hrules (fun h => ⟨n, hnew h⟩)
  subst hp hs
  exact verifyG_report (inner := referenceNames) (mode := mode) (names := n.conv.map Prod.fst) hr hready
    (fun h => reference_of_create hc (hnew h))

/-- C70 for `verify(issue_handling="return")`: the returned text consists of the same report and, if all checks were
done, the warnings. (If mandatory data is missing, it is added before the checks.) -/
theorem C70_returned_partial (env : Env) (o o1 n : Obj) (mode : Mode) (hr : resetConvention env o = .ok o1)
    (hc : Spec.Checkable o1) (hrules : Spec.RegularRules env o1) (hnew : o1.custom ≠ none → Spec.CanCreate env o1 n)
    (hm : Spec.HasMandatory o1)
    (sizes : Dict Nat) (hs : sizes = (verify env o .ret mode).obj.api.getD []) (present : Spec.Problem → Prop)
    (hp : present = Spec.Problem.Present env o1 (n.conv.map Prod.fst) sizes (decide (mode = .write))) :
    ((verify env o .ret mode).out = .ok none ∧ ∀ p, ¬ present p) ∨
      ∃ report rest, (verify env o .ret mode).out = .ok (some (py% "\nERRORS\n------\n" ++ report ++ rest)) ∧
        Spec.Reports (fun p => present p ∧ (p.First ∨ ∀ q : Spec.Problem, q.First → ¬ present q)) report ∧
        ((∃ q : Spec.Problem, q.First ∧ present q) → rest = []) ∧
        ((∀ q : Spec.Problem, q.First → ¬ present q) → ∃ w, Spec.Warning env o1 (decide (mode = .write)) w ∧
          rest = if w = [] then [] else py% "\n\nWARNINGS\n--------\n" ++ w) := by
  have hready := ready_of hr hc hrules (fun h => ⟨n, hnew h⟩)
  subst hp hs
  rcases verifyG_split (inner := referenceNames) (mode := mode) (names := n.conv.map Prod.fst) hr hready
    (fun h => reference_of_create hc (hnew h)) hm with ⟨report, h1, h2, h3⟩ | ⟨body, w8, o3, ev, api, h1, h2, h3, h4, _, _, h7⟩
  · right
    have hex : ∃ q : Spec.Problem, q.First ∧ q.Present env o1 (n.conv.map Prod.fst)
        ((verify env o .ret mode).obj.api.getD []) (decide (mode = .write)) := by
      refine Classical.byContradiction fun hno => h1 ((Reports.empty (h3 ((verify env o .ret mode).obj.api.getD []))).2 ?_)
      rintro q hq
      exact hno ⟨q, hq⟩
    refine ⟨report, [], by rw [verify, h2]; simp [errorHeader], ?_, fun _ => rfl, ?_⟩
    · refine Reports.congr (h3 ((verify env o .ret mode).obj.api.getD [])) ?_
      intro p
      constructor
      · rintro ⟨a, b⟩; exact ⟨b, Or.inl a⟩
      · rintro ⟨a, b | b⟩
        · exact ⟨b, a⟩
        · obtain ⟨q, hq1, hq2⟩ := hex
          exact absurd hq2 (b q hq1)
    · intro hno
      obtain ⟨q, hq1, hq2⟩ := hex
      exact absurd hq2 (hno q hq1)
  · have hv : verify env o .ret mode = handled w8 body .ret o3 ev := h7 .ret (by simp)
    rw [hv, handled_obj, h4, Option.getD_some]
    by_cases he : body = []
    · left
      subst he
      exact ⟨handled_nil _ _ _ _, (Reports.empty h1).1 rfl⟩
    · right
      refine ⟨body, _, handled_ret _ _ _ _ he, ?_, ?_, ?_⟩
      · refine Reports.congr h1 ?_
        intro p
        exact ⟨fun hp => ⟨hp, Or.inr fun q hq => h2 q hq _⟩, fun hp => hp.1⟩
      · rintro ⟨q, hq1, hq2⟩
        exact absurd hq2 (h2 q hq1 _)
      · intro _
        refine ⟨w8, h3, ?_⟩
        by_cases hw : w8 = []
        · rw [if_pos hw, if_pos hw]
        · rw [if_neg hw, if_neg hw]
          simp [warningHeader]

/-- C70: the warnings that are issued by `verify(issue_handling="raise")` after all checks were done. -/
theorem C70_warnings_partial (env : Env) (o o1 : Obj) (mode : Mode) (hr : resetConvention env o = .ok o1)
    (hc : Spec.Checkable o1) (hrules : Spec.RegularRules env o1) (hcustom : o1.custom = none) (hm : Spec.HasMandatory o1)
    (ht : ∀ k v e, Dict.get? o1.attrs k = some v → Dict.get? o1.conv k = some e → Spec.HasType e.typ v) :
    ∃ w, Spec.Warning env o1 (decide (mode = .write)) w ∧
      (verify env o .raise mode).ev = if w = [] then [] else [.warn (py% "\nWARNINGS\n--------\n" ++ w)] := by
  have hready := ready_of hr hc hrules (fun h => absurd hcustom h)
  rcases verifyG_split (inner := referenceNames) (mode := mode) (names := []) hr hready
    (fun h => absurd hcustom h) hm with ⟨report, h1, h2, h3⟩ | ⟨body, w8, o3, ev, api, h1, h2, h3, h4, _, h6, h7⟩
  · exfalso
    refine h1 ((Reports.empty (h3 [])).2 ?_)
    rintro p ⟨hp, hpp⟩
    cases p <;> try exact False.elim hp
    · obtain ⟨e, f, g1, g2, g3, g4⟩ := hpp
      exact absurd (hm _ e f g1 g2 g3) g4
    · obtain ⟨v, e, g1, g2, g3, _⟩ := hpp
      exact g3 (ht _ v e g1 g2)
  · have hv : verify env o .raise mode = handled w8 body .raise o3 ev := h7 .raise (by simp)
    refine ⟨w8, h3, ?_⟩
    rw [hv, handled_raise_ev, h6 hcustom, List.nil_append]
    rfl

/-- the convention of `exEnv`, but the variable is optional -/
def exEnvLax : Env :=
  { exEnv with files := exEnv.files.map (fun f => { f with content := f.content.map (fun p =>
      if p.1 = py% "SourcePosition" then (p.1, { p.2 with flags := none }) else p) }) }

/-- an object with several problems of a single rule: the unit is not allowed, contains upper case letters, and the
variable is missing -/
def exManifold : Obj :=
  exPut { exSofa with attrs := Dict.del exSofa.attrs (py% "SourcePosition") }
    (py% "SourcePosition_Units") (.str (py% "Yard"))

/-- the object after loading its convention -/
def exManifoldReset : Obj := match resetConvention exEnvLax exManifold with
  | .ok o1 => o1
  | .error _ => emptyObj []

example : resetConvention exEnvLax exManifold = .ok exManifoldReset ∧ Spec.Checkable exManifoldReset ∧
    Spec.RegularRules exEnvLax exManifoldReset ∧ exManifoldReset.custom = none ∧ Spec.HasMandatory exManifoldReset ∧
    (verify exEnvLax exManifold .raise .write).out = .error (.valueError (py% "\nERRORS\n------\nDetected violations of the SOFA convention:\n- SourcePosition_Units is Yard but must be degree, degree, metre\n- SourcePosition must be given if SourcePosition_Units is in SOFA object\n- SourcePosition_Units is Yard but must contain only lower case letters when writing SOFA files to disk.\n")) :=
  ⟨by decide +kernel, checkableB_sound (by decide +kernel), regularRulesB_sound (by decide +kernel), by decide +kernel,
    (isMandatory_iff _).1 (by decide +kernel), by decide +kernel⟩

/-- some of the problems of this object -/
example : (Spec.Problem.needs (py% "SourcePosition") (py% "SourcePosition_Units")).Present exEnvLax exManifoldReset [] [] true ∧
    (Spec.Problem.upperCase (py% "SourcePosition_Units") (py% "Yard")).Present exEnvLax exManifoldReset [] [] true := by
  refine ⟨⟨py% "SourcePosition:Units", ⟨some [py% "degree, degree, metre"], [py% "SourcePosition"], none⟩,
    by decide +kernel, by decide +kernel, ⟨.str (py% "Yard"), by decide +kernel⟩, py% "SourcePosition", by decide +kernel,
    by decide +kernel, by decide +kernel⟩, rfl, by decide +kernel, .str (py% "Yard"), by decide +kernel,
    by decide +kernel, by decide +kernel⟩

/-- C70 does not hold literally: a custom variable of wrong shape is listed twice (sofar/sofa.py:1183-1190 lists custom
variables again). -/
theorem C70_refuted : ∃ (env : Env) (o : Obj) (p : Spec.Problem),
    (verify env o .raise .write).out =
      .error (.valueError (py% "\nERRORS\n------\n" ++ p.heading ++ p.line ++ p.line)) := by
  refine ⟨exEnv, (addVariable exSofa (py% "Foo") (.list (exNums .f [3] [1, 2, 3])) (py% "double") (some (py% "K"))).obj,
    .shape (py% "Foo") [3] [[('K', 1)]], by decide +kernel⟩

end Sofar
