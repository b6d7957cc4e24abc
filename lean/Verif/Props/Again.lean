import Verif.Lemmas.Again
import Verif.Props.Rules
/-!
# C30: repeated verification of objects with missing mandatory data
-/
namespace Sofar

/-- C30 for `issue_handling="return"`, also if mandatory data is missing and the first call adds it: if the first call
returns None, so does every further call, and it leaves the object as it is; the object even passes the verification
with `issue_handling="raise"`. The added default values must have the type the convention prescribes, and a name that
follows the rules. Missing: conventions with other default values, see `C30_refuted`. -/
theorem C30_return_partial (env : Env) (o o' : Obj) (mode : Mode) (h : (verify env o .ret mode).out = .ok none)
    (ho' : (verify env o .ret mode).obj = o') (hp : py% "protected" ∉ o'.conv.map Prod.fst)
    (hn : ∀ k v, ¬ Spec.IsData o k → Dict.get? o'.attrs k = some v →
      ∃ e, Dict.get? o'.conv k = some e ∧ Spec.HasType e.typ v ∧ Spec.LegalName o'.conv k e) (ih : IH) :
    (verify env o' ih mode).out = .ok none ∧ (verify env o' ih mode).obj = o' := by
  subst ho'
  have key := verify_after_ret h hp hn
  have any := verify_any key.1 ih
  exact ⟨any.1, any.2.trans key.2⟩

/-- the new entry of the example -/
example : (verify exEnv exMissing .ret .write).out = .ok none ∧
    (py% "protected") ∉ (verify exEnv exMissing .ret .write).obj.conv.map Prod.fst ∧
    (∀ k v, ¬ Spec.IsData exMissing k → Dict.get? (verify exEnv exMissing .ret .write).obj.attrs k = some v →
      ∃ e, Dict.get? (verify exEnv exMissing .ret .write).obj.conv k = some e ∧ Spec.HasType e.typ v ∧
        Spec.LegalName (verify exEnv exMissing .ret .write).obj.conv k e) := by
  refine ⟨by decide +kernel, by decide +kernel, ?_⟩
  intro k v hk hv
  have hkeys : k ∈ Dict.keys (verify exEnv exMissing .ret .write).obj.attrs :=
    (Dict.has_iff_mem _ k).1 ((Dict.has_iff _ k).2 ⟨v, hv⟩)
  have hall : ∀ x ∈ Dict.keys (verify exEnv exMissing .ret .write).obj.attrs,
      x ∈ exMissing.attrs.map Prod.fst ∨ x = py% "SourcePosition" := by decide +kernel
  rcases hall k hkeys with h | rfl
  · exact absurd h hk
  · have h1 : Dict.get? (verify exEnv exMissing .ret .write).obj.attrs (py% "SourcePosition") =
        some (.arr (exNums .i [1, 3] [0, 0, 1])) := by decide +kernel
    rw [h1] at hv
    cases hv
    refine ⟨⟨some (py% "m"), some (py% "IC, MC"), py% "double", .list (exNums .i [3] [0, 0, 1]), []⟩, by decide +kernel,
      Or.inr (Or.inl ⟨rfl, by simp [Spec.IsNumeric, exNums]⟩), ⟨fun h => absurd h (by decide), ?_, by decide, by decide, by decide⟩⟩
    intro _ p s hps
    have : '_' ∈ (py% "SourcePosition") := by rw [hps]; simp
    exact absurd this (by decide)

/-- a convention that gives a number as default of a mandatory attribute -/
def exEnvNumber : Env :=
  { exEnv with files := [⟨py% "FIR_1.0.json", exConvention (py% "1.0") ++
      [(py% "GLOBAL:Edition", ⟨some (py% "m"), none, py% "attribute", .val (.num .i (.num (.fin 1))), []⟩)]⟩] }

/-- C30 is false for `issue_handling="return"` if the default value of mandatory data has the wrong type (the type of
data that is added during the call is not checked): the first call reports success, the second call reports errors. -/
theorem C30_refuted : ∃ (env : Env) (o : Obj) (t : Str), (verify env o .ret .write).out = .ok none ∧
    (verify env (verify env o .ret .write).obj .ret .write).out = .ok (some t) := by
  have h : ∃ t, (verify exEnvNumber (verify exEnvNumber exSofa .ret .write).obj .ret .write).out = .ok (some t) := by
    have h1 : (match (verify exEnvNumber (verify exEnvNumber exSofa .ret .write).obj .ret .write).out with
        | .ok (some _) => true | _ => false) = true := by decide +kernel
    generalize (verify exEnvNumber (verify exEnvNumber exSofa .ret .write).obj .ret .write).out = x at h1
    match x, h1 with
    | .ok (some t), _ => exact ⟨t, rfl⟩
  obtain ⟨t, h⟩ := h
  exact ⟨exEnvNumber, exSofa, t, by decide +kernel, h⟩

end Sofar
