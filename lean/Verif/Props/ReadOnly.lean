import Verif.Lemmas.Paths
import Verif.Lemmas.ReadOnly
import Verif.Props.Files
import Verif.Props.Upgrade
/-!
# C80: which data can be assigned
-/
namespace Sofar

/-- C80 for new objects: after any sequence of public calls, an object that is protected refuses assignments to exactly
the data that is flagged read only in the file from which the object was created. Missing for the full claim: files
with a single read only entry (`C80_refuted_single`), and the flags of the file to which an object was upgraded
(`C80_refuted`). -/
theorem C80_created_partial (env : Env) (c : Str) (m : Bool) (ver : VersionArg) (a : VerifyArg) (o o' : Obj)
    (conv : Dict Entry) (h : (initSofa env c m ver a).out = .ok o) (hl : loadConvention env c ver = .ok conv)
    (hs : Spec.NotSingle conv) (hlater : Spec.Later env o o') (hp : o'.prot = true) (k : Str) (hk : Spec.IsData o' k)
    (hname : Spec.DataName k) : Spec.Guards o' k (Spec.ReadOnlyIn conv k) :=
  guards_of_list ((Later.readOnly hlater).trans (initSofa_readOnly h hl)) (loadConvention_nodup hl) hs hp hk hname

/-- C80 for objects that were read: the file on disk names the convention and version that decide. -/
theorem C80_read_partial (env : Env) (nc : Nc) (fs : FS) (filename : Str) (arg : VerifyArg) (verbose : Bool) (o o' : Obj)
    (h : (readSofa env nc fs filename arg verbose).out = .ok o)
    (hlater : Spec.Later env o o') (hp : o'.prot = true) :
    ∃ path f c v cw vw conv, Spec.FileFor filename path ∧ Dict.get? fs.files path = some (.nc f) ∧
      Dict.get? f.attrs (py% "SOFAConventions") = some cw ∧ Spec.text cw = some c ∧
      Dict.get? f.attrs (py% "SOFAConventionsVersion") = some vw ∧ Spec.text vw = some v ∧
      loadConvention env c (.exact v) = .ok conv ∧
      (Spec.NotSingle conv → ∀ k, Spec.IsData o' k → Spec.DataName k → Spec.Guards o' k (Spec.ReadOnlyIn conv k)) := by
  simp only [← withSuffix_iff] at *
  obtain ⟨path, f, c, v, new, o0, r⟩ := readSofa_ok h
  obtain ⟨cw, hc1, hc2⟩ := r.conv
  obtain ⟨vw, hv1, hv2⟩ := r.version
  obtain ⟨conv, _, hl, _⟩ := initSofa_ok r.created
  refine ⟨path, f, c, v, cw, vw, conv, r.loc, r.file, hc1, hc2, hv1, hv2, hl, fun hs k hk hname => ?_⟩
  have h1 : o.readOnly = o0.readOnly := by
    rcases r.verified with h1 | ⟨_, _, h1⟩
    · rw [h1]
    · rw [← h1]; exact verify_readOnly ..
  exact guards_of_list ((Later.readOnly hlater).trans (h1.trans ((loadFile_readOnly r.load).trans
    (initSofa_readOnly r.created hl)))) (loadConvention_nodup hl) hs hp hk hname

/-- the flags of the example -/
theorem exConvention_several : Spec.NotSingle (convertKeys (exConvention (py% "1.0"))) := by
  have h : ∀ k, k = py% "GLOBAL_Conventions" ∨ k = py% "GLOBAL_DataType" →
      Spec.ReadOnlyIn (convertKeys (exConvention (py% "1.0"))) k := by
    rintro k (rfl | rfl)
    · exact ⟨exAttr (py% "rm") (py% "SOFA"), py% "rm", by decide +kernel, rfl, by decide⟩
    · exact ⟨exAttr (py% "rm") (py% "FIR"), py% "rm", by decide +kernel, rfl, by decide⟩
  intro k _
  by_cases hk : k = py% "GLOBAL_Conventions"
  · exact ⟨py% "GLOBAL_DataType", by rw [hk]; decide, h _ (Or.inr rfl)⟩
  · exact ⟨py% "GLOBAL_Conventions", fun h => hk h.symm, h _ (Or.inl rfl)⟩

/-- a new object to which data was added -/
def exUsed : Obj := run exEnv exSofa [.addAttribute (py% "GLOBAL_Room") (.val (.str (py% "lab"))), .verify .raise .write]

/-- `C80_created_partial` applies: the data type is read only, the comment and the added attribute are not -/
example : Spec.Guards exUsed (py% "GLOBAL_DataType") True ∧ Spec.Guards exUsed (py% "GLOBAL_Room") False := by
  have hlater : Spec.Later exEnv exSofa exUsed := 
    .call (.verify .raise .write) (.call (.addAttribute (py% "GLOBAL_Room") (.val (.str (py% "lab")))) .start)
  have key := fun k => C80_created_partial exEnv (py% "FIR") false .latest .auto exSofa exUsed
    (convertKeys (exConvention (py% "1.0"))) (by decide +kernel) (by decide +kernel) exConvention_several hlater
    (by decide +kernel) k
  constructor
  · have h := key (py% "GLOBAL_DataType") (by unfold Spec.IsData; decide +kernel) ⟨by decide +kernel, by decide, by decide⟩
    have hr : Spec.ReadOnlyIn (convertKeys (exConvention (py% "1.0"))) (py% "GLOBAL_DataType") :=
      ⟨exAttr (py% "rm") (py% "FIR"), py% "rm", by decide +kernel, rfl, by decide⟩
    exact ⟨fun _ => h.1 hr, fun hf => absurd trivial hf⟩
  · have h := key (py% "GLOBAL_Room") (by unfold Spec.IsData; decide +kernel) ⟨by decide +kernel, by decide, by decide⟩
    refine ⟨fun hf => absurd hf id, fun _ => h.2 ?_⟩
    rintro ⟨e, f, h1, _⟩
    rw [show Dict.get? (convertKeys (exConvention (py% "1.0"))) (py% "GLOBAL_Room") = none by decide +kernel] at h1
    cases h1

/-- the example after writing and reading -/
def exReadBack : Obj :=
  match (readSofa exEnv exNc (exWritten exSofa) (py% "a") .no true).out with
  | .ok o => o
  | .error _ => emptyObj []

/-- `C80_read_partial` applies to the file of the example: the data type can not be assigned, the comment can -/
example : Spec.Guards exReadBack (py% "GLOBAL_DataType") True ∧ Spec.Guards exReadBack (py% "GLOBAL_Comment") False := by
  have h : (readSofa exEnv exNc (exWritten exSofa) (py% "a") .no true).out = .ok exReadBack := by decide +kernel
  obtain ⟨path, f, c, v, cw, vw, conv, h1, h2, h3, h4, h5, h6, h7, h8⟩ :=
    C80_read_partial exEnv exNc _ (py% "a") .no true _ _ h .start (by decide +kernel)
  have e1 : path = py% "a.sofa" := by
    rw [← withSuffix_iff, show withSuffix (py% "a") = .ok (py% "a.sofa") by decide] at h1
    cases h1; rfl
  subst e1
  have e2 : f = exFile := by
    rw [show Dict.get? (exWritten exSofa).files (py% "a.sofa") = some (.nc exFile) by decide +kernel] at h2
    cases h2; rfl
  subst e2
  rw [show Dict.get? exFile.attrs (py% "SOFAConventions") = some (.str (py% "FIR")) by decide +kernel] at h3
  rw [show Dict.get? exFile.attrs (py% "SOFAConventionsVersion") = some (.str (py% "1.0")) by decide +kernel] at h5
  cases h3
  cases h5
  cases h4
  cases h6
  rw [show loadConvention exEnv (py% "FIR") (.exact (py% "1.0")) = .ok (convertKeys (exConvention (py% "1.0"))) by
    decide +kernel] at h7
  cases h7
  have key := h8 exConvention_several
  constructor
  · refine ⟨fun _ => (key _ (by unfold Spec.IsData; decide +kernel) ⟨by decide +kernel, by decide, by decide⟩).1
      ⟨exAttr (py% "rm") (py% "FIR"), py% "rm", by decide +kernel, rfl, by decide⟩, fun hf => absurd trivial hf⟩
  · refine ⟨fun hf => absurd hf id, fun _ =>
      (key _ (by unfold Spec.IsData; decide +kernel) ⟨by decide +kernel, by decide, by decide⟩).2 ?_⟩
    rintro ⟨e, f, h1, h2, _⟩
    rw [show Dict.get? (convertKeys (exConvention (py% "1.0"))) (py% "GLOBAL_Comment") =
      some ⟨none, none, py% "attribute", .val (.str []), []⟩ by decide +kernel] at h1
    cases h1
    cases h2

/-- version 1.0 adds read only data -/
def exEnvGuard : Env :=
  { exEnvUp with
    files := [⟨py% "FIR_1.0.json", exUpConvention (py% "1.0") ++ [(py% "GLOBAL:License", exAttr (py% "rm") (py% "none"))]⟩,
              ⟨py% "FIR_0.9.json", exUpConvention (py% "0.9") ++
                [(py% "Old", ⟨none, some (py% "RS"), py% "double", .list (exNums .i [2, 3] [1, 2, 3, 4, 5, 6]), []⟩)]⟩] }

/-- C80 is false after an upgrade: the list of read only names is still that of the old convention, so that read only
data of the new convention can be changed although the object is protected. -/
theorem C80_refuted : ∃ (env : Env) (o o' : Obj) (c v t k : Str) (w : Val),
    (initSofa env c false (.exact v) .no).out = .ok o ∧
    (upgradeConvention env o (some t) .no).out = .ok none ∧ o' = (upgradeConvention env o (some t) .no).obj ∧
    o'.prot = true ∧ Spec.IsData o' k ∧ Spec.ReadOnlyIn o'.conv k ∧
    (setAttr o' k (.val w)).out = .ok () ∧ Dict.get? o'.attrs k ≠ some w ∧
    Dict.get? (setAttr o' k (.val w)).obj.attrs k = some w :=
  ⟨exEnvGuard, exOutdated, (upgradeConvention exEnvGuard exOutdated (some (py% "FIR_1.0")) .no).obj, py% "FIR", py% "0.9",
    py% "FIR_1.0", py% "GLOBAL_License", .str (py% "x"), by decide +kernel, by decide +kernel, rfl, by decide +kernel,
    by unfold Spec.IsData; decide +kernel, ⟨exAttr (py% "rm") (py% "none"), py% "rm", by decide +kernel, rfl, by decide⟩,
    by decide +kernel, by decide +kernel, by decide +kernel⟩

/-- a convention with a single read only entry -/
def exEnvSingle : Env :=
  { exEnv with
    files := [⟨py% "FIR_1.0.json", [(py% "GLOBAL:SOFAConventions", exAttr (py% "m") (py% "FIR")),
      (py% "GLOBAL:SOFAConventionsVersion", exAttr (py% "rm") (py% "1.0"))]⟩] }

/-- an object of this convention -/
def exSingle : Obj :=
  match (initSofa exEnvSingle (py% "FIR") false .latest .no).out with
  | .ok o => o
  | .error _ => emptyObj []

/-- C80 is false for conventions with a single read only entry: all data whose name is part of the name of this entry
can not be assigned either. -/
theorem C80_refuted_single : ∃ (env : Env) (c k : Str) (o : Obj) (conv : Dict Entry) (x : Inp) (m : Str),
    (initSofa env c false .latest .no).out = .ok o ∧ loadConvention env c .latest = .ok conv ∧ o.prot = true ∧
    Spec.IsData o k ∧ ¬ Spec.ReadOnlyIn conv k ∧ (setAttr o k x).out = .error (.typeError m) := by
  refine ⟨exEnvSingle, py% "FIR", py% "GLOBAL_SOFAConventions", exSingle,
    [(py% "GLOBAL_SOFAConventions", exAttr (py% "m") (py% "FIR")),
      (py% "GLOBAL_SOFAConventionsVersion", exAttr (py% "rm") (py% "1.0"))], .val (.str (py% "FIR")),
    py% "GLOBAL_SOFAConventions is a read only attribute.", by decide +kernel, by decide +kernel, by decide +kernel,
    by unfold Spec.IsData; decide +kernel, ?_, by decide +kernel⟩
  rintro ⟨e, f, h1, h2, h3⟩
  rw [show Dict.get? [(py% "GLOBAL_SOFAConventions", exAttr (py% "m") (py% "FIR")),
      (py% "GLOBAL_SOFAConventionsVersion", exAttr (py% "rm") (py% "1.0"))] (py% "GLOBAL_SOFAConventions") =
    some (exAttr (py% "m") (py% "FIR")) by decide +kernel] at h1
  cases h1
  simp only [exAttr, Option.some.injEq] at h2
  subst h2
  exact absurd h3 (by decide)

end Sofar
