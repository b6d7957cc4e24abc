import Verif.Lemmas.Paths
import Verif.Lemmas.Independent
import Verif.Props.Upgrade
import Verif.Props.Files
/-!
# C81: conventions do not influence each other
-/
namespace Sofar

/-- C81: files of other conventions do not matter for new objects. The result, the object and all side effects are the same.
Missing in this and the following theorems: folders with files that are not named after a convention and version, see
`C81_refuted` and `C81_refuted_prefix`. -/
theorem C81_created_partial (c : Str) (env env' : Env) (h : Spec.SameFor c env env') (onlyMandatory : Bool)
    (version : VersionArg) (arg : VerifyArg) :
    initSofa env' c onlyMandatory version arg = initSofa env c onlyMandatory version arg :=
  initSofa_same h onlyMandatory version arg

/-- C81: files of other conventions do not matter for any method that looks at the convention of an object: results, objects
and side effects are the same. -/
theorem C81_methods_partial (c : Str) (env env' : Env) (h : Spec.SameFor c env env') (o : Obj) (ho : Spec.About c o) :
    (∀ ih mode, verify env' o ih mode = verify env o ih mode) ∧
    (∀ m opt verbose, addMissing env' o m opt verbose = addMissing env o m opt verbose) ∧
    (∀ d, getDimension env' o d = getDimension env o d) ∧
    listDimensions env' o = listDimensions env o ∧
    ∀ file ih, inspect env' o file ih = inspect env o file ih :=
  ⟨verify_same h ho, addMissing_same h ho, getDimension_same h ho, listDimensions_same h ho, inspect_same h ho⟩

/-- C81: files of other conventions do not matter for histories of calls in which the object never names another convention. -/
theorem C81_histories_partial (c : Str) (env env' : Env) (h : Spec.SameFor c env env') (o : Obj) (ops : List Op)
    (ho : ∀ ops', ops' <+: ops → Spec.About c (run env o ops')) : run env' o ops = run env o ops := by
  have key : ∀ (l done : List Op), done ++ l = ops → run env' (run env o done) l = run env (run env o done) l := by
    intro l
    induction l with
    | nil => intro _ _; rfl
    | cons op l ih =>
      intro done hd
      have h1 : step env' (run env o done) op = step env (run env o done) op := step_same h (ho done ⟨_, hd⟩) op
      have h2 := ih (done ++ [op]) (by simpa using hd)
      unfold run at h1 h2 ⊢
      simp only [List.foldl_cons, List.foldl_append, List.foldl_nil] at h1 h2 ⊢
      rw [h1]
      exact h2
  exact key ops [] rfl

/-- C81: files of other conventions do not matter for writing. The resulting disk is the same. -/
theorem C81_written_partial (c : Str) (env env' : Env) (h : Spec.SameFor c env env') (o : Obj) (ho : Spec.About c o) (nc : Nc)
    (fs : FS) (filename : Str) (compression : Nat) :
    writeSofa env' nc fs filename o compression = writeSofa env nc fs filename o compression :=
  writeSofa_same h ho nc fs filename compression

/-- C81: files of other conventions do not matter for reading. -/
theorem C81_read_partial (c : Str) (env env' : Env) (h : Spec.SameFor c env env') (nc : Nc) (fs : FS) (filename : Str)
    (hf : ∀ path f, Spec.FileFor filename path → Dict.get? fs.files path = some (.nc f) → Spec.FileAbout c f)
    (arg : VerifyArg) (verbose : Bool) :
    readSofa env' nc fs filename arg verbose = readSofa env nc fs filename arg verbose := by
  simp only [← withSuffix_iff] at *
  refine readSofa_same h ?_ arg verbose
  intro f ho
  unfold openFile at ho
  split at ho
  · cases ho
  · rename_i path hp
    split at ho
    · cases ho
    · cases ho
    · rename_i g hg
      cases ho
      exact hf path _ hp hg

/-- C81: only the files of the convention and of the target matter for an upgrade, if the rules do not move or remove the name
of the convention. -/
theorem C81_upgraded_partial (c : Str) (env env' : Env) (h : Spec.SameFor c env env') (o : Obj) (ho : Spec.About c o)
    (target : Option Str) (ht : ∀ t n w, target = some t → t = n ++ '_' :: w → Spec.SameFor n env env')
    (hu : ∀ n up i u, Dict.get? env.upgrade n = some up → Dict.get? up.defs i = some u →
      py% "GLOBAL_SOFAConventions" ∉ Spec.mentioned u) (arg : VerifyArg) :
    upgradeConvention env' o target arg = upgradeConvention env o target arg :=
  upgradeConvention_same h ho ht hu arg

/-! ## Examples -/

/-- a folder with another convention, between the files of the convention -/
def exEnvOther (env : Env) : Env :=
  { env with files := env.files.take 1 ++ [⟨py% "TF_2.0.json", exConvention (py% "7")⟩] ++ env.files.drop 1 }

theorem exEnvOther_same : Spec.SameFor (py% "FIR") exEnv (exEnvOther exEnv) := by
  refine ⟨rfl, by decide +kernel, ?_, ?_, by decide +kernel⟩
  · intro f hf
    simp only [exEnv, List.mem_cons, List.not_mem_nil, or_false] at hf
    rcases hf with rfl | rfl
    · exact ⟨py% "FIR", py% "1.0", by unfold Spec.FileOf; decide⟩
    · exact ⟨py% "FIR", py% "0.9", by unfold Spec.FileOf; decide⟩
  · intro f hf
    simp only [exEnvOther, exEnv, List.take_succ_cons, List.take_zero, List.drop_succ_cons, List.drop_zero, List.mem_append,
      List.mem_cons, List.not_mem_nil, or_false] at hf
    rcases hf with (rfl | rfl) | rfl
    · exact ⟨py% "FIR", py% "1.0", by unfold Spec.FileOf; decide⟩
    · exact ⟨py% "TF", py% "2.0", by unfold Spec.FileOf; decide⟩
    · exact ⟨py% "FIR", py% "0.9", by unfold Spec.FileOf; decide⟩

theorem exEnvOther_upgrade : Spec.SameFor (py% "FIR") exEnvUp (exEnvOther exEnvUp) := by
  refine ⟨rfl, by decide +kernel, ?_, ?_, by decide +kernel⟩
  · intro f hf
    simp only [exEnvUp, List.mem_cons, List.not_mem_nil, or_false] at hf
    rcases hf with rfl | rfl
    · exact ⟨py% "FIR", py% "1.0", by unfold Spec.FileOf; decide⟩
    · exact ⟨py% "FIR", py% "0.9", by unfold Spec.FileOf; decide⟩
  · intro f hf
    simp only [exEnvOther, exEnvUp, List.take_succ_cons, List.take_zero, List.drop_succ_cons, List.drop_zero,
      List.mem_append, List.mem_cons, List.not_mem_nil, or_false] at hf
    rcases hf with (rfl | rfl) | rfl
    · exact ⟨py% "FIR", py% "1.0", by unfold Spec.FileOf; decide⟩
    · exact ⟨py% "TF", py% "2.0", by unfold Spec.FileOf; decide⟩
    · exact ⟨py% "FIR", py% "0.9", by unfold Spec.FileOf; decide⟩

theorem about_of_get {c : Str} {o : Obj} (h : Dict.get? o.attrs (py% "GLOBAL_SOFAConventions") = some (.str c)) :
    Spec.About c o := by
  rintro n ⟨w, hw, hn⟩
  rw [h] at hw
  cases hw
  exact (Option.some.inj hn).symm

/-- The object names the convention, also after calls. -/
example : Spec.About (py% "FIR") exSofa ∧ ∀ ops', ops' <+: [Op.set (py% "GLOBAL_Comment") (.val (.str (py% "x"))),
    Op.verify .ret .read] → Spec.About (py% "FIR") (run exEnv exSofa ops') := by
  refine ⟨about_of_get (by decide +kernel), ?_⟩
  intro ops' h
  rw [List.prefix_cons_iff] at h
  rcases h with rfl | ⟨t, rfl, h⟩
  · exact about_of_get (by decide +kernel)
  · rw [List.prefix_cons_iff] at h
    rcases h with rfl | ⟨t', rfl, h⟩
    · exact about_of_get (by decide +kernel)
    · rw [List.prefix_nil] at h
      subst h
      exact about_of_get (by decide +kernel)

/-- The file names the convention and has ordinary variables. -/
example : Spec.FileAbout (py% "FIR") exFile ∧ exFile.vars ≠ [] ∧
    (readSofa exEnv exNc (exWritten exSofa) (py% "a") .auto true).out.isOk = true := by
  refine ⟨⟨?_, by decide +kernel⟩, by decide +kernel, by decide +kernel⟩
  have h : ∀ p ∈ exFile.attrs, p.1 = py% "SOFAConventions" → p.2 = .str (py% "FIR") := by decide +kernel
  intro v hv n hn
  have h1 : v = .str (py% "FIR") := h _ hv rfl
  subst h1
  exact (Option.some.inj hn).symm

/-- An outdated object, its target and the rules meet the hypotheses for upgrades. -/
example : Spec.About (py% "FIR") exOutdated ∧
    (∀ t n w, some (py% "FIR_1.0") = some t → t = n ++ '_' :: w → Spec.SameFor n exEnvUp (exEnvOther exEnvUp)) ∧
    (∀ n up i u, Dict.get? exEnvUp.upgrade n = some up → Dict.get? up.defs i = some u →
      py% "GLOBAL_SOFAConventions" ∉ Spec.mentioned u) := by
  refine ⟨about_of_get (by decide +kernel), ?_, ?_⟩
  · intro t n w h1 h2
    cases h1
    have h3 : (Str.splitChar '_' (py% "FIR_1.0")) = [py% "FIR", py% "1.0"] := by decide
    have h4 : '_' ∉ n := by
      intro hm
      have h5 := congrArg (List.count '_') h2
      have h6 : List.count '_' (py% "FIR_1.0") = 1 := by decide
      have h7 : 0 < List.count '_' n := List.count_pos_iff.2 hm
      rw [h6, List.count_append, List.count_cons_self] at h5
      omega
    rw [h2, splitChar_append h4] at h3
    rw [List.cons.injEq] at h3
    rw [h3.1]
    exact exEnvOther_upgrade
  · have h : ∀ p ∈ exEnvUp.upgrade, ∀ q ∈ p.2.defs, py% "GLOBAL_SOFAConventions" ∉ Spec.mentioned q.2 := by decide +kernel
    intro n up i u h1 h2
    exact h _ (Dict.mem_of_get? h1) _ (Dict.mem_of_get? h2)

/-! ## Refutations -/

/-- a folder with a file that is not named after a convention -/
def exEnvNotes : Env := { exEnv with files := exEnv.files ++ [⟨py% "notes.json", []⟩] }

/-- C81 is false for files that are not named after a convention and version: one such file, without underscore in its name,
and no object of any convention can be verified. -/
theorem C81_refuted : exEnvNotes = { exEnv with files := exEnvNotes.files } ∧
    Spec.filesOf exEnvNotes (py% "FIR") = Spec.filesOf exEnv (py% "FIR") ∧ Spec.About (py% "FIR") exSofa ∧
    (verify exEnv exSofa .raise .read).out = .ok none ∧
    (verify exEnvNotes exSofa .raise .read).out = .error .indexError ∧
    (initSofa exEnvNotes (py% "FIR") false .latest .auto).out.isOk = false := by
  refine ⟨rfl, by decide +kernel, about_of_get (by decide +kernel), by decide +kernel, by decide +kernel, by decide +kernel⟩

/-- any folder with a file without underscore in its name: no object can be verified -/
theorem C81_no_object_verified (env : Env) (f : ConvFile) (hf : f ∈ env.files) (hu : '_' ∉ f.base) (o : Obj) (ih : IH)
    (mode : Mode) : ∀ r, (verify env o ih mode).out ≠ .ok r := by
  have h1 : ∀ l : List ConvFile, f ∈ l → ∃ x, l.mapM (fun f => nameVersion f.base) = .error x := by
    intro l
    induction l with
    | nil => intro h; cases h
    | cons g l ih =>
      intro h
      rw [List.mapM_cons]
      rcases List.mem_cons.1 h with rfl | h
      · refine ⟨.indexError, ?_⟩
        have : nameVersion f.base = .error .indexError := by
          unfold nameVersion
          rw [splitChar_not_mem hu]
        rw [this]
        rfl
      · obtain ⟨x, hx⟩ := ih h
        rw [hx]
        cases nameVersion g.base with
        | error y => exact ⟨y, rfl⟩
        | ok y => exact ⟨x, rfl⟩
  obtain ⟨x, hx⟩ := h1 _ hf
  have h2 : ∀ o1, resetConvention env o ≠ .ok o1 := by
    intro o1 h
    unfold resetConvention verifyConvention getConventions at h
    simp only [hx] at h
    repeat' split at h
    all_goals cases h
  intro r hr
  unfold verify verifyG at hr
  cases h3 : resetConvention env o with
  | error e => simp [h3] at hr
  | ok o1 => exact h2 o1 h3

example : ∃ f ∈ exEnvNotes.files, '_' ∉ f.base := ⟨⟨py% "notes.json", []⟩, by simp [exEnvNotes], by decide⟩

/-- a folder with a convention whose name starts with the name of another convention -/
def exEnvPrefix : Env :=
  { exEnv with files := exEnv.files ++ [⟨py% "FIR_E_2.0.json", exConvention (py% "2.0")⟩] }

/-- C81 is false for names of conventions with underscores: after adding version 2.0 of the convention `FIR_E`, it is
what is created for the name `FIR`. -/
theorem C81_refuted_prefix : (∃ f ∈ exEnvPrefix.files, f ∉ exEnv.files) ∧
    (∀ f ∈ exEnvPrefix.files, f ∉ exEnv.files → ¬ ∃ w, Spec.FileOf f.base (py% "FIR") w) ∧
    (∃ o, (initSofa exEnv (py% "FIR") false .latest .no).out = .ok o ∧
      Dict.get? o.attrs (py% "GLOBAL_SOFAConventionsVersion") = some (.str (py% "1.0"))) ∧
    ∃ o, (initSofa exEnvPrefix (py% "FIR") false .latest .no).out = .ok o ∧
      Dict.get? o.attrs (py% "GLOBAL_SOFAConventionsVersion") = some (.str (py% "2.0")) := by
  refine ⟨⟨⟨py% "FIR_E_2.0.json", exConvention (py% "2.0")⟩, by simp [exEnvPrefix], by decide +kernel⟩, ?_, ?_, ?_⟩
  · intro f hf hn
    simp only [exEnvPrefix, List.mem_append, List.mem_singleton] at hf
    rcases hf with hf | rfl
    · exact absurd hf hn
    · rintro ⟨w, h1, _, h2⟩
      have h3 := congrArg (List.drop 4) h1
      have h4 : '_' ∈ w ++ py% ".json" := by
        have : w ++ py% ".json" = py% "E_2.0.json" := by simpa using h3.symm
        rw [this]
        decide
      rcases List.mem_append.1 h4 with h4 | h4
      · exact h2 h4
      · exact absurd h4 (by decide)
  · cases h : (initSofa exEnv (py% "FIR") false .latest .no).out with
    | error e =>
      have : (initSofa exEnv (py% "FIR") false .latest .no).out.isOk = true := by decide +kernel
      rw [h] at this; cases this
    | ok o =>
      refine ⟨o, rfl, ?_⟩
      have : (match (initSofa exEnv (py% "FIR") false .latest .no).out with
        | .ok o => Dict.get? o.attrs (py% "GLOBAL_SOFAConventionsVersion") | .error _ => none) = some (.str (py% "1.0")) := by
        decide +kernel
      rw [h] at this; exact this
  · cases h : (initSofa exEnvPrefix (py% "FIR") false .latest .no).out with
    | error e =>
      have : (initSofa exEnvPrefix (py% "FIR") false .latest .no).out.isOk = true := by decide +kernel
      rw [h] at this; cases this
    | ok o =>
      refine ⟨o, rfl, ?_⟩
      have : (match (initSofa exEnvPrefix (py% "FIR") false .latest .no).out with
        | .ok o => Dict.get? o.attrs (py% "GLOBAL_SOFAConventionsVersion") | .error _ => none) = some (.str (py% "2.0")) := by
        decide +kernel
      rw [h] at this; exact this

end Sofar
