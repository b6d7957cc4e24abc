import Verif.Lemmas.Folder
import Verif.Props.Example
import Verif.Props.Files
/-!
# C101: the order in which convention files are found
-/
namespace Sofar

/-- C101: New objects do not depend on the order in which the convention files are found: results, objects and side effects
are the same. Different files of the same convention have different versions, also as numbers. (Missing: otherwise the order
decides about the latest version, see `C101_refuted`.) -/
theorem C101_created_partial (env env' : Env) (h : Spec.Reshuffled env env') (c : Str) (onlyMandatory : Bool)
    (version : VersionArg) (arg : VerifyArg) :
    initSofa env' c onlyMandatory version arg = initSofa env c onlyMandatory version arg := by
  rw [(Reshuffled.sameLoad h).create]

/-- C101: The same holds for all methods that look at the convention of an object. -/
theorem C101_methods_partial (env env' : Env) (h : Spec.Reshuffled env env') (o : Obj) :
    (∀ ih mode, verify env' o ih mode = verify env o ih mode) ∧
    (∀ m opt verbose, addMissing env' o m opt verbose = addMissing env o m opt verbose) ∧
    (∀ d, getDimension env' o d = getDimension env o d) ∧
    listDimensions env' o = listDimensions env o ∧
    (∀ file ih, inspect env' o file ih = inspect env o file ih) ∧
    ∀ target arg, upgradeConvention env' o target arg = upgradeConvention env o target arg := by
  have s := Reshuffled.sameLoad h
  rw [s.verify, s.addMissing, s.getDimension, s.listDimensions, s.inspect, s.upgrade]
  simp

/-- C101: The same holds for reading and writing. -/
theorem C101_files_partial (env env' : Env) (h : Spec.Reshuffled env env') (nc : Nc) (fs : FS) (filename : Str) :
    (∀ o compression, writeSofa env' nc fs filename o compression = writeSofa env nc fs filename o compression) ∧
    ∀ arg verbose, readSofa env' nc fs filename arg verbose = readSofa env nc fs filename arg verbose := by
  have s := Reshuffled.sameLoad h
  rw [s.write, s.read]
  simp

/-- C101: Whole programs give the same objects and the same files. -/
theorem C101_programs_partial (env env' : Env) (h : Spec.Reshuffled env env') (nc : Nc) (s : Machine) (prog : List Stmt) :
    exec env' nc s prog = exec env nc s prog := by
  rw [(Reshuffled.sameLoad h).exec]

/-- C101: `list_conventions` prints the same lines, in the order of the files. -/
theorem C101_listed_partial (env env' : Env) (h : Spec.Reshuffled env env') :
    ∃ lines lines' : List Str, listConventions env = .ok [.print (py% "Available SOFA conventions:\n" ++ lines.flatten)] ∧
      listConventions env' = .ok [.print (py% "Available SOFA conventions:\n" ++ lines'.flatten)] ∧ lines'.Perm lines ∧
      ∀ line, line ∈ lines ↔ ∃ f ∈ env.files, ∃ n w, Spec.FileOf f.base n w ∧
        line = n ++ py% " (Version " ++ w ++ py% ")\n" := by
  have hm : ∀ (l : List ConvFile), (∀ f ∈ l, ∃ n w, Spec.FileOf f.base n w) →
      ∃ r, l.mapM (fun f => nameVersion f.base) = .ok r ∧
        ∀ p, p ∈ r ↔ ∃ f ∈ l, Spec.FileOf f.base p.1 p.2 := by
    intro l hl
    induction l with
    | nil => exact ⟨[], rfl, by simp⟩
    | cons f l ih =>
      obtain ⟨r, hr, hr'⟩ := ih (fun g hg => hl g (by simp [hg]))
      obtain ⟨n, w, hf⟩ := hl f (by simp)
      refine ⟨(n, w) :: r, ?_, ?_⟩
      · rw [List.mapM_cons, nameVersion_of hf, hr]; rfl
      · intro p
        simp only [List.mem_cons, hr', exists_eq_or_imp]
        constructor
        · rintro (rfl | h)
          · exact .inl hf
          · exact .inr h
        · rintro (h | h)
          · left
            have := (nameVersion_of hf).symm.trans (nameVersion_of h)
            simp only [Except.ok.injEq] at this
            rw [this]
          · exact .inr h
  obtain ⟨r, hr, hr1⟩ := hm env.files h.regular
  have hx : ∀ (f : ConvFile) e, nameVersion f.base = .error e → e = .indexError := by
    intro f e he
    unfold nameVersion at he
    split at he
    · cases he
    · cases he; rfl
  rcases mapM_except_perm hx h.files with ⟨h1, _⟩ | ⟨r0, r', h1, h2, hp⟩
  · rw [hr] at h1; cases h1
  · rw [hr] at h1
    cases h1
    refine ⟨r.map conventionLine, r'.map conventionLine, ?_, ?_, hp.map _, ?_⟩
    · simp only [listConventions, conventionsText, getConventions, hr]
    · simp only [listConventions, conventionsText, getConventions, h2]
    · intro line
      simp only [List.mem_map, hr1]
      constructor
      · rintro ⟨p, ⟨f, hf, hp⟩, rfl⟩
        exact ⟨f, hf, p.1, p.2, hp, rfl⟩
      · rintro ⟨f, hf, n, w, hn, rfl⟩
        exact ⟨(n, w), ⟨f, hf, hn⟩, rfl⟩

/-- the folder of the example in the other order -/
def exShuffled : Env := { exEnv with files := exEnv.files.reverse }

theorem exShuffled_reshuffled : Spec.Reshuffled exEnv exShuffled := by
  refine ⟨rfl, List.reverse_perm _, ?_, ?_⟩
  · intro f hf
    rcases (by simpa [exEnv] using hf : f = _ ∨ f = _) with rfl | rfl
    · exact ⟨py% "FIR", py% "1.0", by decide, by decide, by decide⟩
    · exact ⟨py% "FIR", py% "0.9", by decide, by decide, by decide⟩
  · intro f hf g hg n w w' hw hw' he
    have e1 := fileVersion_of hw
    have e2 := fileVersion_of hw'
    subst e1 e2
    clear hw hw'
    rcases (by simpa [exEnv] using hf : f = _ ∨ f = _) with rfl | rfl <;>
      rcases (by simpa [exEnv] using hg : g = _ ∨ g = _) with rfl | rfl
    · rfl
    · exfalso
      rcases he with he | ⟨q, h1, h2⟩
      · revert he; decide
      · have := h1.trans h2.symm
        revert this; decide +kernel
    · exfalso
      rcases he with he | ⟨q, h1, h2⟩
      · revert he; decide
      · have := h1.trans h2.symm
        revert this; decide +kernel
    · rfl

/-- The folders differ, and objects of both versions are created and written. -/
example : exShuffled.files.map ConvFile.base = [py% "FIR_0.9.json", py% "FIR_1.0.json"] ∧
    (initSofa exShuffled (py% "FIR") false .latest .yes).out.isOk = true ∧
    (writeSofa exShuffled exNc exDisk (py% "a") exSofa 4).out.isOk = true ∧
    (verify exShuffled exSofa .ret .write).out = .ok none := by
  decide +kernel

/-- Two versions that are the same number. -/
def exSameNumber : Env := { exEnv with files := [⟨py% "FIR_1.1.json", exConvention (py% "1.1")⟩,
  ⟨py% "FIR_1.10.json", exConvention (py% "1.10")⟩] }

/-- C101 is false: of the versions 1.1 and 1.10 the first one that is found is the latest one. -/
theorem C101_refuted : ∃ (env env' : Env) (c : Str) (o o' : Obj), env' = { env with files := env'.files } ∧
    env'.files.Perm env.files ∧ (∀ f ∈ env.files, ∃ w, Spec.FileOf f.base c w) ∧
    (env.files.map ConvFile.base).Nodup ∧
    (initSofa env c false .latest .no).out = .ok o ∧ (initSofa env' c false .latest .no).out = .ok o' ∧
    o.getAttr (py% "GLOBAL_SOFAConventionsVersion") = .ok (.str (py% "1.1")) ∧
    o'.getAttr (py% "GLOBAL_SOFAConventionsVersion") = .ok (.str (py% "1.10")) := by
  have get : ∀ (x : Except Exc Obj) (v : Str),
      (match x with | .ok o => decide (o.getAttr (py% "GLOBAL_SOFAConventionsVersion") = .ok (.str v)) | .error _ => false) = true →
      ∃ o, x = .ok o ∧ o.getAttr (py% "GLOBAL_SOFAConventionsVersion") = .ok (.str v) := by
    intro x v h
    cases x with
    | error e => simp at h
    | ok o => exact ⟨o, rfl, by simpa using h⟩
  obtain ⟨o, h1, h2⟩ := get (initSofa exSameNumber (py% "FIR") false .latest .no).out (py% "1.1") (by decide +kernel)
  obtain ⟨o', h3, h4⟩ := get (initSofa { exSameNumber with files := exSameNumber.files.reverse } (py% "FIR") false .latest .no).out
    (py% "1.10") (by decide +kernel)
  refine ⟨exSameNumber, { exSameNumber with files := exSameNumber.files.reverse }, py% "FIR", o, o', rfl,
    List.reverse_perm _, ?_, by decide, h1, h3, h2, h4⟩
  intro f hf
  rcases (by simpa [exSameNumber] using hf : f = _ ∨ f = _) with rfl | rfl
  · exact ⟨py% "1.1", by decide, by decide, by decide⟩
  · exact ⟨py% "1.10", by decide, by decide, by decide⟩

end Sofar
