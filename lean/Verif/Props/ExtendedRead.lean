import Verif.Lemmas.ExtendedRead
import Verif.Props.Extended
import Verif.Props.Files
/-!
# C96: files can be read after conventions are extended
-/
namespace Sofar

/-- C96: If optional rows with new names are added to conventions, every file that could be read before can still be read and
gives the same data and custom data, also if the new objects of the extended conventions hold the new data. The file does not
contain the new names, and it has to be possible to create objects of the extended conventions. -/
theorem C96_read (new : List Str) (env env' : Env) (h : Spec.Extended new env env')
    (hp : ∀ f ∈ env'.files, ∀ key e, (key, e) ∈ f.content → Spec.sofarName key ≠ py% "protected")
    (hs : ∀ k ∈ Spec.stampNames, k ∉ new)
    (hc : ∀ c ver a n, (initSofa env c false ver a).out = .ok n → ∃ n', (initSofa env' c false ver a).out = .ok n')
    (nc : Nc) (fs : FS) (name : Str) (arg : VerifyArg) (vb : Bool) (o : Obj)
    (hf : ∀ f, openFile fs name = .ok f → ∀ k, Spec.InFile f k →
      ∀ n ∈ new, Str.replace k (py% "GLOBAL_") [] ≠ Str.replace n (py% "GLOBAL_") [])
    (ho : (readSofa env nc fs name arg vb).out = .ok o) :
    ∃ o', (readSofa env' nc fs name arg vb).out = .ok o' ∧ o'.attrs = o.attrs ∧ o'.custom = o.custom := by
  obtain ⟨o', h1, h2⟩ := Extended.read h hp hs hc hf ho
  exact ⟨o', h1, h2.attrs, h2.custom⟩

/-- creating objects of the extended conventions of the example in every way -/
theorem exExtended_createsAll (c : Str) (ver : VersionArg) (a : VerifyArg) (n : Obj)
    (h : (initSofa exEnv c false ver a).out = .ok n) : ∃ n', (initSofa exExtended c false ver a).out = .ok n' := by
  have same : ∀ ver', loadConvention exExtended c ver = loadConvention exExtended (py% "FIR") ver' →
      initSofa exExtended c false ver a = initSofa exExtended (py% "FIR") false ver' a := by
    intro ver' hl
    unfold initSofa
    rw [hl]
  rcases Extended.load exExtended_extends c ver with ⟨x, hx, _⟩ | ⟨f, f', _, hf', _, _, hl⟩
  · unfold initSofa at h
    simp [hx] at h
  · simp only [exExtended, List.mem_cons, List.not_mem_nil, or_false] at hf'
    rcases hf' with rfl | rfl
    · rw [same (.exact (py% "1.0")) (hl.trans (by decide +kernel))]
      exact exists_of_isOk (by cases a <;> decide +kernel)
    · rw [same (.exact (py% "0.9")) (hl.trans (by decide +kernel))]
      exact exists_of_isOk (by cases a <;> decide +kernel)

/-- the file of the object of the example is read with the extended convention -/
example : ∃ o o', (readSofa exEnv exNc (exWritten exSofa) (py% "a.sofa") .auto true).out = .ok o ∧
    (readSofa exExtended exNc (exWritten exSofa) (py% "a.sofa") .auto true).out = .ok o' ∧ o'.attrs = o.attrs := by
  have h : ∃ o, (readSofa exEnv exNc (exWritten exSofa) (py% "a.sofa") .auto true).out = .ok o :=
    exists_of_isOk (by decide +kernel)
  obtain ⟨o, ho⟩ := h
  obtain ⟨o', h1, h2, _⟩ := C96_read _ _ _ exExtended_extends exExtended_names (by decide +kernel) exExtended_createsAll _ _ _ _ _ o
    (by
      intro f hf
      have : openFile (exWritten exSofa) (py% "a.sofa") = .ok exFile := by decide +kernel
      rw [this] at hf
      cases hf
      have hi : ∃ l, fileItems exNc exFile = .ok l := exists_of_isOk (by decide +kernel)
      obtain ⟨l, hl⟩ := hi
      intro k hk n hn
      have hkl := (fileItems_names hl k).2 hk
      have hall : (fileItems exNc exFile).map (fun l => (l.map (·.name)).all (fun k => exNewNames.all (fun n =>
          Str.replace k (py% "GLOBAL_") [] ≠ Str.replace n (py% "GLOBAL_") []))) = .ok true := by decide +kernel
      rw [hl] at hall
      simp only [Except.map, Except.ok.injEq] at hall
      simpa using List.all_eq_true.1 (List.all_eq_true.1 hall k hkl) n hn) ho
  exact ⟨o, o', ho, h1, h2⟩

end Sofar
