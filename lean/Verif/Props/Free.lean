import Verif.Lemmas.FreeRead
import Verif.Props.Init
import Verif.Props.Files
/-!
# C90: free texts and the time of creation do not matter
-/
namespace Sofar

/-- check of free texts -/
def freeTextB (env : Env) (k : Str) : Bool :=
  (env.files.all fun f => f.content.all fun p =>
    ! (decide (Spec.sofarName p.1 = k)) || (decide (p.2.typ = py% "attribute") && decide (p.2.dims = none))) &&
  (env.rules.all fun p => decide (Spec.sofarName p.1 ≠ k) && (match p.2.specific with
    | none => true
    | some sp => sp.all fun q => q.2.all fun i => match i with
      | .dep key' (some _) => decide (Spec.sofarName key' ≠ k)
      | _ => true)) &&
  ! Str.endsWith k (py% "Units") && decide (k ≠ py% "GLOBAL_SOFAConventions") &&
  decide (k ≠ py% "GLOBAL_SOFAConventionsVersion")

theorem freeTextB_sound {env : Env} {k : Str} (h : freeTextB env k = true) : Spec.FreeText env k := by
  unfold freeTextB at h
  simp only [Bool.and_eq_true, List.all_eq_true, Bool.or_eq_true, Bool.not_eq_true', decide_eq_false_iff_not,
    decide_eq_true_eq] at h
  obtain ⟨⟨⟨⟨h1, h2⟩, h3⟩, h4⟩, h5⟩ := h
  refine ⟨fun f hf key e hm hk => ?_, ⟨fun key rule hm => (h2 _ hm).1, ?_⟩, fun hs => ?_, h4, h5⟩
  · rcases h1 f hf _ hm with h6 | h6
    · exact absurd hk h6
    · exact h6
  · intro key rule sp t items key' ref hm hsp hg hi
    have h6 := (h2 _ hm).2
    simp only [hsp, List.all_eq_true] at h6
    simpa using h6 _ (Dict.mem_of_get? hg) _ hi
  · unfold Str.endsWith at h3
    rw [List.isSuffixOf_iff_suffix.2 hs] at h3
    simp at h3

/-- C90: Replacing the text of an attribute by another text changes neither the outcome of the verification, its warnings and
printed texts, nor the sizes of the dimensions: provided that the attribute is no unit and no rule looks at it. -/
theorem C90_text (env : Env) (o : Obj) (k s s' : Str) (hk : Spec.FreeText env k)
    (hcu : ∀ c e, o.custom = some c → (k, e) ∈ c → e.typ = py% "attribute" ∧ e.dims = none)
    (hs : Dict.get? o.attrs k = some (.str s)) (h : (setAttr o k (.val (.str s'))).out = .ok ()) :
    (∀ ih mode, (verify env (setAttr o k (.val (.str s'))).obj ih mode).out = (verify env o ih mode).out ∧
      (verify env (setAttr o k (.val (.str s'))).obj ih mode).ev = (verify env o ih mode).ev) ∧
    ∀ d, (getDimension env (setAttr o k (.val (.str s'))).obj d).out = (getDimension env o d).out := by
  have hF : ∀ j, j = k → Spec.FreeText env j := fun j hj => hj ▸ hk
  have hc : ∀ o1, resetConvention env o = .ok o1 → FreeConv (· = k) o1.conv :=
    fun o1 h1 => freeConv_reset hF (fun c j e h2 h3 hj => by subst hj; exact hcu c e h2 h3) h1
  have hfree : Free (· = k) o (setAttr o k (.val (.str s'))).obj := by
    rcases setAttr_cases o k (.val (.str s')) with ⟨e, he, _⟩ | ⟨b, hb, _⟩ | ⟨w, hw, _, _, _, h5, _⟩
    · rw [h] at he; simp at he
    · simp at hb
    · rw [h5]
      obtain rfl : Val.str s' = w := by simpa [normalise] using hw
      refine ⟨?_, ?_, ?_, rfl, rfl, rfl, rfl, rfl, rfl⟩
      · have hm : k ∈ Dict.keys o.attrs := (Dict.has_iff_mem _ _).1 ((Dict.has_iff _ _).2 ⟨_, hs⟩)
        simp [Dict.keys_put, hm]
      · intro j hj
        exact Dict.get?_put_ne _ _ hj
      · rintro j rfl
        exact Or.inr ⟨s, s', hs, Dict.get?_put_self _ _ _⟩
  refine ⟨fun ih mode => ?_, fun d => ?_⟩
  · obtain ⟨h1, h2, _⟩ := hfree.verify (freeIn_of hF) hc ih mode
    exact ⟨h1, h2⟩
  · exact (hfree.getDimension (freeIn_of hF) hc d).1

/-- another comment in the example; the data type is subject to a rule, and the units are units -/
example : Spec.FreeText exEnv (py% "GLOBAL_Comment") ∧ exSofa.custom = none ∧
    Dict.get? exSofa.attrs (py% "GLOBAL_Comment") = some (.str []) ∧
    (setAttr exSofa (py% "GLOBAL_Comment") (.val (.str (py% "new text")))).out = .ok () ∧
    (setAttr exSofa (py% "GLOBAL_Comment") (.val (.str (py% "new text")))).obj.attrs ≠ exSofa.attrs ∧
    (verify exEnv exSofa .raise .write).out = .ok none ∧
    ¬ Spec.FreeText exEnv (py% "SourcePosition_Units") ∧
    (verify exEnv (setAttr exSofa (py% "SourcePosition_Units") (.val (.str (py% "new text")))).obj .raise .write).out ≠
      .ok none := by
  refine ⟨freeTextB_sound (by decide +kernel), by decide +kernel, by decide +kernel, by decide +kernel, by decide +kernel,
    by decide +kernel, fun h => h.unit ?_, by decide +kernel⟩
  exact List.isSuffixOf_iff_suffix.1 (by decide +kernel)

/-- C90: Objects that are created at different times differ in their dates only: the constructor fails with the same error or
succeeds with the same warnings, and the objects agree in all other data. -/
theorem C90_time (env : Env) (t : Str) (hd : ∀ k ∈ Spec.dateNames, Spec.FreeText env k) (c : Str) (m : Bool)
    (ver : VersionArg) (a : VerifyArg) :
    (initSofa { env with now := t } c m ver a).ev = (initSofa env c m ver a).ev ∧
    ((∃ x, (initSofa env c m ver a).out = .error x ∧ (initSofa { env with now := t } c m ver a).out = .error x) ∨
      ∃ o o', (initSofa env c m ver a).out = .ok o ∧ (initSofa { env with now := t } c m ver a).out = .ok o' ∧
        Spec.SameButDates env.now t o o') := by
  obtain ⟨h1, h2 | h2⟩ := initSofa_time (env := env) hd t c m ver a
  · exact ⟨h1, Or.inl h2⟩
  · obtain ⟨o, o', h3, h4, h5⟩ := h2
    exact ⟨h1, Or.inr ⟨o, o', h3, h4, h5.keys, fun k hk => h5.same k hk,
      fun k hk => ⟨initSofa_dates h3 k hk, initSofa_dates h4 k hk⟩, h5.conv, h5.custom, h5.dims, h5.api, h5.readOnly, h5.prot⟩⟩

/-- the dates of the example; the object of the next day is another one -/
example : (∀ k ∈ Spec.dateNames, Spec.FreeText exEnv k) ∧ (initSofa exEnv (py% "FIR") false .latest .auto).out = .ok exSofa ∧
    (initSofa { exEnv with now := py% "2026-01-02 00:00:00" } (py% "FIR") false .latest .auto).out ≠ .ok exSofa := by
  refine ⟨?_, by decide +kernel, by decide +kernel⟩
  intro k hk
  simp only [Spec.dateNames, List.mem_cons, List.not_mem_nil, or_false] at hk
  rcases hk with rfl | rfl <;> exact freeTextB_sound (by decide +kernel)

/-- C90: Whether an object is valid does not depend on the time of the verification, although the verification creates a new
object with the current date. -/
theorem C90_verify_time (env : Env) (t : Str) (hd : ∀ k ∈ Spec.dateNames, Spec.FreeText env k) (o : Obj) (ih : IH)
    (mode : Mode) : verify { env with now := t } o ih mode = verify env o ih mode :=
  verify_time hd t o ih mode

/-- an object with custom data, for which the verification does create a new object -/
example : (∀ k ∈ Spec.dateNames, Spec.FreeText exEnv k) ∧
    (addAttribute exSofa (py% "GLOBAL_Note") (.val (.str (py% "text")))).obj.custom ≠ none ∧
    (verify { exEnv with now := py% "2026-01-02 00:00:00" }
      (addAttribute exSofa (py% "GLOBAL_Note") (.val (.str (py% "text")))).obj .raise .write).out = .ok none := by
  have hd : ∀ k ∈ Spec.dateNames, Spec.FreeText exEnv k := by
    intro k hk
    simp only [Spec.dateNames, List.mem_cons, List.not_mem_nil, or_false] at hk
    rcases hk with rfl | rfl <;> exact freeTextB_sound (by decide +kernel)
  refine ⟨hd, by decide +kernel, ?_⟩
  rw [C90_verify_time exEnv _ hd]
  decide +kernel

/-- C90: Reading a file gives the same object, the same error and the same warnings at any time, although reading starts with
a new object: no date of the new object is left, also if the file has no dates. -/
theorem C90_read (env : Env) (t : Str) (hd : ∀ k ∈ Spec.dateNames, Spec.FreeText env k) (nc : Nc) (fs : FS) (filename : Str)
    (arg : VerifyArg) (verbose : Bool) :
    readSofa { env with now := t } nc fs filename arg verbose = readSofa env nc fs filename arg verbose :=
  readSofa_time hd t nc fs filename arg verbose

/-- an object that is read at another time -/
example : (∀ k ∈ Spec.dateNames, Spec.FreeText exEnv k) ∧
    (match (readSofa { exEnv with now := py% "2026-01-02 00:00:00" } exNc (exWritten exSofa) (py% "a.sofa") .auto true).out with
    | .ok o => Dict.get? o.attrs (py% "GLOBAL_DateCreated")
    | .error _ => none) = some (.str (py% "2026-01-01 00:00:00")) := by
  refine ⟨?_, by decide +kernel⟩
  intro k hk
  simp only [Spec.dateNames, List.mem_cons, List.not_mem_nil, or_false] at hk
  rcases hk with rfl | rfl <;> exact freeTextB_sound (by decide +kernel)

/-- C90: Writing gives the same file at any time; in particular `GLOBAL_DateModified` is the date of the object, not the date of
writing. -/
theorem C90_write (env : Env) (t : Str) (hd : ∀ k ∈ Spec.dateNames, Spec.FreeText env k) (nc : Nc) (fs : FS) (filename : Str)
    (o : Obj) (compression : Nat) :
    writeSofa { env with now := t } nc fs filename o compression = writeSofa env nc fs filename o compression :=
  writeSofa_time hd t nc fs filename o compression

/-- the example is written on the next day -/
example : (∀ k ∈ Spec.dateNames, Spec.FreeText exEnv k) ∧
    (match Dict.get? (writeSofa { exEnv with now := py% "2026-01-02 00:00:00" } exNc exDisk (py% "a") exSofa 4).fs.files
      (py% "a.sofa") with
    | some (.nc f) => Dict.get? f.attrs (py% "DateModified")
    | _ => none) = some (.str (py% "2026-01-01 00:00:00")) := by
  refine ⟨?_, by decide +kernel⟩
  intro k hk
  simp only [Spec.dateNames, List.mem_cons, List.not_mem_nil, or_false] at hk
  rcases hk with rfl | rfl <;> exact freeTextB_sound (by decide +kernel)

end Sofar
