import Verif.Lemmas.WriteOrder
import Verif.Props.FileOrder
/-!
# C98: the order of the data when files are written
-/
namespace Sofar

/-- C98: If an object can be written, then every object with the same data and custom data in another order can be written as
well. Both calls replace the same file, and the two files have the same dimensions with the same sizes and the same content.
No two variables define different sizes of the same dimension. (Missing: without this condition the claim is false, see
`C98_refuted`. Custom variables named like methods are excluded.) -/
theorem C98_write_partial (env : Env) (nc : Nc) (fs : FS) (name : Str) (o o' : Obj) (c : Nat) (h : Spec.Reordered o o')
    (hs : ∀ o1, resetConvention env o = .ok o1 → Spec.AgreeOnSizes o1 ∧ Spec.CustomNoMethod o1)
    (hw : (writeSofa env nc fs name o c).out = .ok ()) :
    (writeSofa env nc fs name o' c).out = .ok () ∧ ∃ path f f', withSuffix name = .ok path ∧
      (writeSofa env nc fs name o c).fs = { fs with files := Dict.put fs.files path (.nc f) } ∧
      (writeSofa env nc fs name o' c).fs = { fs with files := Dict.put fs.files path (.nc f') } ∧
      Spec.SameContent f f' ∧ ∀ d, Dict.get? f'.dims d = Dict.get? f.dims d :=
  writeSofa_reordered h hs hw

/-- C98: Reading the two files gives the same data and custom data, too. The names of the data in the file have to differ in
sofar, and the dimensions are named by letters. -/
theorem C98_trip_partial (env : Env) (nc : Nc) (fs : FS) (name : Str) (o o' : Obj) (c : Nat) (h : Spec.Reordered o o')
    (hs : ∀ o1, resetConvention env o = .ok o1 → Spec.AgreeOnSizes o1 ∧ Spec.CustomNoMethod o1)
    (hw : (writeSofa env nc fs name o c).out = .ok ())
    (hf : ∀ f, openFile (writeSofa env nc fs name o c).fs name = .ok f → (Spec.namesInFile f).Nodup ∧ Spec.LetterDimensions f)
    (hp : ∀ t ∈ env.files, ∀ key e, (key, e) ∈ t.content → Spec.sofarName key ≠ py% "protected")
    (arg : VerifyArg) (vb vb' : Bool) (r : Obj) (hr : (readSofa env nc (writeSofa env nc fs name o c).fs name arg vb).out = .ok r) :
    ∃ r', (readSofa env nc (writeSofa env nc fs name o' c).fs name arg vb').out = .ok r' ∧ Spec.Reordered r r' := by
  obtain ⟨_, path, f, f', e1, e2, e3, e4, _⟩ := writeSofa_reordered h hs hw
  have key : ∀ g : NcFile, openFile { fs with files := Dict.put fs.files path (.nc g) } name = .ok g := by
    intro g
    unfold openFile
    simp only [e1, Dict.get?_put_self]
  have g1 : openFile (writeSofa env nc fs name o c).fs name = .ok f := by rw [e2]; exact key f
  have g2 : openFile (writeSofa env nc fs name o' c).fs name = .ok f' := by rw [e3]; exact key f'
  obtain ⟨hn, hl⟩ := hf f g1
  exact C97_verified_partial env nc _ _ name name f f' g1 g2 e4 hn hl hp arg vb vb' r hr

theorem exSofa_agrees : ∀ o1, resetConvention exEnv exSofa = .ok o1 → Spec.AgreeOnSizes o1 ∧ Spec.CustomNoMethod o1 := by
  have hr : resetConvention exEnv exSofa = .ok exSofa := by decide +kernel
  intro o1 h
  rw [hr] at h
  obtain rfl : exSofa = o1 := by simpa using h
  refine ⟨agreeB_sound (by decide +kernel), fun c k e hc _ => ?_⟩
  have : exSofa.custom = none := by decide +kernel
  rw [this] at hc
  simp at hc

/-- an empty disk -/
def exNoFiles : FS := ⟨[], fun _ => true⟩

/-- the example in reverse order -/
example : (writeSofa exEnv exNc exNoFiles (py% "a") exReversed 4).out = .ok () ∧
    (writeSofa exEnv exNc exNoFiles (py% "a") exReversed 4).fs.files ≠ (writeSofa exEnv exNc exNoFiles (py% "a") exSofa 4).fs.files :=
  ⟨(C98_write_partial exEnv exNc exNoFiles (py% "a") exSofa exReversed 4 exReversed_reordered exSofa_agrees
    (by decide +kernel)).1, by decide +kernel⟩

/-- the file of the example meets the conditions -/
example : ∃ r r', (readSofa exEnv exNc (writeSofa exEnv exNc exNoFiles (py% "a") exSofa 4).fs (py% "a") .yes true).out = .ok r ∧
    (readSofa exEnv exNc (writeSofa exEnv exNc exNoFiles (py% "a") exReversed 4).fs (py% "a") .yes true).out = .ok r' ∧
    Spec.Reordered r r' := by
  have hw : (writeSofa exEnv exNc exNoFiles (py% "a") exSofa 4).out = .ok () := by decide +kernel
  have h : ∃ r, (readSofa exEnv exNc (writeSofa exEnv exNc exNoFiles (py% "a") exSofa 4).fs (py% "a") .yes true).out = .ok r := by
    cases h : (readSofa exEnv exNc (writeSofa exEnv exNc exNoFiles (py% "a") exSofa 4).fs (py% "a") .yes true).out with
    | ok o => exact ⟨o, rfl⟩
    | error x =>
      have : (readSofa exEnv exNc (writeSofa exEnv exNc exNoFiles (py% "a") exSofa 4).fs (py% "a") .yes true).out.isOk = true := by
        decide +kernel
      rw [h] at this
      cases this
  obtain ⟨r, hr⟩ := h
  have ho : (openFile (writeSofa exEnv exNc exNoFiles (py% "a") exSofa 4).fs (py% "a")).toOption.isSome = true ∧
      ∀ f ∈ (openFile (writeSofa exEnv exNc exNoFiles (py% "a") exSofa 4).fs (py% "a")).toOption,
        (Spec.namesInFile f).Nodup ∧ ∀ p ∈ f.vars, p.2.dims.length = p.2.data.shape.length ∧
          ∀ d ∈ p.2.dims, d.length = 1 ∧ d ≠ [','] := by decide +kernel
  have hprot : ∀ t ∈ exEnv.files, ∀ p ∈ t.content, Spec.sofarName p.1 ≠ py% "protected" := by decide +kernel
  obtain ⟨r', g1, g2⟩ := C98_trip_partial exEnv exNc exNoFiles (py% "a") exSofa exReversed 4 exReversed_reordered exSofa_agrees hw
    (by
      intro f hf
      obtain ⟨a, b⟩ := ho.2 f (by rw [hf]; rfl)
      refine ⟨a, fun n x hx => ⟨(b _ hx).1, fun d hd => ?_⟩⟩
      obtain ⟨c, rfl⟩ := List.length_eq_one_iff.1 ((b _ hx).2 d hd).1
      exact ⟨c, rfl, fun e => ((b _ hx).2 _ hd).2 (by rw [e])⟩)
    (fun t ht key e hk => hprot t ht (key, e) hk) .yes true true r hr
  exact ⟨r, r', hr, g1, g2⟩

/-- C98 is false if two variables define different sizes of the same dimension: only one of the two orders can be written. -/
theorem C98_refuted : ∃ (env : Env) (nc : Nc) (o : Obj), let a := (exFiveQ (exAnyQ o).obj).obj; let b := (exAnyQ (exFiveQ o).obj).obj
    Spec.Reordered a b ∧ (writeSofa env nc exNoFiles (py% "a") a 4).out = .ok () ∧
    (writeSofa env nc exNoFiles (py% "a") b 4).out ≠ .ok () := by
  refine ⟨exEnv, exNc, exSofa, ?_, by decide +kernel, by decide +kernel⟩
  exact C89_calls exSofa (by decide +kernel) (fun c hc => by
      have : exSofa.custom = none := by decide +kernel
      rw [this] at hc
      simp at hc) _ _ _ _ _ _ _ _ (by decide +kernel) (by decide +kernel) (by decide +kernel) (by decide +kernel)

end Sofar
