import Verif.Lemmas.FileDims
import Verif.Props.Files
import Verif.Props.Order
/-!
# C97: the order of the data in files
-/
namespace Sofar

/-- C97: Files with the same global attributes and variables in any order give the same data and the same custom data, if they
are read without verification. The data in the file have to get different names in sofar. (Missing: files with two data that
get the same name, see `C97_refuted`.) -/
theorem C97_read_partial (env : Env) (nc : Nc) (fs fs' : FS) (name name' : Str) (f f' : NcFile) (h1 : openFile fs name = .ok f)
    (h2 : openFile fs' name' = .ok f') (hf : Spec.SameContent f f') (hn : (Spec.namesInFile f).Nodup) (vb vb' : Bool) (o : Obj)
    (ho : (readSofa env nc fs name .no vb).out = .ok o) :
    ∃ o', (readSofa env nc fs' name' .no vb').out = .ok o' ∧ Spec.Reordered o o' :=
  readSofa_perm h1 h2 hf hn ho (Or.inl rfl)

/-- C97: The same holds with verification. The dimensions of the variables are named by letters, as the SOFA standard demands.
No row of the conventions is called `protected`. (Missing: files with two data that get the same name, see `C97_refuted`, and
files with other names of dimensions, see `C97_refuted_sizes`.) -/
theorem C97_verified_partial (env : Env) (nc : Nc) (fs fs' : FS) (name name' : Str) (f f' : NcFile)
    (h1 : openFile fs name = .ok f) (h2 : openFile fs' name' = .ok f') (hf : Spec.SameContent f f')
    (hn : (Spec.namesInFile f).Nodup) (hl : Spec.LetterDimensions f)
    (hp : ∀ t ∈ env.files, ∀ key e, (key, e) ∈ t.content → Spec.sofarName key ≠ py% "protected")
    (arg : VerifyArg) (vb vb' : Bool) (o : Obj) (ho : (readSofa env nc fs name arg vb).out = .ok o) :
    ∃ o', (readSofa env nc fs' name' arg vb').out = .ok o' ∧ Spec.Reordered o o' :=
  readSofa_letters h1 h2 hf hn hl hp ho

/-- C97: For any names of the dimensions it suffices that no two variables define different sizes of the same dimension. -/
theorem C97_agree_partial (env : Env) (nc : Nc) (fs fs' : FS) (name name' : Str) (f f' : NcFile)
    (h1 : openFile fs name = .ok f) (h2 : openFile fs' name' = .ok f') (hf : Spec.SameContent f f')
    (hn : (Spec.namesInFile f).Nodup) (arg : VerifyArg) (vb vb' : Bool) (o : Obj)
    (ho : (readSofa env nc fs name arg vb).out = .ok o) (hs : Spec.AgreeOnSizes o) (hm : Spec.CustomNoMethod o) :
    ∃ o', (readSofa env nc fs' name' arg vb').out = .ok o' ∧ Spec.Reordered o o' :=
  readSofa_perm h1 h2 hf hn ho (Or.inr ⟨hs, hm⟩)

/-- the file from back to front, also the attributes of the variables -/
def exBackwards (f : NcFile) : NcFile :=
  { f with attrs := f.attrs.reverse, vars := (f.vars.map fun p => (p.1, { p.2 with attrs := p.2.attrs.reverse })).reverse }

theorem exBackwards_same (f : NcFile) : Spec.SameContent f (exBackwards f) := by
  refine ⟨List.reverse_perm _, f.vars.reverse, List.reverse_perm _, ?_⟩
  rw [exBackwards, ← List.map_reverse, List.forall₂_map_right_iff]
  exact List.forall₂_same.2 (fun p _ => ⟨rfl, rfl, rfl, List.reverse_perm _⟩)

/-- a disk with one file -/
def exOnly (f : NcFile) : FS := ⟨[(py% "a.sofa", .nc f)], fun _ => true⟩

theorem exOnly_open (f : NcFile) : openFile (exOnly f) (py% "a.sofa") = .ok f := by
  have h : withSuffix (py% "a.sofa") = .ok (py% "a.sofa") := by decide +kernel
  unfold openFile
  rw [h]
  rfl

/-- the file of the example from back to front -/
example : ∃ o o', (readSofa exEnv exNc (exOnly exFile) (py% "a.sofa") .no true).out = .ok o ∧
    (readSofa exEnv exNc (exOnly (exBackwards exFile)) (py% "a.sofa") .no true).out = .ok o' ∧ Spec.Reordered o o' ∧
    exBackwards exFile ≠ exFile := by
  have h : ∃ o, (readSofa exEnv exNc (exOnly exFile) (py% "a.sofa") .no true).out = .ok o := by
    cases h : (readSofa exEnv exNc (exOnly exFile) (py% "a.sofa") .no true).out with
    | ok o => exact ⟨o, rfl⟩
    | error x =>
      have : (readSofa exEnv exNc (exOnly exFile) (py% "a.sofa") .no true).out.isOk = true := by decide +kernel
      rw [h] at this
      cases this
  obtain ⟨o, ho⟩ := h
  obtain ⟨o', g1, g2⟩ := C97_read_partial _ _ _ _ _ _ _ _ (exOnly_open exFile) (exOnly_open _) (exBackwards_same exFile)
    (by decide +kernel) true true o ho
  exact ⟨o, o', ho, g1, g2, by decide +kernel⟩

/-- the file with another variable -/
def exSameName : NcFile := { exFile with vars := exFile.vars ++ [(py% "Data_IR", ⟨[py% "I"], exNums .f [1] [7], []⟩)] }

/-- C97 is false for files with the variables `Data.IR` and `Data_IR`: both get the name `Data_IR`, and the variable that
comes last wins without a message. -/
theorem C97_refuted : ∃ (env : Env) (nc : Nc) (f f' : NcFile) (o o' : Obj), Spec.SameContent f f' ∧
    (readSofa env nc (exOnly f) (py% "a.sofa") .no true).out = .ok o ∧
    (readSofa env nc (exOnly f) (py% "a.sofa") .no true).ev = [] ∧
    (readSofa env nc (exOnly f') (py% "a.sofa") .no true).out = .ok o' ∧
    (readSofa env nc (exOnly f') (py% "a.sofa") .no true).ev = [] ∧
    Dict.get? o.attrs (py% "Data_IR") ≠ Dict.get? o'.attrs (py% "Data_IR") ∧ ¬ (Spec.namesInFile f).Nodup := by
  refine ⟨exEnv, exNc, exSameName, exBackwards exSameName,
    (readSofa exEnv exNc (exOnly exSameName) (py% "a.sofa") .no true).out.toOption.getD exSofa,
    (readSofa exEnv exNc (exOnly (exBackwards exSameName)) (py% "a.sofa") .no true).out.toOption.getD exSofa,
    exBackwards_same _, by decide +kernel, by decide +kernel, by decide +kernel, by decide +kernel, by decide +kernel, by decide +kernel⟩

/-- the file with two custom variables -/
def exCommaFile : NcFile := { exFile with vars := exFile.vars ++
  [(py% "Offset", ⟨[py% "Q, I"], exNums .f [1] [7], []⟩), (py% "Times", ⟨[py% "Q"], exNums .f [5] [1, 2, 3, 4, 5], []⟩)] }

/-- the file with the same variables, the last two in the other order -/
def exCommaBack : NcFile := { exFile with vars := exFile.vars ++
  [(py% "Times", ⟨[py% "Q"], exNums .f [5] [1, 2, 3, 4, 5], []⟩), (py% "Offset", ⟨[py% "Q, I"], exNums .f [1] [7], []⟩)] }

/-- C97 is false for a dimension named `Q, I`: sofar takes the comma for a separator of alternatives, and the variable that comes
last decides the size of `Q`. The file is read in one order only. -/
theorem C97_refuted_sizes : ∃ (env : Env) (nc : Nc) (f f' : NcFile) (o : Obj), Spec.SameContent f f' ∧
    (Spec.namesInFile f).Nodup ∧
    (readSofa env nc (exOnly f) (py% "a.sofa") .yes true).out = .ok o ∧
    (readSofa env nc (exOnly f') (py% "a.sofa") .yes true).out.isOk = false ∧ ¬ Spec.LetterDimensions f := by
  refine ⟨exEnv, exNc, exCommaFile, exCommaBack,
    (readSofa exEnv exNc (exOnly exCommaFile) (py% "a.sofa") .yes true).out.toOption.getD exSofa,
    ⟨List.Perm.refl _, exCommaBack.vars, ?_, ?_⟩, by decide +kernel, by decide +kernel, by decide +kernel, ?_⟩
  · exact List.Perm.append_left _ (List.Perm.swap _ _ _)
  · exact List.forall₂_same.2 (fun p _ => ⟨rfl, rfl, rfl, List.Perm.refl _⟩)
  · intro h
    obtain ⟨c, hc, _⟩ := (h (py% "Offset") ⟨[py% "Q, I"], exNums .f [1] [7], []⟩ (by decide +kernel)).2 (py% "Q, I") (by simp)
    exact absurd (congrArg List.length hc) (by simp)

/-- custom variables that do not know the size of their dimension alone -/
def exLetterFile : NcFile := { exFile with vars := exFile.vars ++
  [(py% "Offset", ⟨[py% "Q"], exNums .f [5] [7, 7, 7, 7, 7], []⟩), (py% "Times", ⟨[py% "Q"], exNums .f [5] [1, 2, 3, 4, 5], []⟩)] }

/-- a verified file with custom variables from back to front -/
example : ∃ o o', (readSofa exEnv exNc (exOnly exLetterFile) (py% "a.sofa") .yes true).out = .ok o ∧
    (readSofa exEnv exNc (exOnly (exBackwards exLetterFile)) (py% "a.sofa") .yes false).out = .ok o' ∧ Spec.Reordered o o' ∧
    exBackwards exLetterFile ≠ exLetterFile := by
  have h : ∃ o, (readSofa exEnv exNc (exOnly exLetterFile) (py% "a.sofa") .yes true).out = .ok o := by
    cases h : (readSofa exEnv exNc (exOnly exLetterFile) (py% "a.sofa") .yes true).out with
    | ok o => exact ⟨o, rfl⟩
    | error x =>
      have : (readSofa exEnv exNc (exOnly exLetterFile) (py% "a.sofa") .yes true).out.isOk = true := by decide +kernel
      rw [h] at this
      cases this
  obtain ⟨o, ho⟩ := h
  have hlet : ∀ p ∈ exLetterFile.vars, p.2.dims.length = p.2.data.shape.length ∧
      ∀ d ∈ p.2.dims, d.length = 1 ∧ d ≠ [','] := by decide +kernel
  have hprot : ∀ t ∈ exEnv.files, ∀ p ∈ t.content, Spec.sofarName p.1 ≠ py% "protected" := by decide +kernel
  obtain ⟨o', g1, g2⟩ := C97_verified_partial _ _ _ _ _ _ _ _ (exOnly_open exLetterFile) (exOnly_open _)
    (exBackwards_same exLetterFile) (by decide +kernel)
    (fun n x hx => ⟨(hlet _ hx).1, fun d hd => by
      obtain ⟨c, rfl⟩ := List.length_eq_one_iff.1 ((hlet _ hx).2 d hd).1
      exact ⟨c, rfl, fun e => ((hlet _ hx).2 _ hd).2 (by rw [e])⟩⟩)
    (fun t ht key e hk => hprot t ht (key, e) hk) .yes true false o ho
  exact ⟨o, o', ho, g1, g2, by decide +kernel⟩

end Sofar
