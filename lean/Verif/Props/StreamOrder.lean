import Verif.Lemmas.StreamOrder
import Verif.Props.FileOrder
import Verif.Props.WriteOrder
import Verif.Props.Stream
import Verif.Props.StreamText
/-!
# C104: the order of the data in a file does not matter for streams
-/
namespace Sofar

/-- C104: A stream gives the same data, or the same error, for every name if the file contains the same in another order. -/
theorem C104_get (nc : Nc) (f f' : NcFile) (h : Spec.SameContent f f') (hn : Spec.OnceNames f) (name : Str) :
    Spec.SameAnswer (streamGet nc f name) (streamGet nc f' name) :=
  stream_same h hn name

/-- C104: The sizes of the dimensions do not depend on the order of the dimensions, attributes and variables. -/
theorem C104_dimensions (f f' : NcFile) (h : Spec.SameEntries f.dims f'.dims) (d : Str) :
    streamDimension f' d = streamDimension f d := by
  unfold streamDimension
  rw [get?_perm h]

/-- C104: The printed list of the dimensions does not depend on the order of the attributes and variables. -/
theorem C104_listed (f f' : NcFile) (h : Spec.SameContent f f') (hn : Spec.OnceNames f) (hd : f'.dims = f.dims) :
    streamListDimensions f' = streamListDimensions f := by
  have ht : ∀ k, streamType f' k = streamType f k := by
    intro k
    unfold streamType
    rcases sameContent_vars h hn k with ⟨h1, h2⟩ | ⟨x, x', h1, h2, h3⟩
    · simp only [h1, h2]
    · simp only [h1, h2]
      unfold ncTextAttr ncGet
      rw [get?_perm ⟨h3.attrs, hn.sub k x (Dict.mem_of_get? h1)⟩]
  have ha : ncTextAttr f'.attrs (py% "DataType") = ncTextAttr f.attrs (py% "DataType") := by
    unfold ncTextAttr ncGet
    rw [get?_perm ⟨h.attrs, hn.globals⟩]
  unfold streamListDimensions
  rw [ha, ht, ht, hd]

/-- C104: Streams of the files of two objects with the same data in another order give the same for all names and
dimensions, if the variables of the objects agree on the sizes of the dimensions. -/
theorem C104_written (env : Env) (nc : Nc) (fs : FS) (name : Str) (o o' : Obj) (c : Nat) (h : Spec.Reordered o o')
    (hs : ∀ o1, resetConvention env o = .ok o1 → Spec.AgreeOnSizes o1 ∧ Spec.CustomNoMethod o1)
    (hw : (writeSofa env nc fs name o c).out = .ok ()) :
    ∃ path f f', Spec.FileFor name path ∧ openStream (writeSofa env nc fs name o c).fs path = .ok f ∧
      openStream (writeSofa env nc fs name o' c).fs path = .ok f' ∧
      (∀ k, Spec.SameAnswer (streamGet nc f k) (streamGet nc f' k)) ∧ ∀ d, streamDimension f' d = streamDimension f d := by
  obtain ⟨_, path, f, f', e1, e2, e3, e4, e5⟩ := writeSofa_reordered h hs hw
  have hf : Dict.get? (writeSofa env nc fs name o c).fs.files path = some (.nc f) := by rw [e2]; simp
  refine ⟨path, f, f', withSuffix_iff.1 e1, ?_, ?_, fun k => stream_same e4 (writeSofa_once e1 hw hf) k, fun d => ?_⟩
  · unfold openStream; rw [hf]
  · unfold openStream; rw [e3]; simp
  · unfold streamDimension; rw [e5]

/-- C97: `read_sofa_as_netcdf` gives the same data for files with the same content in another order. (Missing: files with
two data that get the same name, see `C97_refuted`.) -/
theorem C97_netcdf_partial (nc : Nc) (fs fs' : FS) (name name' : Str) (f f' : NcFile) (h1 : openFile fs name = .ok f)
    (h2 : openFile fs' name' = .ok f') (hf : Spec.SameContent f f') (hn : (Spec.namesInFile f).Nodup) (o : Obj)
    (ho : (readAsNetcdf nc fs name).out = .ok o) :
    ∃ o', (readAsNetcdf nc fs' name').out = .ok o' ∧ Spec.Reordered o o' := by
  unfold readAsNetcdf at ho ⊢
  simp only [h1, h2] at ho ⊢
  exact loadFile_perm hf hn (by simp [emptySofa, Dict.keys]) rfl ho

/-! ## Examples -/

theorem exFile_once : Spec.OnceNames exFile := by
  have h : ∀ p ∈ exFile.vars, (p.2.attrs.map Prod.fst).Nodup := by decide +kernel
  exact ⟨by decide +kernel, by decide +kernel, fun n x hm => h (n, x) hm⟩

/-- the file from back to front: a variable, an attribute of a variable, a global attribute and a missing name -/
example : exBackwards exFile ≠ exFile ∧
    (∀ k, Spec.SameAnswer (streamGet exNc exFile k) (streamGet exNc (exBackwards exFile) k)) ∧
    (∃ x, streamGet exNc (exBackwards exFile) (py% "Data_IR") = .ok (.variable_ x) ∧ x.data.shape = [1, 2, 3]) ∧
    streamGet exNc (exBackwards exFile) (py% "SourcePosition_Units") = streamGet exNc exFile (py% "SourcePosition_Units") ∧
    (streamGet exNc (exBackwards exFile) (py% "SourcePosition_Units")).isOk = true ∧
    streamGet exNc (exBackwards exFile) (py% "GLOBAL_DataType") = .ok (.value (.str (py% "FIR"))) ∧
    (streamGet exNc (exBackwards exFile) (py% "Nothing")).isOk = false := by
  refine ⟨by decide +kernel, C104_get _ _ _ (exBackwards_same _) exFile_once, ?_, by decide +kernel, by decide +kernel,
    by decide +kernel, by decide +kernel⟩
  have : (match streamGet exNc (exBackwards exFile) (py% "Data_IR") with
    | .ok (.variable_ x) => decide (x.data.shape = [1, 2, 3]) | _ => false) = true := by decide +kernel
  split at this
  · rename_i x hx; exact ⟨x, hx, by simpa using this⟩
  · simp at this

example : ∃ o o', (readAsNetcdf exNc (exOnly exFile) (py% "a.sofa")).out = .ok o ∧
    (readAsNetcdf exNc (exOnly (exBackwards exFile)) (py% "a.sofa")).out = .ok o' ∧ Spec.Reordered o o' := by
  cases h : (readAsNetcdf exNc (exOnly exFile) (py% "a.sofa")).out with
  | error e =>
    have : (readAsNetcdf exNc (exOnly exFile) (py% "a.sofa")).out.isOk = true := by decide +kernel
    simp [h, Except.isOk, Except.toBool] at this
  | ok o =>
    obtain ⟨o', h1, h2⟩ := C97_netcdf_partial exNc _ _ _ _ _ _ (exOnly_open exFile) (exOnly_open (exBackwards exFile))
      (exBackwards_same exFile) (by decide +kernel) o h
    exact ⟨o, o', rfl, h1, h2⟩

/-- the example in reverse order -/
example : ∃ path f f', Spec.FileFor (py% "a") path ∧ openStream (writeSofa exEnv exNc exNoFiles (py% "a") exSofa 4).fs path = .ok f ∧
    openStream (writeSofa exEnv exNc exNoFiles (py% "a") exReversed 4).fs path = .ok f' ∧
    ∀ k, Spec.SameAnswer (streamGet exNc f k) (streamGet exNc f' k) := by
  obtain ⟨path, f, f', h1, h2, h3, h4, _⟩ := C104_written exEnv exNc exNoFiles (py% "a") exSofa exReversed 4
    exReversed_reordered exSofa_agrees (by decide +kernel)
  exact ⟨path, f, f', h1, h2, h3, h4⟩

/-- a file with types of positions from back to front: the dimensions are listed -/
example : streamListDimensions (exBackwards (exTextFile exTextSofa)) = streamListDimensions (exTextFile exTextSofa) ∧
    (streamListDimensions (exBackwards (exTextFile exTextSofa))).isOk = true := by
  have h : ∀ p ∈ (exTextFile exTextSofa).vars, (p.2.attrs.map Prod.fst).Nodup := by decide +kernel
  exact ⟨C104_listed _ _ (exBackwards_same _) ⟨by decide +kernel, by decide +kernel, fun n x hm => h (n, x) hm⟩ rfl,
    by decide +kernel⟩

/-- the dimensions from back to front -/
example : Spec.SameEntries exFile.dims exFile.dims.reverse ∧ exFile.dims.reverse ≠ exFile.dims ∧
    streamDimension { exFile with dims := exFile.dims.reverse } (py% "N") = .ok 3 :=
  ⟨⟨List.reverse_perm _, by decide +kernel⟩, by decide +kernel, by decide +kernel⟩

end Sofar
