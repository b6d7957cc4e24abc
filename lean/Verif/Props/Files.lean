import Verif.Lemmas.Paths
import Verif.Lemmas.IO
import Verif.Props.Rules
/-!
# Files: what reading and writing does to the disk, names of files and data, missing values (C34, C35, C37, C39, C41, C42)
-/
namespace Sofar

/-- a netCDF library for the examples -/
def exNc : Nc where
  okName := fun n => decide (n ≠ []) && decide ('/' ∉ n)
  reserved := fun n => n == py% "dimensions"
  special := fun n => n == py% "_FillValue"
  isFill := fun k x => k == .f && x == .fin 9969209968386869046778552952102584320

/-- a disk with another file at the place where the examples are written to -/
def exDisk : FS := ⟨[(py% "a.sofa", .other 7), (py% "b.sofa", .other 8)], fun p => p ≠ py% "c.sofa"⟩

/-! ## C34 -/

/-- C34: if the object does not pass the verification, `write_sofa` raises and the disk stays as it is. -/
theorem C34_not_verified (env : Env) (nc : Nc) (fs : FS) (filename : Str) (o : Obj) (compression : Nat) (e : Exc)
    (h : (verify env o .raise .write).out = .error e) :
    (writeSofa env nc fs filename o compression).fs = fs ∧
    ∃ x, (writeSofa env nc fs filename o compression).out = .error x := by
  unfold writeSofa writeSofaG
  cases hp : withSuffix filename with
  | error x => exact ⟨rfl, x, rfl⟩
  | ok path =>
    simp only [if_true]
    cases hl : (checkLatest env o).1 with
    | error x => exact ⟨rfl, x, rfl⟩
    | ok u => simp only [h]; exact ⟨trivial, e, rfl⟩

example : (∃ e, (verify exEnv exWrongUnit .raise .write).out = .error e) ∧
    (writeSofa exEnv exNc exDisk (py% "a") exWrongUnit 4).fs.files = exDisk.files := by
  have h : ∃ e, (verify exEnv exWrongUnit .raise .write).out = .error e := by
    have : (match (verify exEnv exWrongUnit .raise .write).out with | .error _ => true | _ => false) = true := by
      decide +kernel
    split at this
    · rename_i e he; exact ⟨e, he⟩
    · simp at this
  obtain ⟨e, he⟩ := h
  exact ⟨⟨e, he⟩, by rw [(C34_not_verified _ _ _ _ _ _ e he).1]⟩

/-- C34: the disk only changes if the object was verified before, and only the file of the given name is replaced. -/
theorem C34_what_changes (env : Env) (nc : Nc) (fs : FS) (filename : Str) (o : Obj) (compression : Nat) :
    (writeSofa env nc fs filename o compression).fs = fs ∨
    ∃ path f r, Spec.FileFor filename path ∧ (verify env o .raise .write).out = .ok r ∧ fs.canWrite path = true ∧
      Dict.get? (writeSofa env nc fs filename o compression).fs.files path = some (.nc f) ∧
      ∀ p, p ≠ path → Dict.get? (writeSofa env nc fs filename o compression).fs.files p = Dict.get? fs.files p := by
  simp only [← withSuffix_iff] at *
  unfold writeSofa writeSofaG
  cases hp : withSuffix filename with
  | error x => exact Or.inl rfl
  | ok path =>
    simp only [if_true]
    cases hl : (checkLatest env o).1 with
    | error x => exact Or.inl rfl
    | ok u =>
      cases hv : (verify env o .raise .write).out with
      | error x => exact Or.inl rfl
      | ok r =>
        simp only [writeDisk]
        cases hc : fs.canWrite path with
        | false => exact Or.inl rfl
        | true =>
          right
          refine ⟨path, (writeFile env nc (verify env o .raise .write).obj compression).2, r, rfl, rfl, hc, ?_, ?_⟩
          · simp
          · intro p hne
            simp [Dict.get?_put, hne]

example : (writeSofa exEnv exNc exDisk (py% "a") exSofa 4).out.toOption = some () ∧
    Dict.get? (writeSofa exEnv exNc exDisk (py% "a") exSofa 4).fs.files (py% "a.sofa") ≠ some (.other 7) ∧
    Dict.get? (writeSofa exEnv exNc exDisk (py% "a") exSofa 4).fs.files (py% "b.sofa") = some (.other 8) := by
  decide +kernel

/-- C34: `write_sofa` does not change the data of the object, whether it succeeds or not. -/
theorem C34_object_kept (env : Env) (nc : Nc) (fs : FS) (filename : Str) (o : Obj) (compression : Nat) :
    (writeSofa env nc fs filename o compression).obj.attrs = o.attrs := by
  unfold writeSofa writeSofaG
  have hv : (verify env o .raise .write).obj.attrs = o.attrs := C21_raise_adds_nothing env o .write
  cases hp : withSuffix filename with
  | error x => rfl
  | ok path =>
    simp only [if_true]
    cases hl : (checkLatest env o).1 with
    | error x => rfl
    | ok u => cases (verify env o .raise .write).out <;> exact hv

/-! ## C35 -/

/-- an object with a text that is not ASCII -/
def exUmlaut : Obj := exPut exSofa (py% "Names") (.arr ⟨.U, [2, 1], [.str (py% "für"), .str (py% "b")]⟩)

/-- C35 is false: text that is not ASCII in a string variable passes the verification, but it can not be written. The
file of the same name is lost. -/
theorem C35_refuted : ∃ (env : Env) (nc : Nc) (fs : FS) (filename path : Str) (o : Obj) (e : Exc),
    (verify env o .raise .write).out = .ok none ∧ Spec.FileFor filename path ∧
    Dict.get? fs.files path = some (.other 7) ∧
    (writeSofa env nc fs filename o 4).out = .error e ∧
    Dict.get? (writeSofa env nc fs filename o 4).fs.files path ≠ some (.other 7) :=
  ⟨exEnv, exNc, exDisk, py% "a", py% "a.sofa", exUmlaut, .unicodeError, by decide +kernel, by decide +kernel,
    by decide +kernel, by decide +kernel, by decide +kernel⟩

/-- The file is also lost if the level of the compression is too high. -/
theorem C35_compression_refuted : ∃ (env : Env) (nc : Nc) (fs : FS) (filename path : Str) (o : Obj) (e : Exc),
    Spec.FileFor filename path ∧ Dict.get? fs.files path = some (.other 7) ∧
    (writeSofa env nc fs filename o 10).out = .error e ∧
    Dict.get? (writeSofa env nc fs filename o 10).fs.files path ≠ some (.other 7) :=
  ⟨exEnv, exNc, exDisk, py% "a", py% "a.sofa", exSofa, .netcdfError (py% "NetCDF: Invalid argument"),
    by decide +kernel, by decide +kernel, by decide +kernel, by decide +kernel⟩

/-- C35, partial: a failing call leaves the whole disk as it is, unless the object passed the verification and the file
was opened for writing; even then all other files are kept. -/
theorem C35_kept_partial (env : Env) (nc : Nc) (fs : FS) (filename : Str) (o : Obj) (compression : Nat) (e : Exc)
    (_h : (writeSofa env nc fs filename o compression).out = .error e)
    (hc : (∀ r, (verify env o .raise .write).out ≠ .ok r) ∨ (∀ p, Spec.FileFor filename p → fs.canWrite p = false)) :
    (writeSofa env nc fs filename o compression).fs = fs := by
  simp only [← withSuffix_iff] at *
  rcases C34_what_changes env nc fs filename o compression with h | ⟨path, f, r, h1, h2, h3, _⟩
  · exact h
  · exfalso
    rcases hc with hc | hc
    · exact hc r h2
    · rw [hc path (withSuffix_iff.2 h1)] at h3; simp at h3

example : (∃ e, (writeSofa exEnv exNc exDisk (py% "c") exSofa 4).out = .error e) ∧
    (∀ p, Spec.FileFor (py% "c") p → exDisk.canWrite p = false) := by
  refine ⟨⟨.osError (py% "Permission denied"), by decide +kernel⟩, ?_⟩
  intro p hp
  rw [← withSuffix_iff] at hp
  have : withSuffix (py% "c") = .ok (py% "c.sofa") := by decide +kernel
  rw [this] at hp
  cases hp
  decide

/-! ## C37 -/

/-- C37: an object returned by `read_sofa` has exactly the data of the file, for all values of `verify`. -/
theorem C37_fields (env : Env) (nc : Nc) (fs : FS) (filename path : Str) (arg : VerifyArg) (verbose : Bool) (o : Obj)
    (f : NcFile) (hp : Spec.FileFor filename path) (hf : Dict.get? fs.files path = some (.nc f))
    (h : (readSofa env nc fs filename arg verbose).out = .ok o) (k : Str) : Spec.IsData o k ↔ Spec.InFile f k := by
  simp only [← withSuffix_iff] at *
  obtain ⟨path', f', c, v, new, o0, hr⟩ := readSofa_ok h
  have := hr.loc
  rw [hp] at this
  cases this
  have := hr.file
  rw [hf] at this
  cases this
  obtain ⟨l, st, h1, h2⟩ := loadFile_iff (initSofa_nodup hr.created) hr.load
  have : Spec.IsData o k ↔ Spec.IsData o0 k := by unfold Spec.IsData; rw [hr.attrs]
  rw [this, h2.keys, fileItems_names h1]

/-- the disk after writing an object -/
def exWritten (o : Obj) : FS := (writeSofa exEnv exNc exDisk (py% "a") o 4).fs

example : (match (readSofa exEnv exNc (exWritten exSofa) (py% "a.sofa") .auto true).out with
    | .ok o => o.keys.length = exSofa.keys.length | .error _ => false) = true := by decide +kernel

/-- C37: the same holds for `read_sofa_as_netcdf`. -/
theorem C37_as_netcdf (nc : Nc) (fs : FS) (filename path : Str) (o : Obj) (f : NcFile)
    (hp : Spec.FileFor filename path) (hf : Dict.get? fs.files path = some (.nc f))
    (h : (readAsNetcdf nc fs filename).out = .ok o) (k : Str) : Spec.IsData o k ↔ Spec.InFile f k := by
  simp only [← withSuffix_iff] at *
  unfold readAsNetcdf openFile at h
  simp only [hp, hf] at h
  obtain ⟨l, st, h1, h2⟩ := loadFile_iff (by simp [emptySofa, Dict.keys]) h
  rw [h2.keys, fileItems_names h1]

example : (match (readAsNetcdf exNc (exWritten exSofa) (py% "a")).out with
    | .ok o => o.keys.length = exSofa.keys.length | .error _ => false) = true := by decide +kernel

/-! ## C42 -/

/-- C42: reading a numeric variable never fails. Missing elements are masked, all other elements are kept; there is a
warning exactly if something is missing. The number of elements does not change, and neither does the shape unless
there is only one element. -/
theorem C42_missing (nc : Nc) (name : Str) (a : Arr) (hk : a.kind = .f ∨ a.kind = .i ∨ a.kind = .u)
    (hw : a.data.length = a.shape.foldr (· * ·) 1) (hs : a.shape ≠ []) :
    ∃ v, (formatFrom nc name a).1 = .ok v ∧
      Spec.MaskedAs nc.isFill a.kind a.data (Spec.elems v) ∧
      ((formatFrom nc name a).2 ≠ [] ↔ ∃ x ∈ a.data, Spec.Missing nc.isFill a.kind x) ∧
      Spec.SameUpToOnes (Spec.shapeOf v) a.shape ∧
      (a.data.length ≠ 1 → Spec.shapeOf v = a.shape ∧ ¬ Spec.IsScalar v) := by
  have hmask : ∀ x, (Spec.Missing nc.isFill a.kind x → maskFill nc a.kind x = .masked) ∧
      (¬ Spec.Missing nc.isFill a.kind x → maskFill nc a.kind x = x) := by
    intro x
    unfold Spec.Missing
    cases x with
    | num q => cases hq : nc.isFill a.kind q <;> simp [maskFill, hq]
    | _ => simp [maskFill]
  have hcont : (a.data.map (maskFill nc a.kind)).contains .masked = true ↔
      ∃ x ∈ a.data, Spec.Missing nc.isFill a.kind x := by
    rw [List.contains_iff_mem, List.mem_map]
    constructor
    · rintro ⟨x, hx, hm⟩
      refine ⟨x, hx, ?_⟩
      by_contra hc
      rw [(hmask x).2 hc] at hm
      exact hc (Or.inl hm)
    · rintro ⟨x, hx, hm⟩
      exact ⟨x, hx, (hmask x).1 hm⟩
  let b : Arr := ⟨a.kind, a.shape, a.data.map (maskFill nc a.kind)⟩
  obtain ⟨v, g1, g2, g3, g4, g5⟩ := squeezeSingle_spec (key := name) (a := b)
    (by simpa [b, Arr.WF, Arr.size] using hw) hs
  have heq : formatFrom nc name a = (if b.data.contains .masked then
        (squeezeSingle name b, [.warn (py% "Entry " ++ name ++ py% " contains missing data")])
      else (squeezeSingle name b, [])) := by
    unfold formatFrom
    rcases hk with h | h | h <;> simp only [h, b] <;> simp
  refine ⟨v, ?_, ?_, ?_, g3, ?_⟩
  · rw [heq]; split <;> exact g1
  · rw [g2]
    unfold Spec.MaskedAs
    simp only [b]
    rw [List.forall₂_map_right_iff]
    exact List.forall₂_same.2 (fun x _ => hmask x)
  · rw [heq, ← hcont]
    split
    · rename_i hh; simp only [ne_eq, reduceCtorEq, not_false_eq_true, true_iff]; exact hh
    · rename_i hh; simpa [b] using hh
  · intro hne
    have hsz : b.size ≠ 1 := by
      intro h1
      exact hne (hw.trans h1)
    have : squeezeSingle name b = .ok (.arr b) := by
      unfold squeezeSingle
      rw [if_neg (by intro h; exact hsz h.1)]
    rw [this] at g1
    cases g1
    exact ⟨rfl, by simp [Spec.IsScalar]⟩

example : ∃ x ∈ (⟨.f, [2], [.num (.fin 9969209968386869046778552952102584320), .num (.fin 1)]⟩ : Arr).data,
    Spec.Missing exNc.isFill .f x :=
  ⟨_, List.mem_cons_self, Or.inr ⟨_, rfl, by decide⟩⟩

/-- C37: every value of the object comes from the file; no default value of the convention is left. -/
theorem C37_values (env : Env) (nc : Nc) (fs : FS) (filename path : Str) (arg : VerifyArg) (verbose : Bool) (o : Obj)
    (f : NcFile) (hp : Spec.FileFor filename path) (hf : Dict.get? fs.files path = some (.nc f))
    (hpf : Spec.ProperFile f) (h : (readSofa env nc fs filename arg verbose).out = .ok o) (k : Str) (w : Val)
    (hw : Dict.get? o.attrs k = some w) : Spec.ValueInFile nc.isFill f k w := by
  simp only [← withSuffix_iff] at *
  obtain ⟨path', f', c, v, new, o0, hr⟩ := readSofa_ok h
  have := hr.loc
  rw [hp] at this
  cases this
  have := hr.file
  rw [hf] at this
  cases this
  obtain ⟨l, st, h1, h2⟩ := loadFile_iff (initSofa_nodup hr.created) hr.load
  rw [hr.attrs] at hw
  obtain ⟨i, hi, rfl, rfl⟩ := h2.get hw
  unfold fileItems at h1
  cases hg : attrItems nc (py% "GLOBAL_") f.attrs with
  | error e => simp [hg] at h1
  | ok g =>
    simp only [hg] at h1
    cases hv : allVarItems nc f.vars with
    | error e => simp [hv] at h1
    | ok vs =>
      simp only [hv, Except.ok.injEq] at h1
      subst h1
      rcases List.mem_append.1 hi with hi | hi
      · rw [attrItems_ok hg] at hi
        obtain ⟨p, hp, rfl⟩ := List.mem_map.1 hi
        exact .globalAttribute p.1 hp rfl
      · obtain ⟨n, x, a, h3, h4, h5⟩ := (allVarItems_mem hv i).1 hi
        obtain ⟨y, h6, rfl⟩ := varItems_ok h4
        obtain ⟨q1, q2⟩ := hpf n x h3
        rcases List.mem_cons.1 h5 with rfl | h5
        · by_cases hS : x.data.kind = .S
          · obtain ⟨s, width, r1, r2, r3⟩ := text_read hS q1 (q2 hS) h6
            exact .text n x s width h3 rfl hS r1 r2 r3
          · have hk : x.data.kind = .f ∨ x.data.kind = .i ∨ x.data.kind = .u := by
              by_contra hc
              unfold formatFrom at h6
              split at h6
              · rename_i hk; exact hS hk
              · rw [if_neg hc] at h6; simp at h6
            by_cases hs : x.data.shape = []
            · have hmask : Spec.MaskedAs nc.isFill x.data.kind x.data.data (x.data.data.map (maskFill nc x.data.kind)) := by
                unfold Spec.MaskedAs
                rw [List.forall₂_map_right_iff]
                refine List.forall₂_same.2 (fun e _ => ?_)
                unfold Spec.Missing
                cases e with
                | num q => cases hq : nc.isFill x.data.kind q <;> simp [maskFill, hq]
                | _ => simp [maskFill]
              have hsq : ∀ b : Arr, b.shape = [] → ∀ y, squeezeSingle n b = .ok y → y = .arr b := by
                intro b hb y hy
                unfold squeezeSingle at hy
                split at hy
                · unfold firstItem at hy
                  rw [hb] at hy
                  simp at hy
                · simpa using hy.symm
              have hy : y = .arr ⟨x.data.kind, x.data.shape, x.data.data.map (maskFill nc x.data.kind)⟩ := by
                refine hsq ⟨x.data.kind, x.data.shape, x.data.data.map (maskFill nc x.data.kind)⟩ hs y ?_
                unfold formatFrom at h6
                split at h6
                · rename_i hk; exact absurd hk hS
                · rw [if_pos hk] at h6
                  dsimp only at h6
                  split at h6 <;> exact h6
              refine .numbers n x h3 rfl hS ?_ ?_
              · rw [hy]; exact rfl
              · rw [hy]; exact hmask
            · obtain ⟨y', g1, g2, g3, g4, g5⟩ := C42_missing nc n x.data hk q1 hs
              rw [h6] at g1
              cases g1
              exact .numbers n x h3 rfl hS g4 g2
        · obtain ⟨p, hp, rfl⟩ := List.mem_map.1 h5
          exact .variableAttribute n x p.1 h3 (List.mem_of_mem_filter hp) (by simp) (by simpa using (List.mem_filter.1 hp).2)

/-- the file that the example writes -/
def exFile : NcFile :=
  match Dict.get? (exWritten exSofa).files (py% "a.sofa") with
  | some (.nc f) => f
  | _ => .empty

example : Dict.get? (exWritten exSofa).files (py% "a.sofa") = some (.nc exFile) ∧ Spec.ProperFile exFile ∧
    exFile.vars.length = 3 := by
  refine ⟨by decide +kernel, ?_, by decide +kernel⟩
  have h1 : ∀ p ∈ exFile.vars, p.2.data.data.length = p.2.data.shape.foldr (· * ·) 1 := by decide +kernel
  have h2 : ∀ p ∈ exFile.vars, p.2.data.kind = .S → p.2.data.data.all
      (fun e => match e with | .str [_] => true | _ => false) = true := by decide +kernel
  intro n x hx
  refine ⟨h1 _ hx, fun hS e he => ?_⟩
  have := List.all_eq_true.1 (h2 _ hx hS) e he
  split at this
  · exact ⟨_, rfl⟩
  · simp at this

/-! ## C41 -/

/-- C41 is false: the impulse responses in the variable `Data.IR` of a file lose a dimension if there is only one
sample. -/
theorem C41_refuted : ∃ (nc : Nc) (a : Arr) (v : Val), a.shape = [1, 1, 1] ∧
    (formatFrom nc (py% "Data.IR") a).1 = .ok v ∧ Spec.shapeOf v = [1, 1] :=
  ⟨exNc, ⟨.f, [1, 1, 1], [.num (.fin 1)]⟩, .arr ⟨.f, [1, 1], [.num (.fin 1)]⟩, rfl, by decide, rfl⟩

/-- The delay loses its dimensions as well, under both names. -/
theorem C41_delay_refuted : ∃ (nc : Nc) (a : Arr) (v : Val), a.shape = [1, 1] ∧
    (formatFrom nc (py% "Data.Delay") a).1 = .ok v ∧ (formatFrom nc (py% "Data_Delay") a).1 = .ok v ∧
    Spec.shapeOf v = [1] :=
  ⟨exNc, ⟨.f, [1, 1], [.num (.fin 1)]⟩, .arr ⟨.f, [1], [.num (.fin 1)]⟩, rfl, by decide, by decide, rfl⟩

/-- C41, partial: the shape of a numeric variable does not change if it has no or more than one element, or if it is
stored with an underscore (`Data_IR`, `Data_Real`, `Data_Imag`). -/
theorem C41_shape_kept_partial (nc : Nc) (name : Str) (a : Arr) (hk : a.kind = .f ∨ a.kind = .i ∨ a.kind = .u)
    (hw : a.data.length = a.shape.foldr (· * ·) 1) (hs : a.shape ≠ [])
    (hd : a.data.length ≠ 1 ∨ name ∈ [py% "Data_IR", py% "Data_Real", py% "Data_Imag"]) :
    ∃ v, (formatFrom nc name a).1 = .ok v ∧ Spec.shapeOf v = a.shape := by
  rcases hd with hd | hd
  · obtain ⟨v, h1, _, _, _, h2⟩ := C42_missing nc name a hk hw hs
    exact ⟨v, h1, (h2 hd).1⟩
  · refine ⟨.arr ⟨a.kind, a.shape, a.data.map (maskFill nc a.kind)⟩, ?_, rfl⟩
    have hc : [py% "Data_IR", py% "Data_Real", py% "Data_Imag", py% "Data_SOSData_Delay"].contains name = true := by
      simp only [List.mem_cons, List.not_mem_nil, or_false] at hd
      rcases hd with rfl | rfl | rfl <;> decide
    unfold formatFrom
    rcases hk with h | h | h <;> simp only [h, squeezeSingle, hc, not_true_eq_false, and_false, if_false, true_or,
      or_true, if_true] <;> split <;> rfl

example : (formatFrom exNc (py% "Data.IR") ⟨.f, [1, 2], [.num (.fin 1), .num (.fin 2)]⟩).1 =
    .ok (.arr ⟨.f, [1, 2], [.num (.fin 1), .num (.fin 2)]⟩) ∧
    (formatFrom exNc (py% "Data_IR") ⟨.f, [1, 1], [.num (.fin 1)]⟩).1 = .ok (.arr ⟨.f, [1, 1], [.num (.fin 1)]⟩) := by
  decide

/-! ## C10, reading -/

/-- C10: objects that were read from a file are protected. -/
theorem C10_read_protects (env : Env) (nc : Nc) (fs : FS) (filename : Str) (arg : VerifyArg) (verbose : Bool) (o : Obj)
    (h : (readSofa env nc fs filename arg verbose).out = .ok o) : o.prot = true := by
  obtain ⟨path, f, c, v, new, o0, hR⟩ := readSofa_ok h
  have h0 : o0.prot = true := by
    have hl := hR.load
    unfold loadFile at hl
    split at hl
    · simp at hl
    · split at hl
      · simp at hl
      · dsimp only at hl
        split at hl
        · simp at hl
        · split at hl
          · simp at hl
          · simp only [Except.ok.injEq] at hl
            rw [← hl]
  rcases hR.verified with h1 | ⟨r, h1, h2⟩
  · rw [h1]; exact h0
  · rw [← h2]
    exact C10_verify_protects env o0 .read r h1

example : (match (readSofa exEnv exNc (exWritten exSofa) (py% "a.sofa") .auto true).out with
    | .ok o => o.prot
    | .error _ => false) = true := by decide +kernel

/-! ## C37, reading without verification -/

/-- C37: with `verify=False`, reading does not depend on the rules of the verification. -/
theorem C37_without_verification (env : Env) (rules aliases deprecations) (nc : Nc) (fs : FS) (filename : Str) (verbose : Bool) :
    readSofa { env with rules := rules, aliases := aliases, deprecations := deprecations } nc fs filename .no verbose =
      readSofa env nc fs filename .no verbose := by
  have h : ∀ c v, initSofa { env with rules := rules, aliases := aliases, deprecations := deprecations } c false (.exact v) .no =
      initSofa env c false (.exact v) .no := by
    intro c v
    unfold initSofa
    rw [show loadConvention { env with rules := rules, aliases := aliases, deprecations := deprecations } c (.exact v) =
      loadConvention env c (.exact v) from rfl]
    cases loadConvention env c (.exact v) with
    | error x => rfl
    | ok conv =>
      simp only
      rw [show conventionToSofa { env with rules := rules, aliases := aliases, deprecations := deprecations } false
        (emptyObj conv) = conventionToSofa env false (emptyObj conv) from rfl]
      cases conventionToSofa env false (emptyObj conv) with
      | error x => rfl
      | ok o =>
        simp only
        cases conventionVersion conv with
        | error x => rfl
        | ok v => rfl
  have hv : ∀ v c, verifyConvention { env with rules := rules, aliases := aliases, deprecations := deprecations } v c =
      verifyConvention env v c := fun v c => rfl
  have hr : ∀ o v, verifyRead { env with rules := rules, aliases := aliases, deprecations := deprecations } o v .no =
      verifyRead env o v .no := by
    intro o v
    simp only [verifyRead, Bool.false_eq_true, if_false]
  unfold readSofa
  simp only [h, hv, hr]

example (rules) : readSofa { exEnv with rules := rules } exNc (exWritten exSofa) (py% "a.sofa") .no true =
    readSofa exEnv exNc (exWritten exSofa) (py% "a.sofa") .no true :=
  C37_without_verification exEnv rules exEnv.aliases exEnv.deprecations _ _ _ _

/-! ## C39 -/

/-- C39: `write_sofa` and `read_sofa` use the same path: everything that is written is found by reading with the same
name, and reading depends on nothing but the file at this path. -/
theorem C39_same_path (env : Env) (nc : Nc) (fs : FS) (filename path : Str) (o : Obj) (compression : Nat)
    (hp : Spec.FileFor filename path) :
    (∀ p, p ≠ path → Dict.get? (writeSofa env nc fs filename o compression).fs.files p = Dict.get? fs.files p) ∧
    ∀ fs' arg verbose, Dict.get? fs'.files path = Dict.get? fs.files path →
      readSofa env nc fs' filename arg verbose = readSofa env nc fs filename arg verbose := by
  simp only [← withSuffix_iff] at *
  constructor
  · intro p hne
    rcases C34_what_changes env nc fs filename o compression with h | ⟨path', f, r, h1, _, _, _, h2⟩
    · rw [h]
    · have h1 := withSuffix_iff.2 h1
      rw [hp] at h1
      cases h1
      exact h2 p hne
  · intro fs' arg verbose hf
    have : openFile fs' filename = openFile fs filename := by
      unfold openFile
      simp only [hp, hf]
    unfold readSofa
    rw [this]

example : withSuffix (py% "dir/a.sofa") = .ok (py% "dir/a.sofa") := by decide

theorem splitChar_join {l : List Str} (hl : l ≠ []) (h : ∀ n ∈ l, '/' ∉ n) :
    Str.splitChar '/' (Str.join (py% "/") l) = l := by
  induction l with
  | nil => exact absurd rfl hl
  | cons a l ih =>
    cases l with
    | nil => exact splitChar_not_mem (h a (by simp))
    | cons b l =>
      simp only [Str.join, List.append_assoc, List.singleton_append]
      rw [splitChar_append (h a (by simp)), ih (by simp) (fun n hn => h n (by simp [hn]))]

theorem pathParts_join {l : List Str} (hl : l ≠ []) (h : ∀ n ∈ l, Spec.PlainName n) :
    pathParts (Str.join (py% "/") l) = l := by
  unfold pathParts
  rw [splitChar_join hl (fun n hn => (h n hn).2.2), List.filter_eq_self]
  intro n hn
  simpa using ⟨(h n hn).1, (h n hn).2.1⟩

theorem join_start {l : List Str} (hl : l ≠ []) (h : ∀ n ∈ l, Spec.PlainName n) :
    Str.startsWith (Str.join (py% "/") l) (py% "/") = false := by
  cases l with
  | nil => exact absurd rfl hl
  | cons a l =>
    obtain ⟨h1, _, h3⟩ := h a (by simp)
    cases a with
    | nil => exact absurd rfl h1
    | cons c a =>
      have hc : c ≠ '/' := by rintro rfl; exact h3 (by simp)
      cases l with
      | nil => simp [Str.join, Str.startsWith, List.isPrefixOf, Ne.symm hc]
      | cons b l => simp [Str.join, Str.startsWith, List.isPrefixOf, Ne.symm hc]

theorem pathParts_slash (s : Str) : pathParts (py% "/" ++ s) = pathParts s := by
  unfold pathParts
  have : Str.splitChar '/' (py% "/" ++ s) = [] :: Str.splitChar '/' s :=
    splitChar_append (c := '/') (s := []) (by simp) s
  rw [this, List.filter_cons_of_neg (by simp)]

theorem withSuffix_join {dir : List Str} {name : Str} (absolute : Bool) (hd : ∀ n ∈ dir, Spec.PlainName n)
    (hn : Spec.PlainName name) :
    withSuffix (Spec.location absolute (dir ++ [name])) = .ok (Spec.location absolute (dir ++ [suffixedName name])) := by
  have hall : ∀ n ∈ dir ++ [name], Spec.PlainName n := by
    intro n hm
    rcases List.mem_append.1 hm with h | h
    · exact hd n h
    · rw [List.mem_singleton.1 h]; exact hn
  have hparts : pathParts (Spec.location absolute (dir ++ [name])) = dir ++ [name] := by
    cases absolute with
    | false => exact pathParts_join (by simp) hall
    | true => exact (pathParts_slash _).trans (pathParts_join (by simp) hall)
  have hroot : Str.startsWith (Spec.location absolute (dir ++ [name])) (py% "/") = absolute := by
    cases absolute with
    | false => exact join_start (by simp) hall
    | true => simp [Spec.location, Str.startsWith, List.isPrefixOf]
  unfold withSuffix
  rw [hparts]
  simp only [List.getLast?_append, List.getLast?_singleton, Option.some_or, hroot, List.dropLast_concat]
  rfl

/-- C39: the ending `.sofa` is appended to names without dots, and not appended a second time. -/
theorem C39_suffix (absolute : Bool) (dir : List Str) (name : Str) (hd : ∀ n ∈ dir, Spec.PlainName n)
    (hn : Spec.PlainName name) (hdot : '.' ∉ name) :
    withSuffix (Spec.location absolute (dir ++ [name])) = .ok (Spec.location absolute (dir ++ [name ++ py% ".sofa"])) ∧
    withSuffix (Spec.location absolute (dir ++ [name ++ py% ".sofa"])) =
      .ok (Spec.location absolute (dir ++ [name ++ py% ".sofa"])) := by
  have hn2 : Spec.PlainName (name ++ py% ".sofa") := by
    refine ⟨by simp, ?_, ?_⟩
    · intro h
      have := congrArg List.length h
      simp at this
    · intro h
      rcases List.mem_append.1 h with h | h
      · exact hn.2.2 h
      · simp at h
  rw [withSuffix_join absolute hd hn, withSuffix_join absolute hd hn2]
  constructor
  · simp only [suffixedName, beforeLast_none hdot]
  · have : Str.beforeLast '.' (name ++ py% ".sofa") = some name := beforeLast_append _ _ (by decide)
    simp only [suffixedName, this]
    rw [if_pos ⟨hn.1, by simp⟩]

example : withSuffix (py% "/dir/a") = .ok (py% "/dir/a.sofa") ∧
    withSuffix (py% "/dir/a.sofa") = .ok (py% "/dir/a.sofa") := by
  have h := C39_suffix true [py% "dir"] (py% "a") (by simp [Spec.PlainName]) ⟨by simp, by simp, by simp⟩ (by simp)
  exact h

/-- C39: all files have the ending `.sofa`. -/
theorem C39_ending (filename path : Str) (h : withSuffix filename = .ok path) : (py% ".sofa") <:+ path := by
  unfold withSuffix at h
  split at h
  · simp at h
  · rename_i name hname
    simp only [Except.ok.injEq] at h
    subst h
    have h1 : ∀ n : Str, (py% ".sofa") <:+ suffixedName n := by
      intro n
      unfold suffixedName
      split
      · exact List.suffix_append _ _
      · split <;> exact List.suffix_append _ _
    have h2 : ∀ (l : List Str) (x : Str), x <:+ Str.join (py% "/") (l ++ [x]) := by
      intro l x
      induction l with
      | nil => simp [Str.join]
      | cons a l ih =>
        cases l with
        | nil => exact ⟨a ++ py% "/", by simp [Str.join]⟩
        | cons b l =>
          obtain ⟨t, ht⟩ := ih
          exact ⟨a ++ py% "/" ++ t, by simp only [List.cons_append, Str.join] at ht ⊢; rw [List.append_assoc, ht]⟩
    exact ((h1 name).trans (h2 _ _)).trans (List.suffix_append _ _)

example : withSuffix (py% "/data//subject.txt") = .ok (py% "/data/subject.sofa") := by decide

/-- C39: what is done with other endings. The last ending of a name is replaced. -/
theorem C39_replaced (absolute : Bool) (dir : List Str) (stem ending : Str) (hd : ∀ n ∈ dir, Spec.PlainName n)
    (hn : Spec.PlainName (stem ++ '.' :: ending)) (hs : stem ≠ []) (he : ending ≠ []) (hdot : '.' ∉ ending) :
    withSuffix (Spec.location absolute (dir ++ [stem ++ '.' :: ending])) =
      .ok (Spec.location absolute (dir ++ [stem ++ py% ".sofa"])) := by
  rw [withSuffix_join absolute hd hn]
  have : Str.beforeLast '.' (stem ++ '.' :: ending) = some stem := beforeLast_append _ _ hdot
  simp only [suffixedName, this]
  rw [if_pos ⟨hs, by
    cases ending with
    | nil => exact absurd rfl he
    | cons x l => simp⟩]

example : withSuffix (py% "a/b.c.d") = .ok (py% "a/b.c.sofa") := by decide

/-- C39 is false: other endings are replaced, and different names denote the same file. -/
theorem C39_refuted : ∃ a b path : Str, a ≠ b ∧ withSuffix a = .ok path ∧ withSuffix b = .ok path ∧
    ¬ (py% ".sofa") <:+ a ∧ ¬ (py% ".sofa") <:+ b :=
  ⟨py% "subject_1.5m", py% "subject_1.8m", py% "subject_1.sofa", by decide, by decide, by decide, by decide, by decide⟩

/-- C39, partial: different names without dots denote different files, in all folders. -/
theorem C39_injective_partial (absolute absolute' : Bool) (dir dir' : List Str) (name name' : Str)
    (hd : ∀ n ∈ dir, Spec.PlainName n) (hd' : ∀ n ∈ dir', Spec.PlainName n) (hn : Spec.PlainName name)
    (hn' : Spec.PlainName name') (hdot : '.' ∉ name) (hdot' : '.' ∉ name')
    (h : withSuffix (Spec.location absolute (dir ++ [name])) = withSuffix (Spec.location absolute' (dir' ++ [name']))) :
    absolute = absolute' ∧ dir = dir' ∧ name = name' := by
  rw [(C39_suffix absolute dir name hd hn hdot).1, (C39_suffix absolute' dir' name' hd' hn' hdot').1] at h
  simp only [Except.ok.injEq] at h
  have hplain : ∀ (d : List Str) (n : Str), (∀ m ∈ d, Spec.PlainName m) → Spec.PlainName n →
      ∀ m ∈ d ++ [n ++ py% ".sofa"], Spec.PlainName m := by
    intro d n h1 h2 m hm
    rcases List.mem_append.1 hm with h | h
    · exact h1 m h
    · rw [List.mem_singleton.1 h]
      refine ⟨by simp, ?_, ?_⟩
      · intro h
        have := congrArg List.length h
        simp at this
      · intro hm
        rcases List.mem_append.1 hm with h | h
        · exact h2.2.2 h
        · simp at h
  have key : ∀ (a : Bool) (d : List Str) (n : Str), (∀ m ∈ d, Spec.PlainName m) → Spec.PlainName n →
      Str.startsWith (Spec.location a (d ++ [n ++ py% ".sofa"])) (py% "/") = a ∧
      pathParts (Spec.location a (d ++ [n ++ py% ".sofa"])) = d ++ [n ++ py% ".sofa"] := by
    intro a d n h1 h2
    have hall := hplain d n h1 h2
    cases a with
    | false => exact ⟨join_start (by simp) hall, pathParts_join (by simp) hall⟩
    | true =>
      refine ⟨by simp [Spec.location, Str.startsWith, List.isPrefixOf], ?_⟩
      exact (pathParts_slash _).trans (pathParts_join (by simp) hall)
  obtain ⟨k1, k2⟩ := key absolute dir name hd hn
  obtain ⟨k3, k4⟩ := key absolute' dir' name' hd' hn'
  rw [h] at k1 k2
  have h2 := k2.symm.trans k4
  obtain ⟨h3, h4⟩ := List.append_inj' h2 rfl
  simp only [List.cons.injEq, List.append_cancel_right_eq, and_true] at h4
  exact ⟨k1.symm.trans k3, h3, h4⟩

example : withSuffix (py% "dir/a") ≠ withSuffix (py% "dir/b") ∧ withSuffix (py% "dir/a") ≠ withSuffix (py% "/dir/a") := by
  decide

end Sofar
