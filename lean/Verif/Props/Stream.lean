import Verif.Lemmas.Paths
import Verif.Lemmas.Stream
import Verif.Props.RoundTrip
/-!
# Reading single entries from disk (C43, C44)
-/
namespace Sofar

/-! ## C43 -/

/-- C43, values, for objects that can be stored without loss (`Storable`): after writing, the stream gives
- for variables, the variable of the file, which holds the value of the object,
- for global attributes, their text, unless there is also a variable of the bare name,
- for attributes of variables, their text, unless the name of the variable ends with `Data` or `GLOBAL`.

Missing: names with additional underscores and the exceptions above, which are all false (see below). -/
theorem C43_values_partial (env : Env) (nc : Nc) (fs : FS) (filename : Str) (o : Obj) (compression : Nat)
    (hw : (writeSofa env nc fs filename o compression).out = .ok ())
    (hs : Spec.Storable env.rnd nc.isFill (writeSofa env nc fs filename o compression).obj) :
    ∃ path f, Spec.FileFor filename path ∧
      openStream (writeSofa env nc fs filename o compression).fs path = .ok f ∧
      (∀ k v e, Spec.IsVariable (writeSofa env nc fs filename o compression).obj k v e → Spec.PlainVariable k →
        ∃ x, streamGet nc f k = .ok (.variable_ x) ∧ Spec.HoldsValue env.rnd x e.typ v) ∧
      (∀ a t, Spec.HasText (writeSofa env nc fs filename o compression).obj (py% "GLOBAL_" ++ a) t → '_' ∉ a →
        (∀ v e, ¬ Spec.IsVariable (writeSofa env nc fs filename o compression).obj (Spec.dotName a) v e) →
        streamGet nc f (py% "GLOBAL_" ++ a) = .ok (.value (.str t))) ∧
      (∀ k v e a t, Spec.IsVariable (writeSofa env nc fs filename o compression).obj k v e → Spec.PlainVariable k →
        Spec.HasText (writeSofa env nc fs filename o compression).obj (k ++ '_' :: a) t → '_' ∉ a →
        ¬ (py% "Data") <:+ k → ¬ (py% "GLOBAL") <:+ k →
        streamGet nc f (k ++ '_' :: a) = .ok (.value (.str t))) := by
  simp only [← withSuffix_iff] at *
  obtain ⟨path, f, o1, api, ds, r, hW, hfile, hver, hobj⟩ := writeSofa_ok hw
  generalize (writeSofa env nc fs filename o compression).obj = o' at *
  generalize (writeSofa env nc fs filename o compression).fs = fs' at *
  have hdots : ∀ k ∈ o'.keys, '.' ∉ k := fun k hk => (hs.names k hk).2.1
  have hget : ∀ k v e, Spec.IsVariable o' k v e →
      ∃ x, Dict.get? f.vars (ncName k) = some x ∧ VarWritten env nc o' api ds k (ncName k, x) := by
    intro k v e hk
    obtain ⟨e', he', hp⟩ := hW.file.all k (mem_keys_of_get hk.1)
    rw [hk.2.1] at he'
    cases he'
    obtain ⟨p, hp1, hp2⟩ := hp hk.2.2
    exact mem_files_unique hW.file hdots hp1 hp2
  refine ⟨path, f, hW.loc, by simp [openStream, hfile], ?_, ?_, ?_⟩
  · intro k v e hk hpl
    obtain ⟨x, hx, hvw⟩ := hget k v e hk
    obtain ⟨v', e', hv', hh⟩ := holds_value hW hs hvw
    have e1 : v' = v := by have := hv'.1; rw [hk.1] at this; simpa using this.symm
    have e2 : e' = e := by have := hv'.2.1; rw [hk.2.1] at this; simpa using this.symm
    subst e1 e2
    refine ⟨x, ?_, hh⟩
    rw [streamGet_plain hpl (hs.names k (mem_keys_of_get hk.1)).1]
    simp [streamLookup, hx]
  · intro a t ht ha hno
    rw [streamGet_global ha]
    have hfg := file_global hW hs ht
    have hnone : Dict.get? f.vars a = none := by
      cases hg : Dict.get? f.vars a with
      | none => rfl
      | some x =>
        obtain ⟨k, hk, hvw⟩ := hW.file.from_ _ (Dict.mem_of_get? hg)
        obtain ⟨v, e, hv, _⟩ := holds_value hW hs hvw
        obtain ⟨_, _, _, _, _, _, _, _, _, _, _, _, _, _, _, _, _, _, h, _⟩ := hvw.ex
        simp only at h
        have : Spec.dotName a = k := by rw [h]; exact dotName_ncName (hdots k hk)
        exact absurd (this ▸ hv) (hno v e)
    simp [streamLookup, hnone, hfg]
  · intro k v e a t hk hpl ht ha hD hG
    obtain ⟨wt, hwt, htt⟩ := ht
    have hkk : k ++ '_' :: a ∈ o'.keys := mem_keys_of_get hwt
    rw [streamGet_attr hpl ha hG hD (hs.names _ hkk).1]
    obtain ⟨x, hx, hvw⟩ := hget k v e hk
    have hm := hvw.attrs.all a (subKeys_mem.2 ⟨by simpa using hkk, by simp⟩)
    obtain ⟨w, hw'⟩ := (Dict.has_iff _ _).1 ((Dict.has_iff_mem _ _).2 hm)
    have hmem := Dict.mem_of_get? hw'
    obtain ⟨v1, h1, h2, rfl, h3, _⟩ := hvw.attrs.from_ a w hmem
    obtain ⟨v2, _, hat, _⟩ := good_attribute hW hs hvw.attrs (Or.inr ⟨k, v, e, hk, rfl⟩) hmem
    simp only [List.append_assoc, List.cons_append, List.nil_append] at h2 hat
    have hv2 := hat.1
    rw [hwt] at h2 hv2
    cases h2
    cases hv2
    rw [pyStr_text htt, ncText_id ((hs.attributes _ _ hat).2 t htt)] at hw'
    simp only at hw'
    simp [streamLookup, hx, variableAttr, h3, hw']

/-- C43, missing names: names of data that is not in the file raise AttributeError. This concerns
- names of variables, unless there is a global attribute of that name,
- names of global attributes, unless there is a variable of the bare name,
- attributes of variables in the file (unless the netCDF library has a member of that name), and of other variables
  (unless there is a global attribute with the name of the variable).

Missing: names with additional underscores and the exceptions above, which are false (see below). -/
theorem C43_missing_partial (nc : Nc) (f : NcFile) :
    (∀ k, Spec.PlainVariable k → Spec.OrdinaryName k → '.' ∉ k → ¬ Spec.InFile f k →
      (∀ n, Spec.dotName n = k → ¬ Spec.InFile f (py% "GLOBAL_" ++ n)) →
      ∃ msg, streamGet nc f k = .error (.attributeError msg)) ∧
    (∀ a, '_' ∉ a → '.' ∉ a → ¬ Spec.InFile f (py% "GLOBAL_" ++ a) → ¬ Spec.InFile f a →
      ∃ msg, streamGet nc f (py% "GLOBAL_" ++ a) = .error (.attributeError msg)) ∧
    (∀ k a, Spec.PlainVariable k → '_' ∉ a → '.' ∉ k → Spec.OrdinaryName (k ++ '_' :: a) →
      ¬ (py% "Data") <:+ k → ¬ (py% "GLOBAL") <:+ k → ¬ Spec.InFile f (k ++ '_' :: a) →
      (∀ n, Spec.dotName n = k → Spec.InFile f (py% "GLOBAL_" ++ n) → ∃ x, (n, x) ∈ f.vars) →
      nc.reserved a = false →
      ∃ msg, streamGet nc f (k ++ '_' :: a) = .error (.attributeError msg)) := by
  have hvar : ∀ n x, Dict.get? f.vars n = some x → Spec.InFile f (Spec.dotName n) :=
    fun n x h => .variableData n x (Dict.mem_of_get? h)
  have hglob : ∀ n v, Dict.get? f.attrs n = some v → Spec.InFile f (py% "GLOBAL_" ++ n) :=
    fun n v h => .globalAttribute n v (Dict.mem_of_get? h)
  refine ⟨?_, ?_, ?_⟩
  · intro k hp ho hd hn hng
    rw [streamGet_plain hp ho]
    unfold streamLookup
    cases h1 : Dict.get? f.vars (ncName k) with
    | some x => exact absurd (dotName_ncName hd ▸ hvar _ _ h1) hn
    | none =>
      cases h2 : Dict.get? f.attrs (ncName k) with
      | some v => exact absurd (hglob _ _ h2) (hng _ (dotName_ncName hd))
      | none => exact ⟨_, rfl⟩
  · intro a ha hd hn hnv
    rw [streamGet_global ha]
    unfold streamLookup
    have hda : Spec.dotName a = a := by
      unfold Spec.dotName
      conv => rhs; rw [← List.map_id a]
      apply List.map_congr_left
      intro c hc
      rw [if_neg (fun h : c = '.' => hd (h ▸ hc))]
      rfl
    cases h1 : Dict.get? f.vars a with
    | some x => exact absurd (hda ▸ hvar _ _ h1) hnv
    | none =>
      cases h2 : Dict.get? f.attrs a with
      | some v => exact absurd (hglob _ _ h2) hn
      | none => exact ⟨_, rfl⟩
  · intro k a hp ha hd ho hD hG hn hng hr
    rw [streamGet_attr hp ha hG hD ho]
    unfold streamLookup
    cases h1 : Dict.get? f.vars (ncName k) with
    | some x =>
      simp only [variableAttr, hr, Bool.false_eq_true, if_false]
      cases h2 : Dict.get? x.attrs a with
      | none => exact ⟨_, rfl⟩
      | some w =>
        refine absurd ?_ hn
        have := Spec.InFile.variableAttribute (ncName k) x a w (Dict.mem_of_get? h1) (Dict.mem_of_get? h2)
          (fun h => ha (by rw [h]; decide))
        rwa [dotName_ncName hd] at this
    | none =>
      cases h2 : Dict.get? f.attrs (ncName k) with
      | none => exact ⟨_, rfl⟩
      | some v =>
        obtain ⟨x, hx⟩ := hng _ (dotName_ncName hd) (hglob _ _ h2)
        have := (Dict.has_iff_mem f.vars (ncName k)).2 (List.mem_map.2 ⟨_, hx, rfl⟩)
        simp [Dict.has, h1] at this

/-- the file that the example is written to, opened as a stream -/
example : openStream (exWritten exSofa) (py% "a.sofa") = .ok exFile ∧
    (match streamGet exNc exFile (py% "Data_IR") with
      | .ok (.variable_ x) => x.dims = [py% "M", py% "R", py% "N"] | _ => false) = true ∧
    streamGet exNc exFile (py% "GLOBAL_SOFAConventions") = .ok (.value (.str (py% "FIR"))) ∧
    (match streamGet exNc exFile (py% "Data_Foo") with | .error (.attributeError _) => true | _ => false) = true ∧
    (match streamGet exNc exFile (py% "GLOBAL_Foo") with | .error (.attributeError _) => true | _ => false) = true ∧
    (match streamGet exNc exFile (py% "Data_IR_Foo") with | .error (.attributeError _) => true | _ => false) = true := by
  decide +kernel

/-- a custom variable with units -/
def exMeta (name : Str) : Obj :=
  (addAttribute (addVariable exSofa name (.val (.arr (exNums .f [1, 3] [1, 2, 3]))) (py% "double") (some (py% "MN"))).obj
    (name ++ py% "_Units") (.val (.str (py% "metre")))).obj

/-- the hypotheses of `C43_values_partial` for an object with an attribute of a variable -/
example : (writeSofa exEnv exNc exDisk (py% "a") (exMeta (py% "Foo")) 4).out = .ok () ∧
    Spec.Storable exEnv.rnd exNc.isFill (writeSofa exEnv exNc exDisk (py% "a") (exMeta (py% "Foo")) 4).obj ∧
    Spec.HasText (writeSofa exEnv exNc exDisk (py% "a") (exMeta (py% "Foo")) 4).obj (py% "Foo_Units") (py% "metre") :=
  ⟨by decide +kernel, storable_of_check (by decide +kernel), .str (py% "metre"), by decide +kernel, rfl⟩

/-- an open file -/
def exOpened (o : Obj) : NcFile := (openStream (exWritten o) (py% "a.sofa")).toOption.getD .empty

/-- C43 is false for attributes of variables: `MetaData_Units` is written, but the stream does not find it because
`Data_` within the name is taken for the beginning of a name such as `Data.IR`. -/
theorem C43_refuted_attribute : ∃ (env : Env) (nc : Nc) (fs : FS) (o : Obj) (k t msg : Str) (f : NcFile),
    (writeSofa env nc fs (py% "a") o 4).out = .ok () ∧
    Spec.Storable env.rnd nc.isFill (writeSofa env nc fs (py% "a") o 4).obj ∧
    openStream (writeSofa env nc fs (py% "a") o 4).fs (py% "a.sofa") = .ok f ∧
    Spec.HasText (writeSofa env nc fs (py% "a") o 4).obj k t ∧ Spec.InFile f k ∧
    streamGet nc f k = .error (.attributeError msg) := by
  refine ⟨exEnv, exNc, exDisk, exMeta (py% "MetaData"), py% "MetaData_Units", py% "metre",
    py% "MetaData_Units is not contained in SOFA-file", exOpened (exMeta (py% "MetaData")), by decide +kernel,
    storable_of_check (by decide +kernel), by decide +kernel, ⟨.str (py% "metre"), by decide +kernel, rfl⟩, ?_,
    by decide +kernel⟩
  have h : (match Dict.get? (exOpened (exMeta (py% "MetaData"))).vars (py% "MetaData") with
    | some x => Dict.get? x.attrs (py% "Units") = some (.str (py% "metre")) | none => false) = true := by decide +kernel
  cases hx : Dict.get? (exOpened (exMeta (py% "MetaData"))).vars (py% "MetaData") with
  | none => simp [hx] at h
  | some x =>
    rw [hx] at h
    simp only [decide_eq_true_eq] at h
    exact .variableAttribute (py% "MetaData") x (py% "Units") _ (Dict.mem_of_get? hx) (Dict.mem_of_get? h) (by decide)

/-- a variable and a global attribute of the same name -/
def exTwice : Obj :=
  (addAttribute (addVariable exSofa (py% "Foo") (.val (.arr (exNums .f [1, 3] [1, 2, 3]))) (py% "double")
    (some (py% "MN"))).obj (py% "GLOBAL_Foo") (.val (.str (py% "text")))).obj

/-- C43 is false for global attributes: the stream gives the variable `Foo` for `GLOBAL_Foo`. -/
theorem C43_refuted_global : ∃ (env : Env) (nc : Nc) (fs : FS) (o : Obj) (k t : Str) (x : NcVar) (f : NcFile),
    (writeSofa env nc fs (py% "a") o 4).out = .ok () ∧
    Spec.Storable env.rnd nc.isFill (writeSofa env nc fs (py% "a") o 4).obj ∧
    openStream (writeSofa env nc fs (py% "a") o 4).fs (py% "a.sofa") = .ok f ∧
    Spec.HasText (writeSofa env nc fs (py% "a") o 4).obj k t ∧ streamGet nc f k = .ok (.variable_ x) :=
  ⟨exEnv, exNc, exDisk, exTwice, py% "GLOBAL_Foo", py% "text",
    (Dict.get? (exOpened exTwice).vars (py% "Foo")).getD ⟨[], ⟨.f, [], []⟩, []⟩,
    exOpened exTwice, by decide +kernel, storable_of_check (by decide +kernel), by decide +kernel,
    ⟨.str (py% "text"), by decide +kernel, rfl⟩, by decide +kernel⟩

/-- C43 is false for missing names: `SOFAConventions` and `SOFAConventions_Foo` are not in the file, but give the global
attribute. Names with more underscores raise ValueError. -/
theorem C43_refuted_missing : ∃ (env : Env) (nc : Nc) (fs : FS) (o : Obj) (a b c t msg : Str) (f : NcFile),
    (writeSofa env nc fs (py% "a") o 4).out = .ok () ∧
    openStream (writeSofa env nc fs (py% "a") o 4).fs (py% "a.sofa") = .ok f ∧
    ¬ Spec.IsData (writeSofa env nc fs (py% "a") o 4).obj a ∧ streamGet nc f a = .ok (.value (.str t)) ∧
    ¬ Spec.IsData (writeSofa env nc fs (py% "a") o 4).obj b ∧ streamGet nc f b = .ok (.value (.str t)) ∧
    ¬ Spec.IsData (writeSofa env nc fs (py% "a") o 4).obj c ∧ streamGet nc f c = .error (.valueError msg) := by
  refine ⟨exEnv, exNc, exDisk, exSofa, py% "SOFAConventions", py% "SOFAConventions_Foo", py% "A_B_C", py% "FIR",
    py% "too many values to unpack", exFile, ?_⟩
  unfold Spec.IsData
  decide +kernel

/-! ## C44 -/

/-- C44: for every dimension of the written object with at least one element, the stream gives the same size. Missing:
dimensions of size zero, for which this is false (see below). -/
theorem C44_size_partial (env : Env) (nc : Nc) (fs : FS) (filename : Str) (o : Obj) (compression : Nat)
    (hw : (writeSofa env nc fs filename o compression).out = .ok ()) :
    ∃ path f, Spec.FileFor filename path ∧
      openStream (writeSofa env nc fs filename o compression).fs path = .ok f ∧
      ∀ d n, n ≠ 0 → ((getDimension env o d).out = .ok n ∨
          (getDimension env (writeSofa env nc fs filename o compression).obj d).out = .ok n) →
        streamDimension f d = .ok n := by
  simp only [← withSuffix_iff] at *
  obtain ⟨path, f, o1, api, ds, r, hW, hfile, hver, hobj⟩ := writeSofa_ok hw
  refine ⟨path, f, hW.loc, by simp [openStream, hfile], ?_⟩
  have hagain := C30_idempotent env o .write r hver
  rw [← hobj] at hagain
  have hap : (verify env o .raise .write).obj.api = some api := by rw [← hobj, hW.verified.obj]
  have h1 := getDimension_raise hver hap
  have h2 := getDimension_raise (o := (writeSofa env nc fs filename o compression).obj) (by rw [hagain]; exact hver)
    (by rw [hagain]; exact hap)
  intro d n hn h
  have hd : Dict.get? api d = some n := by
    rw [h1, h2, or_self] at h
    cases hg : Dict.get? api d with
    | none => simp [hg] at h
    | some m => simpa [hg] using h
  obtain ⟨m, hm1, hm2⟩ := hW.file.dims d n hd
  simp [streamDimension, hm1, hm2 hn]

/-- C44: exactly the names that are no dimensions of the written object raise ValueError in both cases; all other names
give a size. -/
theorem C44_names (env : Env) (nc : Nc) (fs : FS) (filename : Str) (o : Obj) (compression : Nat)
    (hw : (writeSofa env nc fs filename o compression).out = .ok ()) :
    ∃ path f, Spec.FileFor filename path ∧
      openStream (writeSofa env nc fs filename o compression).fs path = .ok f ∧
      ∀ d, ((∃ n, (getDimension env o d).out = .ok n) ∧ ∃ n, streamDimension f d = .ok n) ∨
        (∃ msg msg', (getDimension env o d).out = .error (.valueError msg) ∧
          streamDimension f d = .error (.valueError msg')) := by
  simp only [← withSuffix_iff] at *
  obtain ⟨path, f, o1, api, ds, r, hW, hfile, hver, hobj⟩ := writeSofa_ok hw
  refine ⟨path, f, hW.loc, by simp [openStream, hfile], ?_⟩
  have h1 := getDimension_raise hver (by rw [← hobj, hW.verified.obj])
  intro d
  rw [h1]
  cases hg : Dict.get? api d with
  | some n =>
    obtain ⟨m, hm1, _⟩ := hW.file.dims d n hg
    exact Or.inl ⟨⟨n, rfl⟩, m, by simp [streamDimension, hm1]⟩
  | none =>
    refine Or.inr ⟨_, d ++ py% " is not a valid dimension.", rfl, ?_⟩
    have hno : Dict.get? f.dims d = none := by
      cases hf : Dict.get? f.dims d with
      | none => rfl
      | some x =>
        have := (hW.file.dimKeys d).1 ((Dict.has_iff_mem _ _).1 ((Dict.has_iff _ _).2 ⟨x, hf⟩))
        rw [← Dict.has_iff_mem] at this
        simp [Dict.has, hg] at this
    simp [streamDimension, hno]

example : (writeSofa exEnv exNc exDisk (py% "a") exSofa 4).out = .ok () ∧
    (getDimension exEnv exSofa (py% "N")).out = .ok 3 ∧ streamDimension exFile (py% "N") = .ok 3 ∧
    (match (getDimension exEnv exSofa (py% "Q")).out with | .error (.valueError _) => true | _ => false) = true := by
  decide +kernel

/-- the example with empty texts -/
def exNoText : Obj := exPut exSofa (py% "Names") (.arr ⟨.U, [2, 1], [.str [], .str []]⟩)

/-- C44 is false: if all texts are empty, S is zero for the object. The file gets an unlimited dimension that holds one
character. -/
theorem C44_refuted : ∃ (env : Env) (nc : Nc) (fs : FS) (o : Obj) (f : NcFile),
    (writeSofa env nc fs (py% "a") o 4).out = .ok () ∧
    openStream (writeSofa env nc fs (py% "a") o 4).fs (py% "a.sofa") = .ok f ∧
    (getDimension env o (py% "S")).out = .ok 0 ∧ streamDimension f (py% "S") = .ok 1 :=
  ⟨exEnv, exNc, exDisk, exNoText, exOpened exNoText, by decide +kernel, by decide +kernel, by decide +kernel, by decide +kernel⟩

/-- The file is opened under exactly the given name: contrary to `read_sofa` and `write_sofa`, the suffix is not added. -/
theorem C43_suffix : ∃ (env : Env) (nc : Nc) (fs : FS) (o : Obj) (o2 : Obj) (e : Exc),
    (writeSofa env nc fs (py% "a") o 4).out = .ok () ∧
    (readSofa env nc (writeSofa env nc fs (py% "a") o 4).fs (py% "a") .no false).out = .ok o2 ∧
    openStream (writeSofa env nc fs (py% "a") o 4).fs (py% "a") = .error e :=
  ⟨exEnv, exNc, exDisk, exSofa, (readSofa exEnv exNc (exWritten exSofa) (py% "a") .no false).out.toOption.getD exSofa,
    .osError (py% "No such file or directory"), by decide +kernel, by decide +kernel, by decide +kernel⟩

end Sofar
