import Verif.Lemmas.Paths
import Verif.Lemmas.Storable
import Verif.Lemmas.Writable
import Verif.Props.Files
import Verif.Props.Equals
/-!
# Writing and reading again (C32, C33, C36, C38, C40)
-/
namespace Sofar

/-! ## C32 -/

/-- C32, for objects that can be stored without loss (`Storable`): if the object was written and the file can be read,
the comparison of both objects gives `True`. Any of the arguments of `read_sofa` may be used. -/
theorem C32_equal_partial (env : Env) (nc : Nc) (fs : FS) (filename : Str) (o : Obj) (compression : Nat) (c v : Str)
    (arg : VerifyArg) (verbose verbose' : Bool) (new o2 : Obj)
    (hw : (writeSofa env nc fs filename o compression).out = .ok ())
    (hs : Spec.Storable env.rnd nc.isFill (writeSofa env nc fs filename o compression).obj)
    (hn : (o.attrs.map Prod.fst).Nodup)
    (hc : Spec.HasText o (py% "GLOBAL_SOFAConventions") c) (hv : Spec.HasText o (py% "GLOBAL_SOFAConventionsVersion") v)
    (hnew : (initSofa env c false (.exact v) arg).out = .ok new) (hd : Spec.DescribesItself c v new)
    (hr : (readSofa env nc (writeSofa env nc fs filename o compression).fs filename arg verbose).out = .ok o2) :
    (equals (writeSofa env nc fs filename o compression).obj o2 verbose' none).out = .ok true := by
  obtain ⟨o1, api, ds, hV, ⟨hnd2, _⟩, hIs, htyp⟩ := round_trip hw hs hc hv hnew hd hr
  generalize (writeSofa env nc fs filename o compression).obj = o' at *
  rw [← hV.attrs.1] at hn
  obtain ⟨res, h1, h2⟩ := C46_exact_partial o' o2 verbose' hn hnd2
    (by
      intro k v hv
      obtain ⟨w, hw⟩ := get_of_mem_keys ((hIs k).1 (mem_keys_of_get hv))
      obtain ⟨i, e, e2, rfl, rfl, hg, _⟩ := htyp k v w hv hw
      exact ⟨e, hg.entry, hg.fits'⟩)
    (by
      intro k w hw
      obtain ⟨v, hv⟩ := get_of_mem_keys ((hIs k).2 (mem_keys_of_get hw))
      obtain ⟨i, e, e2, rfl, rfl, hg, h1, h2, _⟩ := htyp k v w hv hw
      exact ⟨e2, h1, by rw [h2]; exact hg.fits⟩)
    (by
      intro k v w hv hw
      obtain ⟨i, e, e2, rfl, rfl, hg, h1, h2, _⟩ := htyp k v w hv hw
      exact hg.shape)
  rw [h1]
  congr 1
  rw [h2]
  refine ⟨hIs, ?_⟩
  intro k v w ea eb hv hw hea heb
  obtain ⟨i, e, e2, rfl, rfl, hg, h1, h2, _⟩ := htyp k v w hv hw
  rw [hg.entry] at hea
  cases hea
  rw [h1] at heb
  cases heb
  exact ⟨h2.symm, hg.same⟩

/-- C32, for objects that can be stored without loss: after writing, `read_sofa` with `verify=False` succeeds and the
comparison of both objects gives `True`. -/
theorem C32_round_trip_partial (env : Env) (nc : Nc) (fs : FS) (filename : Str) (o : Obj) (compression : Nat) (c v : Str)
    (verbose verbose' : Bool) (new : Obj) (hw : (writeSofa env nc fs filename o compression).out = .ok ())
    (hs : Spec.Storable env.rnd nc.isFill (writeSofa env nc fs filename o compression).obj)
    (hn : (o.attrs.map Prod.fst).Nodup)
    (hc : Spec.HasText o (py% "GLOBAL_SOFAConventions") c) (hv : Spec.HasText o (py% "GLOBAL_SOFAConventionsVersion") v)
    (hnew : (initSofa env c false (.exact v) .no).out = .ok new) (hd : Spec.DescribesItself c v new) :
    ∃ o2, (readSofa env nc (writeSofa env nc fs filename o compression).fs filename .no verbose).out = .ok o2 ∧
      (equals (writeSofa env nc fs filename o compression).obj o2 verbose' none).out = .ok true := by
  suffices h : ∃ o2, (readSofa env nc (writeSofa env nc fs filename o compression).fs filename .no verbose).out = .ok o2 by
    obtain ⟨o2, h⟩ := h
    exact ⟨o2, h, C32_equal_partial env nc fs filename o compression c v .no verbose verbose' new o2 hw hs hn hc hv hnew hd h⟩
  obtain ⟨path, f, o1, api, ds, r, hW, hfile, hver, hobj⟩ := writeSofa_ok hw
  generalize (writeSofa env nc fs filename o compression).obj = o' at *
  generalize (writeSofa env nc fs filename o compression).fs = fs' at *
  have hat := hW.verified.attrs
  unfold Spec.HasText at hc hv
  obtain ⟨l, hl, hgood, hall⟩ := good_items hW hs
  have hord : ∀ i ∈ l, Spec.OrdinaryName i.name := by
    intro i hi
    obtain ⟨v, e, hg⟩ := hgood i hi
    exact (hs.names i.name (mem_keys_of_get hg.value)).1
  obtain ⟨o0, ho0⟩ := loadFile_total (vb := verbose) (initSofa_nodup hnew) hl hord
  obtain ⟨cv', c', vv, conv', r1, r2, r3, r4, r5, r6⟩ := resetConvention_inv hW.verified.reset
  have hknown : verifyConvention env v c = .ok () := by
    obtain ⟨wc, hwc, htc⟩ := hc
    obtain ⟨wv, hwv, htv⟩ := hv
    rw [getAttr_of_get hwc] at r1
    rw [getAttr_of_get hwv] at r3
    cases r1
    cases r3
    rw [asStr_text, htc] at r2
    cases r2
    rw [pyStr_text htv] at r4
    exact r4
  rw [← hat.1] at hc hv
  have hopen : openFile fs' filename = .ok f := by
    unfold openFile
    rw [hW.loc]
    simp only [hfile]
  have hfc := file_global hW hs (a := py% "SOFAConventions") hc
  have hfv := file_global hW hs (a := py% "SOFAConventionsVersion") hv
  unfold readSofa
  simp only [hopen, fileAttr, hfc, hfv, Val.asStr, hknown, hnew, ho0, verifyRead]
  exact ⟨o0, rfl⟩

/-- a new object without loss: the hypotheses of the theorems are met -/
theorem exSofa_stored : (writeSofa exEnv exNc exDisk (py% "a") exSofa 4).out = .ok () ∧
    Spec.Storable exEnv.rnd exNc.isFill (writeSofa exEnv exNc exDisk (py% "a") exSofa 4).obj ∧
    (exSofa.attrs.map Prod.fst).Nodup ∧ Spec.HasText exSofa (py% "GLOBAL_SOFAConventions") (py% "FIR") ∧
    Spec.HasText exSofa (py% "GLOBAL_SOFAConventionsVersion") (py% "1.0") :=
  ⟨by decide +kernel, storable_of_check (by decide +kernel), by decide +kernel, ⟨.str (py% "FIR"), by decide +kernel, rfl⟩,
    ⟨.str (py% "1.0"), by decide +kernel, rfl⟩⟩

/-- the object that `read_sofa` starts with -/
def exNew : Obj :=
  match (initSofa exEnv (py% "FIR") false (.exact (py% "1.0")) .no).out with
  | .ok o => o
  | .error _ => emptyObj []

theorem exNew_ok : (initSofa exEnv (py% "FIR") false (.exact (py% "1.0")) .no).out = .ok exNew ∧
    Spec.DescribesItself (py% "FIR") (py% "1.0") exNew :=
  ⟨by decide +kernel, ⟨.str (py% "FIR"), by decide +kernel, rfl⟩, ⟨.str (py% "1.0"), by decide +kernel, rfl⟩, by
    have : ∀ k ∈ exNew.attrs.map Prod.fst, k ∈ exNew.conv.map Prod.fst := by decide +kernel
    exact this⟩

example : ∃ o2, (readSofa exEnv exNc (exWritten exSofa) (py% "a") .no true).out = .ok o2 ∧
    (equals (writeSofa exEnv exNc exDisk (py% "a") exSofa 4).obj o2 true none).out = .ok true :=
  C32_round_trip_partial _ _ _ _ _ _ _ _ _ _ _ exSofa_stored.1 exSofa_stored.2.1 exSofa_stored.2.2.1 exSofa_stored.2.2.2.1
    exSofa_stored.2.2.2.2 exNew_ok.1 exNew_ok.2

/-- the object that `read_sofa` starts with if it verifies -/
def exNewVerified : Obj :=
  match (initSofa exEnv (py% "FIR") false (.exact (py% "1.0")) .yes).out with
  | .ok o => o
  | .error _ => emptyObj []

theorem exNewVerified_ok : (initSofa exEnv (py% "FIR") false (.exact (py% "1.0")) .yes).out = .ok exNewVerified ∧
    Spec.DescribesItself (py% "FIR") (py% "1.0") exNewVerified :=
  ⟨by decide +kernel, ⟨.str (py% "FIR"), by decide +kernel, rfl⟩, ⟨.str (py% "1.0"), by decide +kernel, rfl⟩, by
    have : ∀ k ∈ exNewVerified.attrs.map Prod.fst, k ∈ exNewVerified.conv.map Prod.fst := by decide +kernel
    exact this⟩

/-- the file can also be read with verification -/
example : ∃ o2, (readSofa exEnv exNc (exWritten exSofa) (py% "a") .yes true).out = .ok o2 ∧
    (equals (writeSofa exEnv exNc exDisk (py% "a") exSofa 4).obj o2 false none).out = .ok true := by
  have hr : (readSofa exEnv exNc (exWritten exSofa) (py% "a") .yes true).out =
      .ok ((readSofa exEnv exNc (exWritten exSofa) (py% "a") .yes true).out.toOption.getD exSofa) := by decide +kernel
  exact ⟨_, hr, C32_equal_partial _ _ _ _ _ _ _ _ _ _ _ _ _ exSofa_stored.1 exSofa_stored.2.1
    exSofa_stored.2.2.1 exSofa_stored.2.2.2.1 exSofa_stored.2.2.2.2 exNewVerified_ok.1 exNewVerified_ok.2 hr⟩

/-- a custom variable of an object with four samples -/
def exGrid (name : Str) (v : Val) (dims : Str) : Obj :=
  (addVariable (exPut exSofa (py% "Data_IR") (.arr (exNums .f [1, 2, 4] [1, 2, 3, 4, 5, 6, 7, 8]))) name (.val v)
    (py% "double") (some dims)).obj

/-- C32 is false: the array of a variable with a single dimension may have any shape with the right number of elements,
but the file only contains the number of elements. -/
theorem C32_refuted : ∃ (env : Env) (nc : Nc) (fs : FS) (o o2 : Obj), 
    (writeSofa env nc fs (py% "a") o 4).out = .ok () ∧
    (readSofa env nc (writeSofa env nc fs (py% "a") o 4).fs (py% "a") .auto true).out = .ok o2 ∧
    (equals (writeSofa env nc fs (py% "a") o 4).obj o2 true none).out = .ok false :=
  let o := exGrid (py% "Foo") (.arr (exNums .f [2, 2] [1, 2, 3, 4])) (py% "N")
  let r := (readSofa exEnv exNc (writeSofa exEnv exNc exDisk (py% "a") o 4).fs (py% "a") .auto true).out
  ⟨exEnv, exNc, exDisk, o, r.toOption.getD exSofa, by decide +kernel, by decide +kernel, by decide +kernel⟩

/-- C32 is false: an object with a custom variable `Data` is written but can not be read again, because `Data_IR` is
stored as attribute of the custom variable. -/
theorem C32_unreadable_refuted : ∃ (env : Env) (nc : Nc) (fs : FS) (o : Obj),
    (writeSofa env nc fs (py% "a") o 4).out = .ok () ∧
    (readSofa env nc (writeSofa env nc fs (py% "a") o 4).fs (py% "a") .auto true).out.toOption = none :=
  ⟨exEnv, exNc, exDisk, exGrid (py% "Data") (.arr (exNums .f [2, 2] [1, 2, 3, 4])) (py% "N"), by decide +kernel,
    by decide +kernel⟩

/-! ## C33 -/

/-- C33, for objects that can be stored without loss: after writing and reading, the shape of a variable is given by its
dimensions (without the number of characters `S`). If the variable has a single element, the first dimension is
missing. -/
theorem C33_shape_partial (env : Env) (nc : Nc) (fs : FS) (filename : Str) (o : Obj) (compression : Nat) (c v : Str)
    (arg : VerifyArg) (verbose : Bool) (new o2 : Obj)
    (hw : (writeSofa env nc fs filename o compression).out = .ok ())
    (hs : Spec.Storable env.rnd nc.isFill (writeSofa env nc fs filename o compression).obj)
    (hc : Spec.HasText o (py% "GLOBAL_SOFAConventions") c) (hv : Spec.HasText o (py% "GLOBAL_SOFAConventionsVersion") v)
    (hnew : (initSofa env c false (.exact v) arg).out = .ok new) (hd : Spec.DescribesItself c v new)
    (hr : (readSofa env nc (writeSofa env nc fs filename o compression).fs filename arg verbose).out = .ok o2)
    (k : Str) (x w : Val) (e : Entry) (hk : Spec.IsVariable (writeSofa env nc fs filename o compression).obj k x e)
    (hw2 : Dict.get? o2.attrs k = some w) :
    ∃ api d alt sizes, (writeSofa env nc fs filename o compression).obj.api = some api ∧ e.dims = some d ∧
      Spec.IsAlternative d alt ∧
      List.Forall₂ (fun c n => Dict.get? api [Str.upperC c] = some n) (alt.filter (· ≠ 'S')) sizes ∧
      Spec.shapeOf w = if sizes.foldr (· * ·) 1 = 1 then sizes.tail else sizes := by
  obtain ⟨o1, api, ds, hV, ⟨hnd2, _⟩, hIs, htyp⟩ := round_trip hw hs hc hv hnew hd hr
  generalize (writeSofa env nc fs filename o compression).obj = o' at *
  obtain ⟨i, e', e2, rfl, rfl, hg, _⟩ := htyp k x w hk.1 hw2
  have := hg.entry
  rw [hk.2.1] at this
  cases this
  obtain ⟨d, alt, sizes, h1, h2, _, _, h3, h4⟩ := hg.var hk.2.2
  exact ⟨api, d, alt, sizes, by rw [hV.obj], h1, h2, h3, h4⟩

example : ∃ o2 x e w, (readSofa exEnv exNc (exWritten exSofa) (py% "a") .no true).out = .ok o2 ∧
    Spec.IsVariable (writeSofa exEnv exNc exDisk (py% "a") exSofa 4).obj (py% "Data_IR") x e ∧
    Dict.get? o2.attrs (py% "Data_IR") = some w ∧ Spec.shapeOf w = [1, 2, 3] :=
  let r := (readSofa exEnv exNc (exWritten exSofa) (py% "a") .no true).out.toOption.getD exSofa
  let o := (writeSofa exEnv exNc exDisk (py% "a") exSofa 4).obj
  ⟨r, (Dict.get? o.attrs (py% "Data_IR")).getD (.obj 0), (Dict.get? o.conv (py% "Data_IR")).getD (exAttr [] []),
    (Dict.get? r.attrs (py% "Data_IR")).getD (.obj 0), by decide +kernel,
    ⟨by decide +kernel, by decide +kernel, by decide +kernel⟩, by decide +kernel, by decide +kernel⟩

/-- C33 is false (note 2): a trailing singleton dimension is not discarded. `Data_IR` of shape (1, 2) has the shape
(1, 2, 1) after reading. -/
theorem C33_trailing_refuted : ∃ (env : Env) (nc : Nc) (fs : FS) (o o2 : Obj), 
    (writeSofa env nc fs (py% "a") o 4).out = .ok () ∧
    (readSofa env nc (writeSofa env nc fs (py% "a") o 4).fs (py% "a") .auto true).out = .ok o2 ∧
    (Dict.get? o.attrs (py% "Data_IR")).map Spec.shapeOf = some [1, 2] ∧
    (Dict.get? o2.attrs (py% "Data_IR")).map Spec.shapeOf = some [1, 2, 1] :=
  let o := exPut exSofa (py% "Data_IR") (.arr (exNums .f [1, 2] [1, 2]))
  let r := (readSofa exEnv exNc (writeSofa exEnv exNc exDisk (py% "a") o 4).fs (py% "a") .auto true).out
  ⟨exEnv, exNc, exDisk, o, r.toOption.getD exSofa, by decide +kernel, by decide +kernel, by decide +kernel,
    by decide +kernel⟩

/-- C33 is false (note 3): a single number is not read as a scalar if it has three dimensions. -/
theorem C33_scalar_refuted : ∃ (env : Env) (nc : Nc) (fs : FS) (o o2 : Obj), 
    (writeSofa env nc fs (py% "a") o 4).out = .ok () ∧
    (readSofa env nc (writeSofa env nc fs (py% "a") o 4).fs (py% "a") .auto true).out = .ok o2 ∧
    (Dict.get? o.attrs (py% "Data_IR")).map Spec.shapeOf = some [1] ∧
    (Dict.get? o2.attrs (py% "Data_IR")).map Spec.shapeOf = some [1, 1] :=
  let o := exPut (exPut exSofa (py% "Data_IR") (.arr (exNums .f [1] [1]))) (py% "Names") (.arr ⟨.U, [1], [.str (py% "a")]⟩)
  let r := (readSofa exEnv exNc (writeSofa exEnv exNc exDisk (py% "a") o 4).fs (py% "a") .auto true).out
  ⟨exEnv, exNc, exDisk, o, r.toOption.getD exSofa, by decide +kernel, by decide +kernel, by decide +kernel,
    by decide +kernel⟩

/-! ## C38 -/

/-- C38, for objects that can be stored without loss: custom data is registered as custom data after writing and reading,
with the same type. The dimensions are the same if there is a single alternative. (`CustomLetters given d` holds for the
dimensions `d` that are registered if `given` is passed to `add_variable`, see `C07_dimensions`.) -/
theorem C38_custom_partial (env : Env) (nc : Nc) (fs : FS) (filename : Str) (o : Obj) (compression : Nat) (c v : Str)
    (arg : VerifyArg) (verbose : Bool) (new o2 : Obj) (custom : Dict Entry)
    (hw : (writeSofa env nc fs filename o compression).out = .ok ())
    (hs : Spec.Storable env.rnd nc.isFill (writeSofa env nc fs filename o compression).obj)
    (hn : Spec.WF o)
    (hc : Spec.HasText o (py% "GLOBAL_SOFAConventions") c) (hv : Spec.HasText o (py% "GLOBAL_SOFAConventionsVersion") v)
    (hnew : (initSofa env c false (.exact v) arg).out = .ok new) (hd : Spec.DescribesItself c v new)
    (hr : (readSofa env nc (writeSofa env nc fs filename o compression).fs filename arg verbose).out = .ok o2)
    (hcu : (writeSofa env nc fs filename o compression).obj.custom = some custom)
    (k : Str) (e : Entry) (hk : Dict.get? custom k = some e)
    (hk' : Spec.IsData (writeSofa env nc fs filename o compression).obj k) :
    ∃ custom2 e2, o2.custom = some custom2 ∧ Dict.get? custom2 k = some e2 ∧ Dict.get? o2.conv k = some e2 ∧
      e2.typ = e.typ ∧ (e.typ = py% "attribute" → e2.dims = none) ∧
      (e.typ ≠ py% "attribute" → ∀ given d, e.dims = some d → ¬ (py% ", ") <:+: d →
        Spec.CustomLetters given d → e2.dims = e.dims) := by
  obtain ⟨o1, api, ds, hV, ⟨hnd2, _⟩, hIs, htyp⟩ := round_trip hw hs hc hv hnew hd hr
  generalize (writeSofa env nc fs filename o compression).obj = o' at *
  obtain ⟨hstd, _⟩ := newSofa_conv hnew hd.name hd.version
  have hcu1 : o1.custom = some custom := by rw [← hcu, hV.obj]
  obtain ⟨hnone, hentry⟩ := resetConvention_custom hV.reset hc hv hstd hn.custom hcu1 hk
  obtain ⟨x, hx⟩ := get_of_mem_keys hk'
  obtain ⟨w, hw2⟩ := get_of_mem_keys ((hIs k).1 hk')
  obtain ⟨i, e', e2, rfl, rfl, hg, h1, h2, h3⟩ := htyp k x w hx hw2
  have he := hg.entry
  rw [hV.attrs.2.2.1, hentry] at he
  cases he
  rcases h3 with ⟨h3, _⟩ | ⟨_, ⟨cd, h3, h4⟩, h5⟩
  · rw [hnone] at h3; cases h3
  cases hc2 : o2.custom with
  | none => rw [hc2] at h5; simp at h5
  | some custom2 =>
    rw [hc2] at h5
    refine ⟨custom2, e2, rfl, h5, h1, h2, ?_, ?_⟩
    · intro ht
      rcases h3 with ⟨_, h3⟩ | ⟨h3, _⟩
      · rw [h4, h3]; rfl
      · exact absurd ht h3
    · intro ht given d hd' hcomma hl
      rcases h3 with ⟨h3, _⟩ | ⟨_, d', alt, h6, h7, _, h8⟩
      · exact absurd h3 ht
      · rw [hd'] at h6
        cases h6
        rw [alternative_single hcomma h7, customDims_upper, customDims_stored hl] at h8
        rw [h4, h8, hd']; rfl

/-- exSofa with a custom variable (dimensions in mixed case) and a custom attribute -/
def exCustomized : Obj :=
  (addAttribute (addVariable exSofa (py% "Foo") (.val (.arr (exNums .f [1, 3] [1, 2, 3]))) (py% "double")
    (some (py% "mn"))).obj (py% "Foo_Units") (.val (.str (py% "metre")))).obj

theorem exCustomized_stored :
    Spec.Storable exEnv.rnd exNc.isFill (writeSofa exEnv exNc exDisk (py% "a") exCustomized 4).obj :=
  storable_of_check (by decide +kernel)

example : ∃ o2 cu e cu2 e2, (writeSofa exEnv exNc exDisk (py% "a") exCustomized 4).out = .ok () ∧
    (readSofa exEnv exNc (writeSofa exEnv exNc exDisk (py% "a") exCustomized 4).fs (py% "a") .auto true).out = .ok o2 ∧
    (writeSofa exEnv exNc exDisk (py% "a") exCustomized 4).obj.custom = some cu ∧
    Dict.get? cu (py% "Foo") = some e ∧ e.dims = some (py% "MN") ∧ Spec.CustomLetters (py% "mn") (py% "MN") ∧
    o2.custom = some cu2 ∧ Dict.get? cu2 (py% "Foo") = some e2 ∧ e2.dims = some (py% "MN") :=
  let o := (writeSofa exEnv exNc exDisk (py% "a") exCustomized 4).obj
  let r := (readSofa exEnv exNc (writeSofa exEnv exNc exDisk (py% "a") exCustomized 4).fs (py% "a") .auto true).out.toOption.getD exSofa
  ⟨r, o.custom.getD [], (Dict.get? (o.custom.getD []) (py% "Foo")).getD (exAttr [] []), r.custom.getD [],
    (Dict.get? (r.custom.getD []) (py% "Foo")).getD (exAttr [] []), by decide +kernel, by decide +kernel,
    by decide +kernel, by decide +kernel, by decide +kernel, by unfold Spec.CustomLetters; decide +kernel, by decide +kernel, by decide +kernel,
    by decide +kernel⟩

/-- C38 is false: of several alternatives for the dimensions, only the one that matches remains after reading. -/
theorem C38_alternatives_refuted : ∃ (env : Env) (nc : Nc) (fs : FS) (o o2 : Obj) (cu cu2 : Dict Entry) (e e2 : Entry),
    (writeSofa env nc fs (py% "a") o 4).out = .ok () ∧
    (readSofa env nc (writeSofa env nc fs (py% "a") o 4).fs (py% "a") .auto true).out = .ok o2 ∧
    o.custom = some cu ∧ Dict.get? cu (py% "Foo") = some e ∧ e.dims = some (py% "IC, MC") ∧
    o2.custom = some cu2 ∧ Dict.get? cu2 (py% "Foo") = some e2 ∧ e2.dims = some (py% "IC") :=
  let o := exGrid (py% "Foo") (.arr (exNums .f [1, 3] [1, 2, 3])) (py% "IC, MC")
  let r := (readSofa exEnv exNc (writeSofa exEnv exNc exDisk (py% "a") o 4).fs (py% "a") .auto true).out.toOption.getD exSofa
  ⟨exEnv, exNc, exDisk, o, r, o.custom.getD [], r.custom.getD [],
    (Dict.get? (o.custom.getD []) (py% "Foo")).getD (exAttr [] []),
    (Dict.get? (r.custom.getD []) (py% "Foo")).getD (exAttr [] []), by decide +kernel, by decide +kernel,
    by decide +kernel, by decide +kernel, by decide +kernel, by decide +kernel, by decide +kernel, by decide +kernel⟩

/-! ## C40 -/

/-- C40: after writing, every variable, every global attribute and every attribute of a variable of the object is contained in the
file, except for names with dots and the attribute `_Encoding`. Without the condition that attributes are `Attached` this is not
true, see below. -/
theorem C40_contained_partial (env : Env) (nc : Nc) (fs : FS) (filename : Str) (o : Obj) (compression : Nat)
    (hw : (writeSofa env nc fs filename o compression).out = .ok ()) :
    ∃ path f, Spec.FileFor filename path ∧
      Dict.get? (writeSofa env nc fs filename o compression).fs.files path = some (.nc f) ∧
      ∀ k, Spec.IsData (writeSofa env nc fs filename o compression).obj k → '.' ∉ k → ¬ (py% "__Encoding") <:+ k →
        ((∃ v e, Spec.IsVariable (writeSofa env nc fs filename o compression).obj k v e) ∨
          Spec.Attached (writeSofa env nc fs filename o compression).obj k) → Spec.InFile f k := by
  simp only [← withSuffix_iff] at *
  obtain ⟨path, f, o1, api, ds, r, hW, hfile, _⟩ := writeSofa_ok hw
  generalize (writeSofa env nc fs filename o compression).obj = o' at *
  refine ⟨path, f, hW.loc, hfile, ?_⟩
  intro k hk hdot henc h
  have hvar : ∀ x v e, Spec.IsVariable o' x v e → '.' ∉ x → ∃ p ∈ f.vars, VarWritten env nc o' api ds x p ∧
      Spec.dotName p.1 = x := by
    rintro x v e ⟨hv, he, ht⟩ hx
    obtain ⟨e', he', hp⟩ := hW.file.all x (mem_keys_of_get hv)
    rw [he] at he'
    cases he'
    obtain ⟨p, hp, hpw⟩ := hp ht
    refine ⟨p, hp, hpw, ?_⟩
    obtain ⟨_, _, _, _, _, _, _, _, _, _, _, _, _, _, _, _, _, _, hname, _⟩ := hpw.ex
    rw [hname, dotName_ncName hx]
  rcases h with ⟨v, e, h⟩ | ⟨a, h⟩ | ⟨x, a, v, e, rfl, h⟩
  · obtain ⟨p, hp, _, hn⟩ := hvar k v e h hdot
    rw [← hn]
    exact .variableData p.1 p.2 hp
  · have hm : py% "GLOBAL_" ++ a ∈ o'.keys.filter (fun k => Str.startsWith k (py% "GLOBAL_")) := by
      rw [h]
      refine List.mem_filter.2 ⟨hk, ?_⟩
      simp [Str.startsWith, ← h]
    obtain ⟨⟨a', w⟩, hw, ha⟩ := List.mem_map.1 (hW.file.attrs.all a hm)
    simp only at ha
    subst ha
    rw [← h]
    exact .globalAttribute a' w hw
  · obtain ⟨p, hp, hpw, hn⟩ := hvar x v e h (fun hx => hdot (by simp [hx]))
    have hm : x ++ py% "_" ++ a ∈ subKeys o'.keys x := by
      refine subKeys_mem.2 ⟨by rw [List.append_assoc]; exact hk, a, rfl⟩
    obtain ⟨⟨a', w⟩, hw, ha⟩ := List.mem_map.1 (hpw.attrs.all a hm)
    simp only at ha
    subst ha
    rw [← hn]
    refine .variableAttribute p.1 p.2 a' w hp hw ?_
    rintro rfl
    exact henc ⟨x, by simp⟩

example : ∃ v e, Spec.IsVariable (writeSofa exEnv exNc exDisk (py% "a") exSofa 4).obj (py% "SourcePosition") v e ∧
    Spec.Attached (writeSofa exEnv exNc exDisk (py% "a") exSofa 4).obj (py% "SourcePosition_Units") ∧
    Spec.Attached (writeSofa exEnv exNc exDisk (py% "a") exSofa 4).obj (py% "GLOBAL_Comment") :=
  let o := (writeSofa exEnv exNc exDisk (py% "a") exSofa 4).obj
  have h : Spec.IsVariable o (py% "SourcePosition") ((Dict.get? o.attrs (py% "SourcePosition")).getD (.obj 0))
      ((Dict.get? o.conv (py% "SourcePosition")).getD (exAttr [] [])) :=
    ⟨by decide +kernel, by decide +kernel, by decide +kernel⟩
  ⟨_, _, h, Or.inr ⟨_, py% "Units", _, _, rfl, h⟩, Or.inl ⟨py% "Comment", rfl⟩⟩

/-- C40, conversely: the file contains nothing but the data of the object, and the texts of the attributes are those of
the object. -/
theorem C40_nothing_else_partial (env : Env) (nc : Nc) (fs : FS) (filename : Str) (o : Obj) (compression : Nat)
    (hw : (writeSofa env nc fs filename o compression).out = .ok ()) (hn : ∀ k, Spec.IsData o k → '.' ∉ k) :
    ∃ path f, Spec.FileFor filename path ∧
      Dict.get? (writeSofa env nc fs filename o compression).fs.files path = some (.nc f) ∧
      (∀ k, Spec.InFile f k → Spec.IsData o k) ∧
      (∀ a w, (a, w) ∈ f.attrs → ∀ t, Spec.HasText o (py% "GLOBAL_" ++ a) t → Char.ofNat 0 ∉ t → w = .str t) ∧
      ∀ n x a w, (n, x) ∈ f.vars → (a, w) ∈ x.attrs → ∀ t, Spec.HasText o (Spec.dotName n ++ '_' :: a) t →
        Char.ofNat 0 ∉ t → w = .str t := by
  simp only [← withSuffix_iff] at *
  obtain ⟨path, f, o1, api, ds, r, hW, hfile, _⟩ := writeSofa_ok hw
  generalize (writeSofa env nc fs filename o compression).obj = o' at *
  have hat := hW.verified.attrs.1
  have hdata : ∀ k, k ∈ o'.keys ↔ Spec.IsData o k := by
    intro k
    unfold Spec.IsData Obj.keys
    rw [hat]
    rfl
  have hvar : ∀ n x, (n, x) ∈ f.vars → Spec.IsData o (Spec.dotName n) ∧
      AttrsWritten env nc o' (Spec.dotName n ++ py% "_") (subKeys o'.keys (Spec.dotName n)) x.attrs := by
    intro n x h
    obtain ⟨k, hk, hp⟩ := hW.file.from_ _ h
    have hpa := hp.attrs
    obtain ⟨_, _, _, _, _, _, _, _, _, _, _, _, _, _, _, _, _, _, hname, _⟩ := hp.ex
    have hk' := (hdata k).1 hk
    have hd := dotName_ncName (hn k hk')
    simp only at hname
    rw [← hname] at hd
    rw [hd]
    exact ⟨hk', hpa⟩
  have htext : ∀ {k a t d w ks}, AttrsWritten env nc o' k ks d → (a, w) ∈ d → Spec.HasText o (k ++ a) t →
      Char.ofNat 0 ∉ t → w = .str t := by
    intro k a t d w ks hA hm ht hz
    obtain ⟨v, _, hv, rfl, _⟩ := hA.from_ a w hm
    obtain ⟨v', hv', ht'⟩ := ht
    rw [hat, hv'] at hv
    cases hv
    rw [pyStr_text ht', ncText_id hz]
  refine ⟨path, f, hW.loc, hfile, ?_, ?_, ?_⟩
  · rintro k (⟨a, v, h⟩ | ⟨n, x, h⟩ | ⟨n, x, a, v, h, ha, hs⟩)
    · obtain ⟨_, hm, _⟩ := hW.file.attrs.from_ a v h
      exact (hdata _).1 (List.mem_filter.1 hm).1
    · exact (hvar n x h).1
    · obtain ⟨_, hm, _⟩ := (hvar n x h).2.from_ a v ha
      have := (hdata _).1 (subKeys_mem.1 hm).1
      simpa using this
  · intro a w h t ht hz
    exact htext hW.file.attrs h ht hz
  · intro n x a w h ha t ht hz
    exact htext (hvar n x h).2 ha (by simpa using ht) hz

example : (∀ k, Spec.IsData exSofa k → '.' ∉ k) ∧ Spec.HasText exSofa (py% "SourcePosition_Units") (py% "degree, degree, metre") :=
  ⟨by unfold Spec.IsData; decide +kernel, .str _, by decide +kernel, rfl⟩

/-- exEnv with an optional variable and its units -/
def exEnvOptional : Env :=
  { exEnv with files := [⟨py% "FIR_1.0.json", exConvention (py% "1.0") ++
    [(py% "Temperature", ⟨none, some (py% "I"), py% "double", .val (.num .f (.num (.fin 20))), []⟩),
     (py% "Temperature:Units", ⟨none, none, py% "attribute", .val (.str (py% "kelvin")), []⟩)]⟩] }

/-- the optional variable was deleted, but its units were not -/
def exDetached : Obj :=
  (delAttr ((initSofa exEnvOptional (py% "FIR") false .latest .auto).out.toOption.getD exSofa) (py% "Temperature")).obj

/-- C40 is false: the attribute of an optional variable of the convention that was deleted passes the verification but
it is not written. -/
theorem C40_refuted : ∃ (env : Env) (nc : Nc) (fs : FS) (o : Obj) (k : Str) (f : NcFile),
    (verify env o .raise .write).out = .ok none ∧ Spec.IsData o k ∧
    (writeSofa env nc fs (py% "a") o 4).out = .ok () ∧
    Dict.get? (writeSofa env nc fs (py% "a") o 4).fs.files (py% "a.sofa") = some (.nc f) ∧ ¬ Spec.InFile f k := by
  let f : NcFile := match Dict.get? (writeSofa exEnvOptional exNc exDisk (py% "a") exDetached 4).fs.files (py% "a.sofa") with
    | some (.nc f) => f
    | _ => .empty
  refine ⟨exEnvOptional, exNc, exDisk, exDetached, py% "Temperature_Units", f, by decide +kernel, by unfold Spec.IsData; decide +kernel,
    by decide +kernel, by decide +kernel, ?_⟩
  intro h
  have h1 : ∀ p ∈ f.attrs, py% "GLOBAL_" ++ p.1 ≠ py% "Temperature_Units" := by decide +kernel
  have h2 : ∀ p ∈ f.vars, Spec.dotName p.1 ≠ py% "Temperature_Units" := by decide +kernel
  have h3 : ∀ p ∈ f.vars, ∀ q ∈ p.2.attrs, Spec.dotName p.1 ++ '_' :: q.1 ≠ py% "Temperature_Units" := by decide +kernel
  generalize hk : py% "Temperature_Units" = k at h
  cases h with
  | globalAttribute a v h => exact h1 _ h hk.symm
  | variableData n x h => exact h2 _ h hk.symm
  | variableAttribute n x a v h ha hs => exact h3 _ h _ ha hk.symm

/-! ## C36 -/

/-- C36, for objects that can be stored without loss, with ASCII characters in string variables and with names that the
netCDF library accepts: if the object passes the verification, it can be written to every path that can be opened, provided that
a new object of the latest version of its convention can be created and that both versions can be parsed (this is done
before writing to warn about outdated conventions). -/
theorem C36_writable_partial (env : Env) (nc : Nc) (fs : FS) (filename path : Str) (o : Obj) (compression : Nat)
    (c v l : Str) (new : Obj) (r : Option Str) (pv pl : List Nat)
    (hp : Spec.FileFor filename path) (hfs : fs.canWrite path = true) (hcomp : compression ≤ 9)
    (hver : (verify env o .raise .write).out = .ok r) (hn : (o.attrs.map Prod.fst).Nodup)
    (hs : Spec.Storable env.rnd nc.isFill (verify env o .raise .write).obj)
    (hok : Spec.AcceptedNames nc (verify env o .raise .write).obj)
    (hasc : Spec.AsciiOnly (verify env o .raise .write).obj)
    (hc : Spec.HasText o (py% "GLOBAL_SOFAConventions") c) (hv : Spec.HasText o (py% "GLOBAL_SOFAConventionsVersion") v)
    (hnew : (initSofa env c false .latest .auto).out = .ok new)
    (hl : Spec.HasText new (py% "GLOBAL_SOFAConventionsVersion") l)
    (hpv : Spec.VersionNumbers v pv) (hpl : Spec.VersionNumbers l pl) :
    (writeSofa env nc fs filename o compression).out = .ok () := by
  simp only [← withSuffix_iff, ← parseVersion_iff] at *
  have hlatest : (checkLatest env o).1 = .ok () := by
    obtain ⟨wc, hwc, htc⟩ := hc
    obtain ⟨wv, hwv, htv⟩ := hv
    obtain ⟨wl, hwl, htl⟩ := hl
    unfold checkLatest
    simp only [getAttr_of_get hwc, asStr_text, htc]
    split
    · rfl
    · simp only [hnew, getAttr_of_get hwl, getAttr_of_get hwv, htv, htl, hpv, hpl]
  obtain ⟨o1, api, ds, hV⟩ := verify_ok hver
  have hf := writeFile_total hV hs hok hasc hcomp (by
    have := hV.attrs.1
    unfold Obj.keys
    rw [this]
    exact hn)
  simp only [writeSofa, writeSofaG, hp, if_true, hlatest, hver, writeDisk, hfs, Bool.not_true, Bool.false_eq_true, if_false, hf]

theorem mem_alternative {d alt : Str} {c : Char} (h : Spec.IsAlternative d alt) (hc : c ∈ alt) : c ∈ d := by
  obtain ⟨l, r, rfl, hx⟩ := h
  clear hx
  induction l with
  | nil => cases r <;> simp [Str.join, hc]
  | cons a l ih =>
    cases l with
    | nil => cases r <;> simp_all [Str.join]
    | cons b l => simp only [List.cons_append, Str.join, List.mem_append]; right; simpa using ih

theorem exSofa_accepted : Spec.AcceptedNames exNc (verify exEnv exSofa .raise .write).obj := by
  have hkeys : ∀ k ∈ (verify exEnv exSofa .raise .write).obj.attrs.map Prod.fst,
      k ≠ [] ∧ '/' ∉ k ∧ ¬ (py% "_") <:+ k ∧ ¬ (py% "_dimensions") <:+ k ∧ ¬ (py% "__FillValue") <:+ k := by decide +kernel
  have hdims : ∀ p ∈ (verify exEnv exSofa .raise .write).obj.conv, ∀ c ∈ p.2.dims.getD [], Str.upperC c ≠ '/' := by
    decide +kernel
  refine ⟨⟨by decide, by decide, by decide, ?_⟩, ?_, ?_⟩
  · intro k e d alt c he hd ha hc
    have := hdims _ (Dict.mem_of_get? he) c (by rw [hd]; exact mem_alternative ha hc)
    simp only [exNc, Bool.and_eq_true, decide_eq_true_eq, List.mem_singleton]
    exact ⟨by simp, fun h => this h.symm⟩
  · intro k v e hv n hn
    obtain ⟨h1, h2, _⟩ := hkeys k (mem_keys_of_get hv.1)
    simp only [exNc, Bool.and_eq_true, decide_eq_true_eq]
    constructor
    · rintro rfl
      exact h1 (by rw [← hn]; rfl)
    · intro hm
      refine h2 ?_
      rw [← hn]
      exact List.mem_map.2 ⟨'/', hm, rfl⟩
  · intro k v hv x a hk
    obtain ⟨h1, h2, h3, h4, h5⟩ := hkeys k (mem_keys_of_get hv.1)
    subst hk
    simp only [exNc, Bool.and_eq_true, decide_eq_true_eq, beq_eq_false_iff_ne, ne_eq]
    refine ⟨⟨?_, ?_⟩, ?_, ?_⟩
    · rintro rfl; exact h3 ⟨x, rfl⟩
    · intro hm; exact h2 (by simp [hm])
    · rintro rfl; exact h4 ⟨x, rfl⟩
    · rintro rfl; exact h5 ⟨x, rfl⟩

theorem exSofa_ascii : Spec.AsciiOnly (verify exEnv exSofa .raise .write).obj := by
  have h : ∀ p ∈ (verify exEnv exSofa .raise .write).obj.attrs, ∀ e ∈ Spec.elems p.2, ∀ c ∈ charText e, c.toNat < 128 := by decide +kernel
  intro k v e hv _ s hs c hc
  exact h (k, v) (Dict.mem_of_get? hv.1) (.str s) hs c (by
    have : s ≠ [] := List.ne_nil_of_mem hc
    simpa [charText, this] using hc)

example : withSuffix (py% "d/a") = .ok (py% "d/a.sofa") ∧ (verify exEnv exSofa .raise .write).out = .ok none ∧
    Spec.Storable exEnv.rnd exNc.isFill (verify exEnv exSofa .raise .write).obj ∧
    (initSofa exEnv (py% "FIR") false .latest .auto).out = .ok exSofa ∧ parseVersion (py% "1.0") = .ok [1, 0] :=
  ⟨by decide +kernel, by decide +kernel, storable_of_check (by decide +kernel), by decide +kernel, by decide +kernel⟩

/-- C36 is false: text that is not ASCII passes the verification but it can not be written. -/
theorem C36_ascii_refuted : ∃ (env : Env) (nc : Nc) (fs : FS) (o : Obj),
    (verify env o .raise .write).out = .ok none ∧ (writeSofa env nc fs (py% "a") o 4).out = .error .unicodeError :=
  ⟨exEnv, exNc, exDisk, exUmlaut, by decide +kernel, by decide +kernel⟩

/-- C36 is false: arrays with too many dimensions pass the verification, but they can not be written. -/
theorem C36_shape_refuted : ∃ (env : Env) (nc : Nc) (fs : FS) (o : Obj) (e : Exc),
    (verify env o .raise .write).out = .ok none ∧ (writeSofa env nc fs (py% "a") o 4).out = .error e :=
  ⟨exEnv, exNc, exDisk, exPut exSofa (py% "Data_IR") (.arr (exNums .f [1, 2, 2, 2] [1, 2, 3, 4, 5, 6, 7, 8])),
    .valueError (py% "operands could not be broadcast together"), by decide +kernel, by decide +kernel⟩

end Sofar
