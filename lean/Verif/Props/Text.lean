import Verif.Lemmas.Text
import Verif.Props.Total
import Verif.Props.Dims
import Verif.Props.Equals
import Mathlib.Data.List.Nodup
/-!
# Texts about objects (C59 to C63)
-/
namespace Sofar

/-! ## C59: list_dimensions -/

theorem textAttr_ok {o : Obj} {k t : Str} (hp : isPrivate k = false) (hm : k ∉ publicMembers)
    (h : textAttr o k = .ok t) : Spec.HasText o k t := by
  unfold textAttr at h
  cases hg : o.getAttr k with
  | error e => simp [hg] at h
  | ok v =>
    simp only [hg] at h
    cases ha : v.asStr with
    | none => simp [ha] at h
    | some s =>
      simp only [ha, Except.ok.injEq] at h
      subst h
      exact ⟨v, getAttr_ordinary hp hm hg, by rw [← asStr_text, ha]⟩

theorem textAttr_of {o : Obj} {k t : Str} (h : Spec.HasText o k t) : textAttr o k = .ok t := by
  obtain ⟨v, hv, ht⟩ := h
  rw [← asStr_text] at ht
  simp [textAttr, getAttr_of_get hv, ht]

/-- the sizes that `get_dimension` gives -/
theorem getDimension_iff {env : Env} {o : Obj} {api : Dict Nat} (hu : (updateDimensions env o).out = .ok ())
    (ha : (updateDimensions env o).obj.api = some api) (d : Str) (n : Nat) :
    (getDimension env o d).out = .ok n ↔ Dict.get? api d = some n := by
  unfold getDimension
  simp only [hu, ha]
  cases Dict.get? api d <;> simp

/-- C59: if `list_dimensions` succeeds, it prints exactly one line for every dimension that `get_dimension` knows, with
the size that `get_dimension` returns and its meaning according to the data type and the types of the positions. -/
theorem C59_lists (env : Env) (o : Obj) (h : (listDimensions env o).out = .ok ()) :
    let o' := (listDimensions env o).obj
    ∃ events dt rt et, ∃ lines : List (Str × Nat × Str),
      Spec.HasText o' (py% "GLOBAL_DataType") dt ∧ Spec.HasText o' (py% "ReceiverPosition_Type") rt ∧
      Spec.HasText o' (py% "EmitterPosition_Type") et ∧
      (listDimensions env o).ev = events ++
        [.print (lines.flatMap (fun l => Spec.dimensionLine dt rt et l.1 l.2.1 l.2.2))] ∧
      (lines.map Prod.fst).Nodup ∧
      (∀ d n, (getDimension env o d).out = .ok n ↔ ∃ note, (d, n, note) ∈ lines) ∧
      ∀ d n note, (d, n, note) ∈ lines → Spec.SetBy o'.conv d note := by
  unfold listDimensions at h ⊢
  simp only at h ⊢
  cases hu : (updateDimensions env o).out with
  | error x => simp [hu] at h
  | ok u =>
    simp only [hu] at h ⊢
    obtain ⟨_, o1, o2, api, dims, hd⟩ := updateDimensions_ok hu
    have ha : (updateDimensions env o).obj.api = some api := by rw [hd.obj]
    generalize hobj : (updateDimensions env o).obj = o' at *
    unfold dimensionsText at h ⊢
    cases ht : textAttr o' (py% "GLOBAL_DataType") with
    | error e => simp [ht] at h
    | ok dt =>
      cases hr : textAttr o' (py% "ReceiverPosition_Type") with
      | error e => simp [ht, hr] at h
      | ok rt =>
        cases he : textAttr o' (py% "EmitterPosition_Type") with
        | error e => simp [ht, hr, he] at h
        | ok et =>
          cases hn : meaningN dt with
          | none => simp [ht, hr, he, hn] at h
          | some n =>
            simp only [hn, ha]
            refine ⟨(updateDimensions env o).ev, dt, rt, et, api.map (fun p => (p.1, p.2, setByText p.1 o'.conv)),
              textAttr_ok (by decide) (by decide) ht, textAttr_ok (by decide) (by decide) hr,
              textAttr_ok (by decide) (by decide) he, by rw [dimsText_eq hn], ?_, ?_, ?_⟩
            · rw [List.map_map]
              exact hd.apiOk.nodup
            · intro d m
              rw [getDimension_iff hu (by rw [hobj]; exact ha)]
              constructor
              · intro hm
                exact ⟨setByText d o'.conv, List.mem_map.2 ⟨(d, m), Dict.mem_of_get? hm, rfl⟩⟩
              · rintro ⟨note, hm⟩
                obtain ⟨p, hp, hpe⟩ := List.mem_map.1 hm
                obtain ⟨p1, p2⟩ := p
                cases hpe
                exact Dict.get?_of_mem hd.apiOk.nodup hp
            · intro d m note hm
              obtain ⟨p, hp, hpe⟩ := List.mem_map.1 hm
              cases hpe
              exact setByText_spec _ _

/-- C59: `list_dimensions` succeeds if `get_dimension` does, the data type is one of FIR, TF and SOS (with any ending)
and the types of the positions are given. Missing: other data types (`C59_refuted`). -/
theorem C59_succeeds_partial (env : Env) (o : Obj) (d : Str) (n : Nat) (h : (getDimension env o d).out = .ok n)
    (dt rt et : Str) (ht : Spec.HasText (getDimension env o d).obj (py% "GLOBAL_DataType") dt)
    (hk : Spec.KnownDataType dt) (hr : Spec.HasText (getDimension env o d).obj (py% "ReceiverPosition_Type") rt)
    (he : Spec.HasText (getDimension env o d).obj (py% "EmitterPosition_Type") et) :
    (listDimensions env o).out = .ok () := by
  obtain ⟨o1, o2, api, dims, hd, _⟩ := getDimension_ok h
  have hobj : (getDimension env o d).obj = (updateDimensions env o).obj := by
    unfold getDimension
    simp only
    repeat' split
    all_goals rfl
  have hu : (updateDimensions env o).out = .ok () := by
    unfold getDimension at h
    simp only at h
    cases hu : (updateDimensions env o).out with
    | error x => simp [hu] at h
    | ok u => rfl
  have ha : (getDimension env o d).obj.api = some api := by rw [hd.obj]
  rw [hobj] at ht hr he ha
  obtain ⟨m, hm⟩ := meaningN_isSome.2 hk
  unfold listDimensions dimensionsText
  simp only [hu, textAttr_of ht, textAttr_of hr, textAttr_of he, hm, ha]

/-- an environment with the positions of receivers and emitters -/
def exTextEnv : Env := { exEnv with
  files := [⟨py% "FIR_1.0.json", exConvention (py% "1.0") ++
    [(py% "GLOBAL:Version", exAttr (py% "rm") (py% "2.1")),
     (py% "Weight", ⟨none, some (py% "rm"), py% "double", .list (exNums .i [2, 1] [1, 1]), []⟩),
     (py% "ReceiverPosition", ⟨some (py% "m"), some (py% "rCI, rCM"), py% "double",
       .list (exNums .i [2, 3, 1] [0, 1, 0, 0, -1, 0]), []⟩),
     (py% "ReceiverPosition:Type", exAttr (py% "m") (py% "cartesian")),
     (py% "EmitterPosition", ⟨some (py% "m"), some (py% "eCI, eCM"), py% "double",
       .list (exNums .i [1, 3, 1] [0, 0, 0]), []⟩),
     (py% "EmitterPosition:Type", exAttr (py% "m") (py% "spherical harmonics"))]⟩] }

/-- a new object -/
def exTextSofa : Obj :=
  match (initSofa exTextEnv (py% "FIR") false .latest .auto).out with
  | .ok o => o
  | .error _ => emptyObj []

/-- text of the events (examples only) -/
def exPrinted : List Event → List Str
  | [] => []
  | .print t :: l => t :: exPrinted l
  | _ :: l => exPrinted l

example : (listDimensions exTextEnv exTextSofa).out = .ok () ∧
    exPrinted (listDimensions exTextEnv exTextSofa).ev =
      [py% "R = 2 receiver (set by Names of dimension RS)\nM = 1 measurements (set by Data_IR of dimension MRN)\nN = 3 samples (set by Data_IR of dimension MRN)\nE = 1 emitter spherical harmonics coefficients (set by EmitterPosition of dimension ECI, ECM)\nC = 3 coordinate dimensions, fixed\nI = 1 single dimension, fixed\nS = 5 maximum string length\n"] ∧
    (getDimension exTextEnv exTextSofa (py% "N")).out = .ok 3 ∧
    (Dict.get? (getDimension exTextEnv exTextSofa (py% "N")).obj.attrs (py% "GLOBAL_DataType")) = some (.str (py% "FIR")) ∧
    (Dict.get? (getDimension exTextEnv exTextSofa (py% "N")).obj.attrs (py% "ReceiverPosition_Type")) =
      some (.str (py% "cartesian")) ∧
    (Dict.get? (getDimension exTextEnv exTextSofa (py% "N")).obj.attrs (py% "EmitterPosition_Type")) =
      some (.str (py% "spherical harmonics")) := by decide +kernel

/-- C59 is false: for an object with another data type, `get_dimension` gives the sizes of all dimensions, but
`list_dimensions` fails with an UnboundLocalError. -/
theorem C59_refuted : ∃ (env : Env) (o : Obj), (getDimension env o (py% "N")).out = .ok 3 ∧
    (listDimensions env o).out = .error .unboundLocal :=
  ⟨exTextEnv, exPut exTextSofa (py% "GLOBAL_DataType") (.str (py% "XYZ")), by decide +kernel, by decide +kernel⟩

/-- C59 is false: the note on a dimension can name data that the object does not contain. -/
theorem C59_refuted_note : ∃ (env : Env) (o : Obj), (verify env o .raise .write).out = .ok none ∧
    Dict.get? o.attrs (py% "Names") = none ∧
    ∃ t events, (listDimensions env o).ev = events ++ [.print t] ∧
      (py% "R = 2 receiver (set by Names of dimension RS)\n") <:+: t := by
  refine ⟨exTextEnv, (delAttr exTextSofa (py% "Names")).obj, by decide +kernel, by decide +kernel, ?_⟩
  have h : (listDimensions exTextEnv (delAttr exTextSofa (py% "Names")).obj).ev =
    [.print (py% "M = 1 measurements (set by Data_IR of dimension MRN)\nN = 3 samples (set by Data_IR of dimension MRN)\nR = 2 receiver (set by Names of dimension RS)\nE = 1 emitter spherical harmonics coefficients (set by EmitterPosition of dimension ECI, ECM)\nC = 3 coordinate dimensions, fixed\nI = 1 single dimension, fixed\nS = 0 maximum string length\n")] := by
    decide +kernel
  exact ⟨_, [], by rw [h]; rfl, (hasSub_iff _ _).1 (by decide +kernel)⟩

/-! ## C60: inspect -/

theorem inspect_obj (env : Env) (o : Obj) (file : Option Str) (ih : IH) :
    (inspect env o file ih).obj = (verify env o ih .write).obj := by
  unfold inspect
  simp only
  repeat' split
  all_goals rfl

theorem objTitle_ok {env : Env} {o : Obj} {t : Str} (h : objTitle env o = .ok t) :
    ∃ c v s, Dict.get? o.attrs (py% "GLOBAL_SOFAConventions") = some c ∧
      Dict.get? o.attrs (py% "GLOBAL_SOFAConventionsVersion") = some v ∧
      Dict.get? o.attrs (py% "GLOBAL_Version") = some s ∧
      t = Spec.title (Spec.shown env.fmt c) (Spec.shown env.fmt v) (Spec.shown env.fmt s) := by
  unfold objTitle at h
  split at h
  · rename_i c v s h1 h2 h3
    refine ⟨c, v, s, getAttr_ordinary (by decide) (by decide) h1, getAttr_ordinary (by decide) (by decide) h2,
      getAttr_ordinary (by decide) (by decide) h3, ?_⟩
    simp only [Except.ok.injEq] at h
    rw [← h, showVal_eq, showVal_eq, showVal_eq]
    rfl
  all_goals simp at h

/-- C60: if `inspect` succeeds, it prints a title and one text for every entry of the object, in the order of the
entries: values of attributes and single values, and sizes of all other data with the values of at most six elements.
The same text (and a line break) goes to the text file. No data is lost. (No variable has an empty string as
dimensions.) -/
theorem C60_shows (env : Env) (o : Obj) (file : Option Str) (ih : IH) (h : (inspect env o file ih).out = .ok ())
    (hd : ∀ D k d, (inspect env o file ih).obj.dims = some D → Dict.get? D k = some d → d ≠ []) :
    let o' := (inspect env o file ih).obj
    (∀ k v, Dict.get? o.attrs k = some v → Dict.get? o'.attrs k = some v) ∧
    ∃ events c v s t, Dict.get? o'.attrs (py% "GLOBAL_SOFAConventions") = some c ∧
      Dict.get? o'.attrs (py% "GLOBAL_SOFAConventionsVersion") = some v ∧
      Dict.get? o'.attrs (py% "GLOBAL_Version") = some s ∧
      Spec.Texts (Spec.EntryText env.fmt o') (o'.attrs.map Prod.fst) t ∧
      (inspect env o file ih).ev = events ++
        [.print (Spec.title (Spec.shown env.fmt c) (Spec.shown env.fmt v) (Spec.shown env.fmt s) ++ t)] ∧
      (inspect env o file ih).file = file.map (fun p =>
        (p, Spec.title (Spec.shown env.fmt c) (Spec.shown env.fmt v) (Spec.shown env.fmt s) ++ t ++ py% "\n")) := by
  rw [inspect_obj] at hd ⊢
  refine ⟨(C21_data_unchanged env o ih .write).1, ?_⟩
  unfold inspect at h ⊢
  simp only at h ⊢
  cases hv : (verify env o ih .write).out with
  | error x => simp [hv] at h
  | ok r =>
    simp only [hv] at h ⊢
    generalize (verify env o ih .write).obj = o' at *
    cases ht : objTitle env o' with
    | error x => simp [ht] at h
    | ok title =>
      cases hc : concatE (inspectKey env o') o'.keys with
      | error x => simp [ht, hc] at h
      | ok t =>
        simp only
        obtain ⟨c, v, s, h1, h2, h3, rfl⟩ := objTitle_ok ht
        refine ⟨(verify env o ih .write).ev, c, v, s, t, h1, h2, h3, ?_, rfl, rfl⟩
        exact Texts.imp (concatE_texts hc) (fun k hk s hs => inspectKey_ok hk (fun D d => hd D k d) hs)

/-- C60: `inspect` succeeds for every object that can be written, for every way of handling issues, if no string
variable is a plain Python string. Missing: plain Python strings (`C60_refuted`). -/
theorem C60_succeeds_partial (env : Env) (o : Obj) (file : Option Str) (ih : IH)
    (h : (verify env o .raise .write).out = .ok none) (hver : ∃ v, Dict.get? o.attrs (py% "GLOBAL_Version") = some v)
    (hs : ∀ k s e, Dict.get? o.attrs k = some (.str s) →
      Dict.get? (verify env o .raise .write).obj.conv k = some e → e.typ = py% "attribute")
    (hd : ∀ k e, Dict.get? (verify env o .raise .write).obj.conv k = some e → e.typ ≠ py% "attribute" →
      e.dims ≠ none) :
    (inspect env o file ih).out = .ok () := by
  obtain ⟨ha1, ha2⟩ := verify_any h ih
  obtain ⟨o1, api, dims, hV⟩ := verify_ok h
  obtain ⟨hat, _, _, _⟩ := hV.attrs
  unfold inspect
  simp only [ha1, ha2]
  generalize (verify env o .raise .write).obj = o' at *
  have hT : ∃ t, objTitle env o' = .ok t := by
    obtain ⟨v, hver⟩ := hver
    rw [← hat] at hver
    obtain ⟨x, y, hx, _⟩ := resetConvention_frame hV.reset
    have hc : ∃ c, Dict.get? o'.attrs (py% "GLOBAL_SOFAConventions") = some c := by
      have := hV.reset
      unfold resetConvention at this
      cases hg : o.getAttr (py% "GLOBAL_SOFAConventions") with
      | error e => simp [hg] at this
      | ok c => exact ⟨c, by rw [hat]; exact getAttr_ordinary (by decide) (by decide) hg⟩
    have hw : ∃ c, Dict.get? o'.attrs (py% "GLOBAL_SOFAConventionsVersion") = some c := by
      have := hV.reset
      unfold resetConvention at this
      cases hg : o.getAttr (py% "GLOBAL_SOFAConventionsVersion") with
      | error e =>
        cases hg' : o.getAttr (py% "GLOBAL_SOFAConventions") <;> simp [hg, hg'] at this
      | ok c => exact ⟨c, by rw [hat]; exact getAttr_ordinary (by decide) (by decide) hg⟩
    obtain ⟨c, hc⟩ := hc
    obtain ⟨w, hw⟩ := hw
    simp only [objTitle, getAttr_of_get hc, getAttr_of_get hw, getAttr_of_get hver]
    exact ⟨_, rfl⟩
  obtain ⟨t, hT⟩ := hT
  have hK : ∃ t, concatE (inspectKey env o') o'.keys = .ok t := by
    apply concatE_total
    intro k hk
    obtain ⟨v, hv⟩ := (Dict.has_iff _ _).1 ((Dict.has_iff_mem _ _).2 hk)
    have hv0 := hv
    rw [hat] at hv0
    obtain ⟨e, he, hty⟩ := hV.types hv0
    unfold inspectKey
    simp only [getAttr_of_get hv, he]
    by_cases hatt : e.typ = py% "attribute"
    · rw [if_pos hatt]; exact ⟨_, rfl⟩
    · rw [if_neg hatt]
      have hsz : ∃ n, sizeOf? v = .ok n ∧ (n = 1 ∨ ∃ a, v = .arr a) := by
        cases v with
        | arr a => exact ⟨_, rfl, Or.inr ⟨a, rfl⟩⟩
        | num k e => exact ⟨1, rfl, Or.inl rfl⟩
        | npstr s => exact ⟨1, rfl, Or.inl rfl⟩
        | str s => exact absurd (hs k s e hv0 he) hatt
        | dict =>
          exfalso
          rcases hty with ⟨_, h2⟩ | ⟨_, h2⟩ | ⟨_, h2⟩ <;>
            simp [Spec.IsString, Spec.IsNumeric, Spec.IsStringVariable] at h2
        | obj t =>
          exfalso
          rcases hty with ⟨_, h2⟩ | ⟨_, h2⟩ | ⟨_, h2⟩ <;>
            simp [Spec.IsString, Spec.IsNumeric, Spec.IsStringVariable] at h2
      obtain ⟨n, hn, hcase⟩ := hsz
      simp only [hn]
      by_cases h1 : n = 1
      · rw [if_pos h1]; exact ⟨_, rfl⟩
      · rw [if_neg h1]
        obtain ⟨a, rfl⟩ := hcase.resolve_left h1
        obtain ⟨d, hdd⟩ := Option.ne_none_iff_exists'.1 (hd k e he hatt)
        obtain ⟨alt, act, _, hg, _⟩ := hV.shape hv0 he hdd
        have hdims : o'.dims = some dims := by rw [hV.obj]
        simp only [hdims, hg]
        exact ⟨_, rfl⟩
  obtain ⟨t', hK⟩ := hK
  simp only [hT, hK]

example : (verify exTextEnv exTextSofa .raise .write).out = .ok none ∧
    Dict.get? exTextSofa.attrs (py% "GLOBAL_Version") = some (.str (py% "2.1")) ∧
    (exTextSofa.attrs.all (fun p => match p.2, Dict.get? (verify exTextEnv exTextSofa .raise .write).obj.conv p.1 with
      | .str _, some e => e.typ = py% "attribute"
      | _, _ => true)) = true ∧
    ((verify exTextEnv exTextSofa .raise .write).obj.conv.all (fun p => p.2.typ = py% "attribute" || p.2.dims.isSome)) = true ∧
    (inspect exTextEnv exTextSofa (some (py% "info.txt")) .print).out = .ok () ∧
    ((inspect exTextEnv exTextSofa (some (py% "info.txt")) .print).obj.dims.map (fun D => D.all (fun p => p.2 ≠ []))) =
      some true ∧
    ((inspect exTextEnv exTextSofa (some (py% "info.txt")) .print).file.map
      (fun p => Str.hasSub p.2 (py% "Data_IR : (M=1, R=2, N=3)\n  \n"))) = some true := by decide +kernel

/-- C60 is false: an object with a plain string as string variable verifies, but `inspect` fails with an
AttributeError. -/
theorem C60_refuted : ∃ (env : Env) (o : Obj), (verify env o .raise .write).out = .ok none ∧
    (inspect env o none .print).out = .error (.attributeError (py% "size")) :=
  ⟨exTextEnv, (addVariable exTextSofa (py% "Room") (.val (.str (py% "small"))) (py% "string") (some (py% "IS"))).obj,
    by decide +kernel, by decide +kernel⟩

/-- C60: the sizes of numeric arrays with two or more axes are the sizes that `get_dimension` gives. -/
theorem C60_sizes_partial (env : Env) (o : Obj) (file : Option Str) (ih : IH)
    (h : (verify env o .raise .write).out = .ok none) (k : Str) (a : Arr) (e : Entry) (dims first : Str)
    (D : Dict Str) (d : Str) (i : Nat) (c : Char)
    (hv : Dict.get? o.attrs k = some (.arr a)) (he : Dict.get? (inspect env o file ih).obj.conv k = some e)
    (ht : e.typ = py% "double") (hdims : e.dims = some dims) (hf : Spec.IsFirstAlternative dims first)
    (hlen : 2 ≤ first.length) (hcomma : ',' ∉ first) (hax : 2 ≤ a.shape.length)
    (hD : (inspect env o file ih).obj.dims = some D) (hd : Dict.get? D k = some d) (hi : d[i]? = some c)
    (hS : c ≠ 'S') : (getDimension env o [c]).out = .ok (a.shape.getD i 1) := by
  obtain ⟨_, ha2⟩ := verify_any h ih
  obtain ⟨ha3, ha4⟩ := verify_any h .ret
  obtain ⟨o1, api, D', hV⟩ := verify_ok h
  rw [inspect_obj, ha2] at hD he
  have hDD : D = D' := by
    rw [hV.obj] at hD
    simpa using hD.symm
  subst hDD
  obtain ⟨alt, act, h1, h2, h3, h4, h5⟩ := hV.shape hv he hdims
  rw [h2] at hd
  cases hd
  have hapi : (updateDimensions env o).obj.api = some api := by
    unfold updateDimensions
    simp only [ha3, ha4, hV.obj]
  have hu : (updateDimensions env o).out = .ok () := by
    unfold updateDimensions
    simp only [ha3]
  rw [getDimension_iff hu hapi]
  have hfa := firstAlt_of_isFirst hf
  subst hfa
  have hsize : act.getD i 1 = a.shape.getD i 1 := by
    rw [actualShape_axis h3 hcomma]
    unfold Spec.axisSize
    rw [if_neg (by rw [ht]; decide), if_neg (by omega)]
    simp only [Val.shape]
    split
    · rename_i n hsn
      rw [hsn] at hax
      simp at hax
    · rfl
  rw [← hsize]
  simp only [Str.upper, List.getElem?_map, Option.map_eq_some_iff] at hi
  obtain ⟨c0, hc0, rfl⟩ := hi
  have hlt : i < alt.length := (List.getElem?_eq_some_iff.1 hc0).1
  have h6 := getElem?_compareShape (act := act) hlt
  rw [h4, List.getElem?_map, hc0] at h6
  have hne : c0 ≠ 'S' := by rintro rfl; exact hS (by decide)
  simp only [Option.map_some, hne, if_false, Option.some.injEq] at h6
  obtain ⟨n, hn⟩ := h5 c0 (List.mem_of_getElem? hc0) hne
  rw [← h6, hn, sizeIn, hn]
  rfl

example : (verify exTextEnv exTextSofa .raise .write).out = .ok none ∧
    Dict.get? exTextSofa.attrs (py% "Data_IR") = some (.arr (exNums .i [1, 2, 3] [1, 2, 3, 4, 5, 6])) ∧
    ((inspect exTextEnv exTextSofa none .print).obj.dims.bind (fun D => Dict.get? D (py% "Data_IR"))) =
      some (py% "MRN") ∧
    (getDimension exTextEnv exTextSofa (py% "N")).out = .ok 3 := by decide +kernel

/-- C60 is false: numeric vectors count as row vectors when the object is verified, but are shown as columns. Here the
dimension I has size 1 and C has size 3. -/
theorem C60_refuted_sizes : ∃ (env : Env) (o : Obj), (verify env o .raise .write).out = .ok none ∧
    (getDimension env o (py% "I")).out = .ok 1 ∧ (getDimension env o (py% "C")).out = .ok 3 ∧
    inspectKey env (inspect env o none .print).obj (py% "SourcePosition") =
      .ok (py% "SourcePosition : (I=3, C=1)\n  \n") ∧ (inspect env o none .print).out = .ok () :=
  ⟨exTextEnv, exPut exTextSofa (py% "SourcePosition") (.arr (exNums .i [3] [0, 0, 1])),
    by decide +kernel, by decide +kernel, by decide +kernel, by decide +kernel, by decide +kernel⟩

/-! ## C61: info -/

theorem mandatory_spec (e : Entry) : mandatory e.flags = true ↔ Spec.IsMandatory e := by
  unfold mandatory Spec.IsMandatory
  cases e.flags <;> simp

theorem readOnlyFlag_spec (e : Entry) : readOnlyFlag e.flags = true ↔ Spec.IsReadOnly e := by
  unfold readOnlyFlag Spec.IsReadOnly
  cases e.flags <;> simp

theorem selections_mem {sel : Str} (h : selections.contains sel = true) : sel = py% "all" ∨ sel = py% "mandatory" ∨
    sel = py% "optional" ∨ sel = py% "read only" ∨ sel = py% "data" := by
  simpa [selections] using h

theorem infoSkipped_spec {sel : Str} (h : selections.contains sel = true) (e : Entry) :
    infoSkipped sel e = true ↔ ¬ Spec.Selected sel e := by
  have h1 := mandatory_spec e
  have h2 := readOnlyFlag_spec e
  rcases selections_mem h with rfl | rfl | rfl | rfl | rfl <;>
    simp [infoSkipped, Spec.Selected, ← h1, ← h2]

theorem infoLine_spec (k : Str) (e : Entry) : Spec.InfoText k e (infoLine k e) := by
  have h1 := mandatory_spec e
  have h2 := readOnlyFlag_spec e
  refine ⟨infoDims e.dims,
    if mandatory e.flags then py% ", mandatory" else py% ", optional",
    if readOnlyFlag e.flags then py% ", read only" else [],
    if e.comment = [] then [] else py% "\n    " ++ e.comment, ?_, ?_, ?_, ?_, ?_⟩
  · unfold infoLine
    by_cases hc : e.comment = []
    · rw [if_pos hc, if_pos hc, List.append_nil]
    · rw [if_neg hc, if_neg hc]
      simp only [List.append_assoc]
  · cases e.dims with
    | none => simp [infoDims]
    | some d =>
      by_cases hd : d = []
      · simp [infoDims, hd]
      · exact Or.inr ⟨d, rfl, hd, by simp [infoDims, hd]⟩
  · rw [← h1]
    cases mandatory e.flags <;> simp
  · rw [← h2]
    cases readOnlyFlag e.flags <;> simp
  · by_cases hc : e.comment = [] <;> simp [hc]

theorem infoEntry_spec {show_ : Inp → Str} {o : Obj} {k t : Str} (h : infoEntry show_ o k = .ok t) :
    ∃ e, Dict.get? o.conv k = some e ∧ Spec.FullText show_ k e t := by
  unfold infoEntry at h
  cases he : Dict.get? o.conv k with
  | none => simp [he] at h
  | some e =>
    simp only [he, Except.ok.injEq] at h
    have h1 := mandatory_spec e
    have h2 := readOnlyFlag_spec e
    refine ⟨e, rfl, showBool (mandatory e.flags), showBool (readOnlyFlag e.flags), infoShape e.dims, by rw [← h], ?_, ?_, ?_⟩
    · rw [← h1]; cases mandatory e.flags <;> simp [showBool]
    · rw [← h2]; cases readOnlyFlag e.flags <;> simp [showBool]
    · cases e.dims <;> simp [infoShape]

/-- C61: `info` does not change the object. For the selections it succeeds if the convention knows all data (and the
attributes for the title are there), and shows the selected entries and no others, each once and in order. -/
theorem C61_selection (env : Env) (show_ : Inp → Str) (o : Obj) (sel : Str)
    (hs : sel ∈ [py% "all", py% "mandatory", py% "optional", py% "read only", py% "data"])
    (hk : ∀ k, Spec.IsData o k → ∃ e, Dict.get? o.conv k = some e) (c v s : Val)
    (hc : Dict.get? o.attrs (py% "GLOBAL_SOFAConventions") = some c)
    (hv : Dict.get? o.attrs (py% "GLOBAL_SOFAConventionsVersion") = some v)
    (hs' : Dict.get? o.attrs (py% "GLOBAL_Version") = some s) :
    (info env show_ o sel).out = .ok () ∧ (info env show_ o sel).obj = o ∧
    ∃ w t, (info env show_ o sel).ev = [.warn w, .print
        (Spec.title (Spec.shown env.fmt c) (Spec.shown env.fmt v) (Spec.shown env.fmt s) ++
          (py% "showing " ++ sel ++ py% " entries : type (shape), flags\n\n" ++ t))] ∧
      Spec.SomeTexts (fun k => ∃ e, Dict.get? o.conv k = some e ∧ Spec.Selected sel e)
        (fun k t => ∃ e, Dict.get? o.conv k = some e ∧ Spec.InfoText k e t) (o.attrs.map Prod.fst) t := by
  have hsel : selections.contains sel = true := by simpa [selections] using hs
  have hT : objTitle env o = .ok (Spec.title (Spec.shown env.fmt c) (Spec.shown env.fmt v) (Spec.shown env.fmt s)) := by
    simp only [objTitle, getAttr_of_get hc, getAttr_of_get hv, getAttr_of_get hs', showVal_eq]
    rfl
  have hB : ∀ l : List Str, (∀ k ∈ l, ∃ e, Dict.get? o.conv k = some e) → ∃ t, concatE (infoKey o sel) l = .ok t ∧
      Spec.SomeTexts (fun k => ∃ e, Dict.get? o.conv k = some e ∧ Spec.Selected sel e)
        (fun k t => ∃ e, Dict.get? o.conv k = some e ∧ Spec.InfoText k e t) l t := by
    intro l hl
    induction l with
    | nil => exact ⟨[], rfl, .nil⟩
    | cons k l ih =>
      obtain ⟨t, ht, hst⟩ := ih (fun q hq => hl q (by simp [hq]))
      obtain ⟨e, he⟩ := hl k (by simp)
      by_cases hsk : infoSkipped sel e = true
      · refine ⟨t, by simp [concatE, infoKey, he, hsk, ht], .skip _ _ _ ?_ hst⟩
        rintro ⟨e', he', hse⟩
        rw [he] at he'
        cases he'
        exact (infoSkipped_spec hsel e).1 hsk hse
      · refine ⟨infoLine k e ++ t, by simp [concatE, infoKey, he, hsk, ht], .cons _ _ _ _ ⟨e, he, ?_⟩ ⟨e, he, infoLine_spec k e⟩ hst⟩
        have := (infoSkipped_spec hsel e).not.1 hsk
        exact Classical.not_not.1 this
  obtain ⟨t, ht, hst⟩ := hB o.keys (fun k hkk => hk k hkk)
  have hbody : infoBody show_ o sel = .ok (py% "showing " ++ sel ++ py% " entries : type (shape), flags\n\n" ++ t) := by
    unfold infoBody
    rw [if_pos hsel, ht]
  unfold info
  simp only [hT, hbody]
  exact ⟨trivial, trivial, _, t, rfl, hst⟩

example : (∀ k, Spec.IsData exTextSofa k → ∃ e, Dict.get? exTextSofa.conv k = some e) ∧
    (info exTextEnv (fun _ => []) exTextSofa (py% "data")).out = .ok () ∧
    ((info exTextEnv (fun _ => []) exTextSofa (py% "data")).ev.any (fun e => match e with
      | .print t => Str.hasSub t (py% "SourcePosition : double (IC, MC), mandatory\n") &&
          ! Str.hasSub t (py% "SourcePosition_Type")
      | _ => false)) = true := by
  refine ⟨?_, by decide +kernel, by decide +kernel⟩
  have : ∀ k ∈ exTextSofa.keys, Dict.has exTextSofa.conv k = true := by decide +kernel
  intro k hk
  exact (Dict.has_iff _ _).1 (this k hk)

/-- C61: for every other text that is no name of an entry, `info` raises ValueError. -/
theorem C61_invalid (env : Env) (show_ : Inp → Str) (o : Obj) (sel : Str)
    (hs : sel ∉ [py% "all", py% "mandatory", py% "optional", py% "read only", py% "data"]) (hd : ¬ Spec.IsData o sel)
    (hc : ∃ c v s, Dict.get? o.attrs (py% "GLOBAL_SOFAConventions") = some c ∧
      Dict.get? o.attrs (py% "GLOBAL_SOFAConventionsVersion") = some v ∧
      Dict.get? o.attrs (py% "GLOBAL_Version") = some s) :
    (∃ msg, (info env show_ o sel).out = .error (.valueError msg)) ∧ (info env show_ o sel).obj = o := by
  obtain ⟨c, v, s, hc, hv, hs'⟩ := hc
  have hsel : selections.contains sel = false := by simpa [selections] using hs
  have hin : o.keys.contains sel = false := by
    rw [Bool.eq_false_iff, ne_eq, List.contains_iff_mem]
    exact hd
  unfold info infoBody
  simp only [objTitle, getAttr_of_get hc, getAttr_of_get hv, getAttr_of_get hs', hsel, hin, Bool.false_eq_true, if_false]
  exact ⟨⟨_, rfl⟩, trivial⟩

/-- C61: for the name of an entry, `info` shows all information on this entry and on nothing else. Missing: entries whose
name is part of the name of another entry (`C61_refuted`). -/
theorem C61_entry_partial (env : Env) (show_ : Inp → Str) (o : Obj) (key : Str)
    (hs : key ∉ [py% "all", py% "mandatory", py% "optional", py% "read only", py% "data"])
    (hn : (o.attrs.map Prod.fst).Nodup) (e : Entry) (hd : Spec.IsData o key) (he : Dict.get? o.conv key = some e)
    (hother : ∀ k, Spec.IsData o k → key <:+: k → k = key) (c v s : Val)
    (hc : Dict.get? o.attrs (py% "GLOBAL_SOFAConventions") = some c)
    (hv : Dict.get? o.attrs (py% "GLOBAL_SOFAConventionsVersion") = some v)
    (hs' : Dict.get? o.attrs (py% "GLOBAL_Version") = some s) :
    (info env show_ o key).out = .ok () ∧ (info env show_ o key).obj = o ∧
    ∃ w t, (info env show_ o key).ev = [.warn w, .print
        (Spec.title (Spec.shown env.fmt c) (Spec.shown env.fmt v) (Spec.shown env.fmt s) ++ t)] ∧
      Spec.FullText show_ key e t := by
  have hsel : selections.contains key = false := by simpa [selections] using hs
  have hin : o.keys.contains key = true := List.contains_iff_mem.2 hd
  have hT : objTitle env o = .ok (Spec.title (Spec.shown env.fmt c) (Spec.shown env.fmt v) (Spec.shown env.fmt s)) := by
    simp only [objTitle, getAttr_of_get hc, getAttr_of_get hv, getAttr_of_get hs', showVal_eq]
    rfl
  have hfil : o.keys.filter (fun k => Str.hasSub k key) = [key] := by
    have h1 : o.keys.filter (fun k => Str.hasSub k key) = o.keys.filter (fun k => k == key) := by
      apply List.filter_congr
      intro k hk
      rw [Bool.eq_iff_iff, hasSub_iff, beq_iff_eq]
      refine ⟨hother k hk, ?_⟩
      rintro rfl
      exact List.infix_rfl
    have hcnt : o.keys.count key = 1 := by
      have h2 : o.keys.count key ≤ 1 := List.nodup_iff_count_le_one.1 hn key
      have h3 : 0 < o.keys.count key := List.count_pos_iff.2 hd
      omega
    rw [h1, List.filter_beq, hcnt]
    rfl
  obtain ⟨t, ht⟩ : ∃ t, infoEntry show_ o key = .ok t := by
    simp only [infoEntry, he]
    exact ⟨_, rfl⟩
  obtain ⟨e', he', hft⟩ := infoEntry_spec ht
  rw [he] at he'
  cases he'
  have hbody : infoBody show_ o key = .ok t := by
    unfold infoBody
    simp only [hsel, hin, Bool.false_eq_true, if_false, if_true, hfil, concatE, ht, List.append_nil]
  unfold info
  simp only [hT, hbody]
  exact ⟨trivial, trivial, _, t, rfl, hft⟩

example : (py% "Data_IR") ∉ [py% "all", py% "mandatory", py% "optional", py% "read only", py% "data"] ∧
    (exTextSofa.attrs.map Prod.fst).Nodup ∧ Spec.IsData exTextSofa (py% "Data_IR") ∧
    (∀ k, Spec.IsData exTextSofa k → (py% "Data_IR") <:+: k → k = py% "Data_IR") := by
  refine ⟨by decide +kernel, by decide +kernel, by unfold Spec.IsData; decide +kernel, ?_⟩
  have : ∀ k ∈ exTextSofa.keys, Str.hasSub k (py% "Data_IR") = true → k = py% "Data_IR" := by decide +kernel
  intro k hk h
  exact this k hk ((hasSub_iff _ _).2 h)

/-- C61 is false: `info` shows all entries whose name contains the given name. -/
theorem C61_refuted : ∃ (env : Env) (o : Obj) (t u w : Str),
    (info env (fun _ => []) o (py% "GLOBAL_SOFAConventions")).ev = [.warn w, .print (t ++ py% "GLOBAL_SOFAConventionsVersion\n" ++ u)] :=
  ⟨exTextEnv, exTextSofa,
    (titleText (py% "FIR") (py% "1.0") (py% "2.1")) ++
      ((infoEntry (fun _ => []) exTextSofa (py% "GLOBAL_SOFAConventions")).toOption.getD []),
    (((infoEntry (fun _ => []) exTextSofa (py% "GLOBAL_SOFAConventionsVersion")).toOption.getD []).drop 30),
    py% "Sofa.info() will be deprecated in sofar 1.3.0 The conventions are now documented at https://sofar.readthedocs.io/en/stable/resources/conventions.html",
    by decide +kernel⟩

/-! ## C62: protected -/

/-- C62: assigning `True` or `False` to `protected` always works, the property then has this value, and nothing else
changes. Every other value raises ValueError. -/
theorem C62_set (o : Obj) (hr : ∀ l, o.readOnly = .names l → py% "protected" ∉ l)
    (hr' : ∀ s, o.readOnly = .single s → ¬ (py% "protected") <:+: s) :
    (∀ b, (setAttr o (py% "protected") (.pybool b)).out = .ok () ∧
      Spec.elems (getProtected (setAttr o (py% "protected") (.pybool b)).obj) = [.num (.fin (if b then 1 else 0))] ∧
      (setAttr o (py% "protected") (.pybool b)).obj = { o with prot := b }) ∧
    ∀ x, (∀ b, x ≠ .pybool b) → ∃ msg, (setAttr o (py% "protected") x).out = .error (.valueError msg) ∧
      (setAttr o (py% "protected") x).obj = o := by
  have h1 : o.hasAttr (py% "protected") = true := by
    unfold Obj.hasAttr
    simp [publicMembers]
  have h2 : o.readOnly.has (py% "protected") = false := by
    cases hro : o.readOnly with
    | names l => simpa [ReadOnly.has] using hr l hro
    | single s =>
      have := hr' s hro
      rw [← hasSub_iff] at this
      simpa [ReadOnly.has] using this
  refine ⟨fun b => ?_, fun x hx => ?_⟩
  · unfold setAttr
    simp only [h1, h2, Bool.not_true, Bool.and_false, Bool.false_eq_true, if_false, Bool.false_and, if_true]
    exact ⟨trivial, rfl, trivial⟩
  · unfold setAttr
    simp only [h1, h2, Bool.not_true, Bool.and_false, Bool.false_eq_true, if_false, Bool.false_and, if_true]
    cases x with
    | pybool b => exact absurd rfl (hx b)
    | _ => exact ⟨_, rfl, trivial⟩

example : (setAttr exSofa (py% "protected") (.pybool false)).out = .ok () ∧ exSofa.prot = true ∧
    (setAttr exSofa (py% "protected") (.pybool false)).obj.prot = false ∧
    (match exSofa.readOnly with | .names l => ! l.contains (py% "protected") | .single s => ! Str.hasSub s (py% "protected")) = true := by
  decide +kernel

/-- C62 is false for every object: the value of the property can not be assigned, not even to the same object. It is a
numpy scalar, not a `bool`. -/
theorem C62_refuted (o o' : Obj) : ∃ e, (setAttr o (py% "protected") (.val (getProtected o'))).out = .error e := by
  unfold setAttr
  split
  · exact ⟨_, rfl⟩
  · split
    · exact ⟨_, rfl⟩
    · rw [if_pos rfl]
      exact ⟨_, rfl⟩

/-! ## C63: warnings of equals -/

theorem forall2_left {α β : Type} {R : α → β → Prop} {l : List α} {m : List β} (h : List.Forall₂ R l m) :
    ∀ x ∈ l, ∃ y ∈ m, R x y := by
  induction h with
  | nil => simp
  | cons hr _ ih =>
    intro x hx
    rcases List.mem_cons.1 hx with rfl | hx
    · exact ⟨_, by simp, hr⟩
    · obtain ⟨y, hy, hry⟩ := ih x hx
      exact ⟨y, by simp [hy], hry⟩

theorem forall2_imp_mem {α β : Type} {R S : α → β → Prop} {l : List α} {m : List β} (h : List.Forall₂ R l m)
    (hrs : ∀ x ∈ l, ∀ y, R x y → S x y) : List.Forall₂ S l m := by
  induction h with
  | nil => exact .nil
  | cons hr _ ih => exact .cons (hrs _ (by simp) _ hr) (ih (fun x hx => hrs x (by simp [hx])))

theorem compareLoop_quiet (a b : Obj) (l : List Str) (same : Bool) : (compareLoop a b false l same []).ev = [] := by
  induction l generalizing same with
  | nil => rfl
  | cons k l ih =>
    rw [compareLoop]
    split
    · rfl
    · exact ih _
    · exact ih _

theorem compareLoop_ev (a b : Obj) (l : List Str) (same r : Bool) (ev : List Event)
    (h : (compareLoop a b true l same ev).out = .ok r) :
    ∃ evs, (compareLoop a b true l same ev).ev = ev ++ evs ∧
      List.Forall₂ (fun k e => ∃ msg, compareEntry a b k = .ok (some msg) ∧ e = .warn msg)
        (l.filter (fun k => compareEntry a b k ≠ .ok none)) evs := by
  induction l generalizing same ev with
  | nil => exact ⟨[], by simp [compareLoop], .nil⟩
  | cons k l ih =>
    rw [compareLoop] at h ⊢
    cases hc : compareEntry a b k with
    | error e => simp [hc] at h
    | ok m =>
      cases m with
      | none =>
        simp only [hc] at h ⊢
        rw [List.filter_cons_of_neg (by simp [hc])]
        exact ih _ _ h
      | some msg =>
        simp only [hc] at h ⊢
        obtain ⟨evs, h1, h2⟩ := ih _ _ h
        refine ⟨.warn msg :: evs, by rw [h1]; simp [differ], ?_⟩
        rw [List.filter_cons_of_pos (by simp [hc])]
        exact .cons ⟨msg, hc, rfl⟩ h2

/-- C63: without `verbose` there are no warnings; with it there is a warning if and only if the objects differ. -/
theorem C63_warns (a b : Obj) (x : Option Str) (r : Bool) : (equals a b false x).ev = [] ∧
    ((equals a b true x).out = .ok r → (r = false ↔ ∃ msg, .warn msg ∈ (equals a b true x).ev)) := by
  unfold equals
  cases compareKeys a x with
  | error e => simp
  | ok ka =>
    cases compareKeys b x with
    | error e => simp
    | ok kb =>
      simp only
      split
      · refine ⟨rfl, fun h => ?_⟩
        simp only [Except.ok.injEq] at h
        subst h
        simp [differ]
      · split
        · refine ⟨compareLoop_quiet _ _ _ _, fun h => ?_⟩
          obtain ⟨evs, h1, h2⟩ := compareLoop_ev a b ka true r [] h
          have h3 := (compareLoop_ok a b true ka true [] r).1 h
          rw [h1, List.nil_append]
          rw [Bool.eq_false_iff, ne_eq, h3.2]
          constructor
          · intro hn
            simp only [true_and] at hn
            obtain ⟨k, hk⟩ := Classical.not_forall.1 hn
            obtain ⟨hk1, hk2⟩ := Classical.not_imp.1 hk
            have hm : k ∈ ka.filter (fun k => compareEntry a b k ≠ .ok none) := by simp [hk1, hk2]
            obtain ⟨e, he, msg, _, rfl⟩ := forall2_left h2 k hm
            exact ⟨msg, he⟩
          · rintro ⟨msg, hm⟩ ⟨_, hn⟩
            have : ka.filter (fun k => compareEntry a b k ≠ .ok none) = [] := by
              rw [List.filter_eq_nil_iff]
              intro k hk
              simp [hn k hk]
            rw [this] at h2
            cases h2
            simp at hm
        · refine ⟨rfl, fun h => ?_⟩
          simp only [Except.ok.injEq] at h
          subst h
          simp [differ]

/-- C63: for objects with the same names, there is exactly one warning for every entry that differs, in the order of the
entries; the warning contains the name of the entry if it is an attribute, or if the types differ. Missing: names of
variables (`C63_refuted`). -/
theorem C63_each_partial (a b : Obj) (hna : (a.attrs.map Prod.fst).Nodup) (hnb : (b.attrs.map Prod.fst).Nodup)
    (ha : Spec.Typed a) (hb : Spec.Typed b) (hk : ∀ k, Spec.IsData a k ↔ Spec.IsData b k)
    (hs : ∀ k v w, Dict.get? a.attrs k = some v → Dict.get? b.attrs k = some w →
      Spec.SameUpToOnes (Spec.shapeOf v) (Spec.shapeOf w)) :
    ∃ ks : List Str, ks.Sublist (a.attrs.map Prod.fst) ∧ (∀ k, k ∈ ks ↔ Spec.IsData a k ∧ Spec.Differs a b k) ∧
      List.Forall₂ (fun k e => ∃ msg ea eb, e = .warn msg ∧ Dict.get? a.conv k = some ea ∧ Dict.get? b.conv k = some eb ∧
        (ea.typ = py% "attribute" ∨ ea.typ ≠ eb.typ → k <:+: msg)) ks (equals a b true none).ev := by
  have hall : ∀ k ∈ a.keys, ∃ m ea eb, compareEntry a b k = .ok m ∧ (m ≠ none ↔ Spec.Differs a b k) ∧
      Dict.get? a.conv k = some ea ∧ Dict.get? b.conv k = some eb ∧
      ∀ msg, m = some msg → (ea.typ = py% "attribute" ∨ ea.typ ≠ eb.typ → k <:+: msg) := by
    intro k hkk
    obtain ⟨v, hv⟩ := (Dict.has_iff _ _).1 ((Dict.has_iff_mem _ _).2 hkk)
    obtain ⟨w, hw⟩ := (Dict.has_iff _ _).1 ((Dict.has_iff_mem _ _).2 ((hk k).1 hkk))
    obtain ⟨ea, hea, ta⟩ := ha k v hv
    obtain ⟨eb, heb, tb⟩ := hb k w hw
    obtain ⟨m, hm, hmm⟩ := compareEntry_typed hv hw hea heb ta tb (hs k v w hv hw)
    refine ⟨m, ea, eb, hm, ?_, hea, heb, ?_⟩
    · rw [ne_eq, hmm]
      apply not_congr
      constructor
      · intro h v' w' ea' eb' g1 g2 g3 g4
        rw [hv] at g1; cases g1
        rw [hw] at g2; cases g2
        rw [hea] at g3; cases g3
        rw [heb] at g4; cases g4
        exact h
      · intro h; exact h v w ea eb hv hw hea heb
    · rintro msg rfl hty
      unfold compareEntry at hm
      simp only [hv, hw, hea, heb] at hm
      have hin : ∀ p s : Str, k <:+: p ++ k ++ s := fun p s => ⟨p, s, rfl⟩
      split at hm
      · split at hm
        · simp at hm
        · rename_i d _
          cases d
          · simp at hm
          · simp only [if_true, Except.ok.injEq, Option.some.injEq] at hm
            rw [← hm]
            simpa using hin (py% "not identical: different values for ") []
      · rename_i hna'
        split at hm
        · rename_i hd
          rcases hty with h | h
          · rw [h] at hd; exact absurd hd.1 (by decide)
          · exact absurd (hd.1.trans hd.2.symm) h
        · split at hm
          · rename_i hd
            rcases hty with h | h
            · rw [h] at hd; exact absurd hd.1 (by decide)
            · exact absurd (hd.1.trans hd.2.symm) h
          · simp only [Except.ok.injEq, Option.some.injEq] at hm
            rw [← hm]
            have := hin (py% "not identical: ") (py% " has different data types (" ++ ea.typ ++ py% ", " ++ eb.typ ++ py% ")")
            simpa only [List.append_assoc] using this
  have hlen : a.keys.length = b.keys.length := ((List.perm_ext_iff_of_nodup hna hnb).2 hk).length_eq
  have heq : equals a b true none = compareLoop a b true a.keys true [] := by
    unfold equals
    simp only [compareKeys]
    rw [if_neg (by simpa using hlen), if_pos]
    simp only [Bool.and_eq_true, List.all_eq_true, List.contains_iff_mem]
    exact ⟨fun k h => (hk k).1 h, fun k h => (hk k).2 h⟩
  have hout : ∃ r, (compareLoop a b true a.keys true []).out = .ok r := by
    classical
    refine ⟨decide (∀ k ∈ a.keys, compareEntry a b k = .ok none), ?_⟩
    rw [compareLoop_ok]
    refine ⟨fun k h => ?_, by simp⟩
    obtain ⟨m, _, _, hm, _⟩ := hall k h
    exact ⟨m, hm⟩
  obtain ⟨r, hout⟩ := hout
  obtain ⟨evs, h1, h2⟩ := compareLoop_ev a b a.keys true r [] hout
  refine ⟨a.keys.filter (fun k => compareEntry a b k ≠ .ok none), List.filter_sublist, ?_, ?_⟩
  · intro k
    rw [List.mem_filter]
    constructor
    · rintro ⟨hk1, hk2⟩
      refine ⟨hk1, ?_⟩
      obtain ⟨m, _, _, hm, hd, _⟩ := hall k hk1
      apply hd.1
      rintro rfl
      simp [hm] at hk2
    · rintro ⟨hk1, hk2⟩
      refine ⟨hk1, ?_⟩
      obtain ⟨m, _, _, hm, hd, _⟩ := hall k hk1
      have := hd.2 hk2
      simpa [hm] using this
  · rw [heq, h1, List.nil_append]
    refine forall2_imp_mem h2 ?_
    rintro k hkm e ⟨msg, hm, rfl⟩
    obtain ⟨m, ea, eb, hm', _, hea, heb, hmsg⟩ := hall k (List.mem_filter.1 hkm).1
    rw [hm] at hm'
    cases hm'
    exact ⟨msg, ea, eb, rfl, hea, heb, hmsg msg rfl⟩

/-- Two objects to which `C63_each_partial` applies, with one warning for each of two differences. -/
example : (∀ k, Spec.IsData (exTyped (py% "a") 1) k ↔ Spec.IsData (exTyped (py% "b") 2) k) ∧
    Spec.Typed (exTyped (py% "a") 1) ∧ Spec.Typed (exTyped (py% "b") 2) ∧
    (equals (exTyped (py% "a") 1) (exTyped (py% "b") 2) true none).ev =
      [.warn (py% "not identical: different values for GLOBAL_Title"),
       .warn (py% "not identical: different values for {key}")] :=
  ⟨fun _ => Iff.rfl, exTyped_typed _ _, exTyped_typed _ _, by decide +kernel⟩

/-- C63 is false: objects that differ in different variables give the same warnings, which do not contain the names. -/
theorem C63_refuted : ∃ (env : Env) (a b c : Obj) (ev : List Event), (verify env a .raise .write).out = .ok none ∧
    (verify env b .raise .write).out = .ok none ∧ (verify env c .raise .write).out = .ok none ∧
    (∀ k, k ≠ py% "Data_IR" → Dict.get? b.attrs k = Dict.get? a.attrs k) ∧
    (∀ k, k ≠ py% "SourcePosition" → Dict.get? c.attrs k = Dict.get? a.attrs k) ∧
    (equals a b true none) = ⟨.ok false, ev⟩ ∧ (equals a c true none) = ⟨.ok false, ev⟩ ∧
    ev = [.warn (py% "not identical: different values for {key}")] := by
  refine ⟨exTextEnv, exTextSofa, exPut exTextSofa (py% "Data_IR") (.arr (exNums .i [1, 2, 3] [1, 2, 3, 4, 5, 7])),
    exPut exTextSofa (py% "SourcePosition") (.arr (exNums .i [1, 3] [0, 0, 7])), _, by decide +kernel, by decide +kernel,
    by decide +kernel, ?_, ?_, by decide +kernel, by decide +kernel, rfl⟩
  · intro k hk
    exact Dict.get?_put_ne _ _ hk
  · intro k hk
    exact Dict.get?_put_ne _ _ hk

end Sofar
