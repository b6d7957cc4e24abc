import Verif.Lemmas.Paths
import Verif.Props.Text
import Verif.Props.Stream
/-!
# Texts about files (C64, C65)
-/
namespace Sofar

/-! ## C64: SofaStream.list_dimensions -/

theorem ncTextAttr_ok {d : Dict Val} {k t : Str} (h : ncTextAttr d k = .ok t) :
    ∃ v, Dict.get? d k = some v ∧ Spec.text v = some t := by
  unfold ncTextAttr ncGet at h
  cases hg : Dict.get? d k with
  | none => simp [hg] at h
  | some v =>
    simp only [hg] at h
    cases v <;> simp_all [Val.asStr, Spec.text]

theorem ncTextAttr_of {d : Dict Val} {k t : Str} (h : Dict.get? d k = some (.str t)) : ncTextAttr d k = .ok t := by
  simp [ncTextAttr, ncGet, h, Val.asStr]

/-- C64: if `list_dimensions` of a stream succeeds, it prints one line for every dimension in the file, in their order,
with the size that `get_dimension` gives and its meaning according to the data type and the types of the positions. -/
theorem C64_lists (f : NcFile) (t : Str) (h : streamListDimensions f = .ok t) (hn : (f.dims.map Prod.fst).Nodup) :
    ∃ dt rt et d r e xr xe, Dict.get? f.attrs (py% "DataType") = some d ∧ Spec.text d = some dt ∧
      Dict.get? f.vars (py% "ReceiverPosition") = some xr ∧ Dict.get? xr.attrs (py% "Type") = some r ∧
      Spec.text r = some rt ∧
      Dict.get? f.vars (py% "EmitterPosition") = some xe ∧ Dict.get? xe.attrs (py% "Type") = some e ∧
      Spec.text e = some et ∧
      Spec.Texts (fun k s => ∃ n, streamDimension f k = .ok n ∧ s = Spec.dimensionLine dt rt et k n [])
        (f.dims.map Prod.fst) t ∧
      ∀ k n, streamDimension f k = .ok n → k ∈ f.dims.map Prod.fst := by
  unfold streamListDimensions at h
  cases h1 : ncTextAttr f.attrs (py% "DataType") with
  | error e => simp [h1] at h
  | ok dt =>
    cases h2 : streamType f (py% "ReceiverPosition") with
    | error e => simp [h1, h2] at h
    | ok rt =>
      cases h3 : streamType f (py% "EmitterPosition") with
      | error e => simp [h1, h2, h3] at h
      | ok et =>
        cases h4 : meaningN dt with
        | none => simp [h1, h2, h3, h4] at h
        | some m =>
          simp only [h1, h2, h3, h4, Except.ok.injEq] at h
          obtain ⟨d, hd1, hd2⟩ := ncTextAttr_ok h1
          have hvar : ∀ {k u : Str}, streamType f k = .ok u → ∃ x r, Dict.get? f.vars k = some x ∧
              Dict.get? x.attrs (py% "Type") = some r ∧ Spec.text r = some u := by
            intro k u hk
            unfold streamType at hk
            cases hx : Dict.get? f.vars k with
            | none => simp [hx] at hk
            | some x =>
              simp only [hx] at hk
              obtain ⟨r, hr1, hr2⟩ := ncTextAttr_ok hk
              exact ⟨x, r, rfl, hr1, hr2⟩
          obtain ⟨xr, r, hr1, hr2, hr3⟩ := hvar h2
          obtain ⟨xe, e, he1, he2, he3⟩ := hvar h3
          refine ⟨dt, rt, et, d, r, e, xr, xe, hd1, hd2, hr1, hr2, hr3, he1, he2, he3, ?_, ?_⟩
          · have key : ∀ l : Dict NcDim, (∀ p ∈ l, p ∈ f.dims) →
                Spec.Texts (fun k s => ∃ n, streamDimension f k = .ok n ∧ s = Spec.dimensionLine dt rt et k n [])
                  (l.map Prod.fst)
                  (streamDimsText (meanings m (meaningRE (py% "receiver") rt) (meaningRE (py% "emitter") et)) l) := by
              intro l hl
              induction l with
              | nil => exact .nil
              | cons p l ih =>
                obtain ⟨k, n⟩ := p
                simp only [streamDimsText, List.map_cons]
                refine .cons _ _ _ _ ⟨n.size, ?_, ?_⟩ (ih (fun q hq => hl q (by simp [hq])))
                · have := Dict.get?_of_mem hn (hl (k, n) (by simp))
                  simp [streamDimension, this]
                · rw [dimText_eq h4]
                  simp only [Spec.dimensionLine, List.append_nil]
            rw [← h]
            exact key f.dims (fun p hp => hp)
          · intro k n hk
            unfold streamDimension at hk
            cases hg : Dict.get? f.dims k with
            | none => simp [hg] at hk
            | some x => exact (Dict.has_iff_mem _ _).1 ((Dict.has_iff _ _).2 ⟨x, hg⟩)

theorem streamType_of {nc : Nc} {f : NcFile} {name k u : Str}
    (hg : streamLookup nc f name k (some (py% "Type")) = .ok (.value (.str u)))
    (hx : ∃ x, Dict.get? f.vars k = some x) : streamType f k = .ok u := by
  obtain ⟨x, hx⟩ := hx
  simp only [streamLookup, hx, variableAttr] at hg
  split at hg
  · simp at hg
  · cases ha : Dict.get? x.attrs (py% "Type") with
    | none => simp [ha] at hg
    | some v =>
      simp only [ha, Except.ok.injEq, Got.value.injEq] at hg
      subst hg
      unfold streamType
      rw [hx]
      exact ncTextAttr_of ha

theorem variable_of_get {nc : Nc} {f : NcFile} {name k : Str} {x : NcVar}
    (hg : streamLookup nc f name k none = .ok (.variable_ x)) : Dict.get? f.vars k = some x := by
  unfold streamLookup at hg
  cases hx : Dict.get? f.vars k with
  | some y => simpa [hx] using hg
  | none =>
    cases ha : Dict.get? f.attrs k <;> simp [hx, ha] at hg

/-- C64: for a file written by sofar, `list_dimensions` of the stream succeeds if the data type is one of FIR, TF and SOS
(with any ending) and positions of receivers and emitters have a type. Missing: other data types, for which it fails
(`C64_refuted`). -/
theorem C64_succeeds_partial (env : Env) (nc : Nc) (fs : FS) (filename : Str) (o : Obj) (compression : Nat)
    (hw : (writeSofa env nc fs filename o compression).out = .ok ())
    (hs : Spec.Storable env.rnd nc.isFill (writeSofa env nc fs filename o compression).obj) (dt rt et : Str)
    (ht : Spec.HasText (writeSofa env nc fs filename o compression).obj (py% "GLOBAL_DataType") dt)
    (hk : Spec.KnownDataType dt)
    (hr : Spec.HasText (writeSofa env nc fs filename o compression).obj (py% "ReceiverPosition_Type") rt)
    (he : Spec.HasText (writeSofa env nc fs filename o compression).obj (py% "EmitterPosition_Type") et)
    (vr ve : Val) (er ee : Entry)
    (hvr : Spec.IsVariable (writeSofa env nc fs filename o compression).obj (py% "ReceiverPosition") vr er)
    (hve : Spec.IsVariable (writeSofa env nc fs filename o compression).obj (py% "EmitterPosition") ve ee) :
    ∃ path f t, Spec.FileFor filename path ∧
      openStream (writeSofa env nc fs filename o compression).fs path = .ok f ∧ streamListDimensions f = .ok t := by
  obtain ⟨path, f, hp0, hf, h1, _, h3⟩ := C43_values_partial env nc fs filename o compression hw hs
  obtain ⟨path', f', o1, api, ds, r, hW, hfile, _, _⟩ := writeSofa_ok hw
  have e1 : path' = path := by
    have hp := withSuffix_iff.2 hp0
    have := hW.loc
    rw [hp] at this
    simpa using this.symm
  subst e1
  have e2 : f' = f := by
    unfold openStream at hf
    simpa [hfile] using hf
  subst e2
  have hdt := ncTextAttr_of (file_global hW hs (a := py% "DataType") ht)
  have hR : streamType f' (py% "ReceiverPosition") = .ok rt := by
    have h := h3 (py% "ReceiverPosition") vr er (py% "Type") rt hvr (Or.inl (by decide)) hr (by decide) (by decide) (by decide)
    have h0 : streamGet nc f' (py% "ReceiverPosition" ++ '_' :: py% "Type") =
      streamLookup nc f' (py% "ReceiverPosition_Type") (py% "ReceiverPosition") (some (py% "Type")) := rfl
    rw [h0] at h
    obtain ⟨x, hx, _⟩ := h1 (py% "ReceiverPosition") vr er hvr (Or.inl (by decide))
    have h2 : streamGet nc f' (py% "ReceiverPosition") = streamLookup nc f' (py% "ReceiverPosition") (py% "ReceiverPosition") none := rfl
    rw [h2] at hx
    exact streamType_of h ⟨x, variable_of_get hx⟩
  have hE : streamType f' (py% "EmitterPosition") = .ok et := by
    have h := h3 (py% "EmitterPosition") ve ee (py% "Type") et hve (Or.inl (by decide)) he (by decide) (by decide) (by decide)
    have h0 : streamGet nc f' (py% "EmitterPosition" ++ '_' :: py% "Type") =
      streamLookup nc f' (py% "EmitterPosition_Type") (py% "EmitterPosition") (some (py% "Type")) := rfl
    rw [h0] at h
    obtain ⟨x, hx, _⟩ := h1 (py% "EmitterPosition") ve ee hve (Or.inl (by decide))
    have h2 : streamGet nc f' (py% "EmitterPosition") = streamLookup nc f' (py% "EmitterPosition") (py% "EmitterPosition") none := rfl
    rw [h2] at hx
    exact streamType_of h ⟨x, variable_of_get hx⟩
  obtain ⟨m, hm⟩ := meaningN_isSome.2 hk
  have hl : ∃ t, streamListDimensions f' = .ok t := by
    unfold streamListDimensions
    simp only [hdt, hR, hE, hm]
    exact ⟨_, rfl⟩
  obtain ⟨t, hl⟩ := hl
  exact ⟨path', f', t, hp0, hf, hl⟩

/-- the file that the example with positions writes -/
def exTextFile (o : Obj) : NcFile :=
  match Dict.get? (writeSofa exTextEnv exNc exDisk (py% "a") o 4).fs.files (py% "a.sofa") with
  | some (.nc f) => f
  | _ => .empty

/-- the example with a type of positions -/
example : (writeSofa exTextEnv exNc exDisk (py% "a") exTextSofa 4).out = .ok () ∧
    Spec.Storable exTextEnv.rnd exNc.isFill (writeSofa exTextEnv exNc exDisk (py% "a") exTextSofa 4).obj ∧
    openStream (writeSofa exTextEnv exNc exDisk (py% "a") exTextSofa 4).fs (py% "a.sofa") = .ok (exTextFile exTextSofa) ∧
    ((exTextFile exTextSofa).dims.map Prod.fst).Nodup ∧
    streamListDimensions (exTextFile exTextSofa) =
      .ok (py% "R = 2 receiver\nM = 1 measurements\nN = 3 samples\nE = 1 emitter spherical harmonics coefficients\nC = 3 coordinate dimensions, fixed\nI = 1 single dimension, fixed\nS = 5 maximum string length\n") :=
  ⟨by decide +kernel, storable_of_check (by decide +kernel), by decide +kernel, by decide +kernel, by decide +kernel⟩

/-- C64 is false: for a file with another data type (written by other software), `get_dimension` works, but
`list_dimensions` fails with an UnboundLocalError. -/
theorem C64_refuted : ∃ f : NcFile, streamDimension f (py% "N") = .ok 3 ∧ streamListDimensions f = .error .unboundLocal :=
  ⟨{ exTextFile exTextSofa with attrs := Dict.put (exTextFile exTextSofa).attrs (py% "DataType") (.str (py% "XYZ")) },
    by decide +kernel, by decide +kernel⟩

/-! ## C65: SofaStream.inspect -/

theorem streamAttrText_ok {nc : Nc} {name : Str} {x : NcVar} {a t : Str} (h : streamAttrText nc name x a = .ok t) :
    ∃ y, Dict.get? x.attrs a = some (.str y) ∧ t = name ++ py% "_" ++ a ++ py% " : " ++ y ++ py% "\n" := by
  unfold streamAttrText variableAttr at h
  by_cases hr : nc.reserved a = true
  · simp [hr] at h
  · simp only [hr, Bool.false_eq_true, if_false] at h
    cases hg : Dict.get? x.attrs a with
    | none => simp [hg] at h
    | some v =>
      cases v <;> simp [hg] at h
      exact ⟨_, rfl, by rw [← h]; simp⟩

theorem underscored_eq (s : Str) : Str.replaceChar s '.' '_' = Spec.underscored s := rfl

theorem streamVarText_ok {env : Env} {nc : Nc} {p : Str × NcVar} {t : Str} (h : streamVarText env nc p = .ok t)
    (hd : p.2.dims.length = p.2.data.shape.length) (hp : p.2.data.data.length = p.2.data.shape.foldr (· * ·) 1) :
    Spec.StreamVariable env.fmt p t := by
  unfold streamVarText at h
  simp only [underscored_eq] at h
  have hsz : p.2.data.size = Spec.prod p.2.data.shape := by simp only [Arr.size, prod_eq]
  split at h
  · simp at h
  · rename_i v hv
    cases ha : concatE (streamAttrText nc (Spec.underscored p.1) p.2) (Dict.keys p.2.attrs) with
    | error e => simp [ha] at h
    | ok a =>
      simp only [ha, Except.ok.injEq] at h
      refine ⟨v, a, h.symm, ?_, ?_⟩
      · by_cases h1 : p.2.data.size = 1
        · left
          rw [if_pos h1] at hv
          refine ⟨by rw [← hsz]; exact h1, ?_⟩
          have hone : Spec.prod p.2.data.shape = 1 := by rw [← hsz]; exact h1
          cases hft : firstText env p.2.data with
          | error e => simp [hft, Except.map] at hv
          | ok u =>
            simp only [hft, Except.map, Except.ok.injEq] at hv
            unfold firstText at hft
            split at hft
            · simp at hft
            · rename_i n e l hs hl
              simp only [Except.ok.injEq, showVal_eq] at hft
              refine ⟨_, by rw [← hv, ← hft], Or.inl ⟨e, ?_, by rw [hl]; rfl, rfl⟩⟩
              rw [hs] at hone ⊢
              simp only [Spec.prod, Nat.mul_one] at hone
              rw [hone]
            · rename_i _ n s hs hno
              simp only [Except.ok.injEq, showVal_eq] at hft
              rw [hs] at hone
              simp only [Spec.prod] at hone
              have hn1 : n = 1 := Nat.eq_one_of_mul_eq_one_right hone
              refine ⟨_, by rw [← hv, ← hft], Or.inr ⟨s, ?_, by rw [hs, hn1], rfl⟩⟩
              rintro rfl
              rw [hs, hn1] at hp
              cases hdd : p.2.data.data with
              | nil => simp [hdd] at hp
              | cons e l => exact hno e l hdd rfl
        · right
          rw [if_neg h1] at hv
          refine ⟨by rw [← hsz]; exact h1, ?_⟩
          have hne : p.2.dims ≠ [] := by
            intro h0
            rw [h0] at hd
            have : p.2.data.shape = [] := List.length_eq_zero_iff.1 hd.symm
            rw [hsz, this] at h1
            exact h1 rfl
          rw [shapeText_eq hne, Except.ok.injEq] at hv
          by_cases h7 : p.2.data.size < 7
          · right
            rw [if_pos h7] at hv
            refine ⟨by omega, ?_⟩
            rw [← hv]
            simp only [valuesText, List.append_assoc]
            rfl
          · left
            rw [if_neg h7] at hv
            exact ⟨by omega, by rw [← hv, List.append_nil]⟩
      · exact Texts.imp (concatE_texts ha) (fun n _ s hs => streamAttrText_ok hs)

/-- C65: if `inspect` of a stream succeeds, the text consists of the title, the values of all global attributes, and a
text for every variable with the values of its attributes. (In a netCDF file, the number of dimensions and of elements
of a variable fit to its shape.) -/
theorem C65_shows (env : Env) (nc : Nc) (f : NcFile) (t : Str) (h : streamInspect env nc f = .ok t)
    (hd : ∀ n x, (n, x) ∈ f.vars → x.dims.length = x.data.shape.length) (hp : Spec.ProperFile f) :
    ∃ c v s globals variables_, Dict.get? f.attrs (py% "SOFAConventions") = some c ∧
      Dict.get? f.attrs (py% "SOFAConventionsVersion") = some v ∧ Dict.get? f.attrs (py% "Version") = some s ∧
      t = Spec.title (Spec.shown env.fmt c) (Spec.shown env.fmt v) (Spec.shown env.fmt s) ++ globals ++ variables_ ∧
      Spec.Texts (fun p s => s = py% "GLOBAL_" ++ p.1 ++ py% " : " ++ Spec.shown env.fmt p.2 ++ py% "\n") f.attrs globals ∧
      Spec.Texts (Spec.StreamVariable env.fmt) f.vars variables_ := by
  unfold streamInspect at h
  split at h
  · rename_i c v s h1 h2 h3
    have hget : ∀ {k : Str} {w : Val}, ncGet f.attrs k = .ok w → Dict.get? f.attrs k = some w := by
      intro k w hk
      unfold ncGet at hk
      cases hg : Dict.get? f.attrs k <;> simp [hg] at hk
      rw [hk]
    cases hc : concatE (streamVarText env nc) f.vars with
    | error e => simp [hc] at h
    | ok u =>
      simp only [hc, Except.ok.injEq, showVal_eq] at h
      refine ⟨c, v, s, _, u, hget h1, hget h2, hget h3, h.symm, ?_, ?_⟩
      · generalize f.attrs = l
        induction l with
        | nil => exact .nil
        | cons p l ih => exact .cons _ _ _ _ rfl ih
      · exact Texts.imp (concatE_texts hc) (fun p hpp s hs => streamVarText_ok hs (hd p.1 p.2 hpp) (hp p.1 p.2 hpp).1)
  all_goals simp at h

/-- C65: `inspect` of a stream succeeds if all attributes of variables are text (and none has the name of a member of
`netCDF4.Variable`) and no variable is without dimensions. Missing: attributes that are numbers (`C65_refuted`) and
variables without dimensions. -/
theorem C65_succeeds_partial (env : Env) (nc : Nc) (f : NcFile)
    (hc : ∃ c v s, Dict.get? f.attrs (py% "SOFAConventions") = some c ∧
      Dict.get? f.attrs (py% "SOFAConventionsVersion") = some v ∧ Dict.get? f.attrs (py% "Version") = some s)
    (ha : ∀ n x a w, (n, x) ∈ f.vars → Dict.get? x.attrs a = some w → (∃ y, w = .str y) ∧ nc.reserved a = false)
    (hs : ∀ n x, (n, x) ∈ f.vars → x.data.shape ≠ []) : ∃ t, streamInspect env nc f = .ok t := by
  obtain ⟨c, v, s, h1, h2, h3⟩ := hc
  have hvars : ∃ u, concatE (streamVarText env nc) f.vars = .ok u := by
    apply concatE_total
    rintro ⟨n, x⟩ hx
    have hattr : ∃ u, concatE (streamAttrText nc (Str.replaceChar n '.' '_') x) (Dict.keys x.attrs) = .ok u := by
      apply concatE_total
      intro a haa
      obtain ⟨w, hw⟩ := (Dict.has_iff _ _).1 ((Dict.has_iff_mem _ _).2 haa)
      obtain ⟨⟨y, rfl⟩, hr⟩ := ha n x a w hx hw
      unfold streamAttrText variableAttr
      simp only [hr, hw, Bool.false_eq_true, if_false]
      exact ⟨_, rfl⟩
    obtain ⟨u, hu⟩ := hattr
    have hval : ∃ q, (if x.data.size = 1 then (firstText env x.data).map (· ++ py% "\n")
      else .ok (shapeText x.dims x.data.shape ++ (if x.data.size < 7 then valuesText env x.data else []))) =
        (.ok q : Except Exc Str) := by
      split
      · have hft : ∃ q, firstText env x.data = .ok q := by
          unfold firstText
          split
          · rename_i hsh
            exact absurd hsh (hs n x hx)
          · exact ⟨_, rfl⟩
          · exact ⟨_, rfl⟩
        obtain ⟨q, hq⟩ := hft
        rw [hq]
        exact ⟨_, rfl⟩
      · exact ⟨_, rfl⟩
    obtain ⟨q, hq⟩ := hval
    unfold streamVarText
    simp only [hq, hu]
    exact ⟨_, rfl⟩
  obtain ⟨u, hu⟩ := hvars
  unfold streamInspect
  simp only [ncGet, h1, h2, h3, hu]
  exact ⟨_, rfl⟩

/-- the file of the example -/
example : (∃ t, streamInspect exTextEnv exNc (exTextFile exTextSofa) = .ok t) ∧
    (∀ p ∈ (exTextFile exTextSofa).vars, p.2.dims.length = p.2.data.shape.length ∧ p.2.data.shape ≠ [] ∧
      p.2.data.data.length = p.2.data.shape.foldr (· * ·) 1) ∧ (exTextFile exTextSofa).vars.length = 6 ∧
    (match streamInspect exTextEnv exNc (exTextFile exTextSofa) with
      | .ok t => Str.hasSub t (py% "\nGLOBAL_DataType : FIR\n") && Str.hasSub t (py% "\nData_IR : (M=1, R=2, N=3)\n  ") &&
          Str.hasSub t (py% "\nEmitterPosition_Type : spherical harmonics\n")
      | .error _ => false) = true := by
  refine ⟨?_, by decide +kernel, by decide +kernel, by decide +kernel⟩
  cases h : streamInspect exTextEnv exNc (exTextFile exTextSofa) with
  | ok t => exact ⟨t, rfl⟩
  | error e =>
    have : (match streamInspect exTextEnv exNc (exTextFile exTextSofa) with | .ok _ => true | .error _ => false) = true := by
      decide +kernel
    simp [h] at this

/-- C65 is false: if a variable has a number as attribute, which netCDF allows, `inspect` of a stream fails with a
TypeError, while the attribute itself can be read. -/
theorem C65_refuted : ∃ (env : Env) (nc : Nc) (f : NcFile) (v : Val) (msg : Str),
    streamGet nc f (py% "Gain_Scale") = .ok (.value v) ∧ streamInspect env nc f = .error (.typeError msg) :=
  ⟨exTextEnv, exNc, { exTextFile exTextSofa with
      vars := [(py% "Gain", ⟨[py% "I"], ⟨.f, [1], [.num (.fin 1)]⟩, [(py% "Scale", exNum 2)]⟩)] },
    exNum 2, py% "can only concatenate str to str", by decide +kernel, by decide +kernel⟩

end Sofar
