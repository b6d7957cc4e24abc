import Verif.Spec.Resize
import Verif.Props.Total
import Verif.Props.Deleting
/-!
# C93: the size of a dimension does not matter
-/
namespace Sofar

namespace Resize

variable {env : Env} {o o' : Obj} {size : Char → Nat} {c : Char} {n : Nat}

theorem has (h : Spec.Resized o o' size c n) (k : Str) : (∃ v, Dict.get? o'.attrs k = some v) ↔ ∃ v, Dict.get? o.attrs k = some v := by
  have key : ∀ d : Dict Val, (∃ v, Dict.get? d k = some v) ↔ k ∈ d.map Prod.fst := by
    intro d
    rw [← Option.isSome_iff_exists]
    exact Dict.has_iff_mem d k
  rw [key, key, h.names]

theorem conv (h : Spec.Resized o o' size c n) : o'.conv = o.conv := by rw [h.hidden]

theorem custom (h : Spec.Resized o o' size c n) : o'.custom = o.custom := by rw [h.hidden]

/-- variables of the new object are variables of the old one -/
theorem old (h : Spec.Resized o o' size c n) {k : Str} {v' : Val} {e : Entry} {d : Str} (hv : Spec.VariableWith o' k v' e d) :
    ∃ v, Spec.VariableWith o k v e d := by
  obtain ⟨v, hv1⟩ := (has h k).1 ⟨v', hv.value⟩
  exact ⟨v, hv1, by rw [← conv h]; exact hv.entry, hv.dims⟩

theorem sized (h : Spec.Resized o o' size c n) {x : Char} (hx : Spec.Sized o x) : Spec.Sized o' x := by
  rcases hx with h1 | h1 | h1 | ⟨k, v, e, d, a, y, h1, h2⟩
  · exact Or.inl h1
  · exact Or.inr (Or.inl h1)
  · exact Or.inr (Or.inr (Or.inl h1))
  · obtain ⟨v', hv'⟩ := (has h k).2 ⟨v, h1.value⟩
    exact Or.inr (Or.inr (Or.inr ⟨k, v', e, d, a, y, ⟨hv', by rw [conv h]; exact h1.entry, h1.dims⟩, h2⟩))

theorem reset (h : Spec.Resized o o' size c n) (hr : resetConvention env o = .ok o) (hc : Spec.Checkable o)
    (h1 : Dict.get? o'.attrs (py% "GLOBAL_SOFAConventions") = Dict.get? o.attrs (py% "GLOBAL_SOFAConventions"))
    (h2 : Dict.get? o'.attrs (py% "GLOBAL_SOFAConventionsVersion") = Dict.get? o.attrs (py% "GLOBAL_SOFAConventionsVersion")) :
    resetConvention env o' = .ok o' := by
  obtain ⟨cv, c', v, conv, g1, g2, g3, g4, g5, g6⟩ := resetConvention_inv hr
  have e1 : o'.getAttr (py% "GLOBAL_SOFAConventions") = .ok cv := by
    refine getAttr_of_get ?_
    rw [h1]
    exact getAttr_data (by decide) (by decide) g1
  have e2 : o'.getAttr (py% "GLOBAL_SOFAConventionsVersion") = .ok v := by
    refine getAttr_of_get ?_
    rw [h2]
    exact getAttr_data (by decide) (by decide) g3
  unfold resetConvention
  rw [e1, e2]
  simp only [g2, g4, g5, custom h]
  rw [h.hidden]
  cases hcu : o.custom with
  | none =>
    simp only [hcu] at g6 ⊢
    rw [g6]
  | some cu =>
    simp only [hcu] at g6 ⊢
    have a1 := congrArg Obj.conv g6
    have a2 := congrArg Obj.custom g6
    simp only [hcu] at a1 a2
    rw [← a1, ← a2]

theorem checkable (h : Spec.Resized o o' size c n) (hc : Spec.Checkable o) (ht : ∀ k v e, Dict.get? o.attrs k = some v → Dict.get? o.conv k = some e → e.dims = none ∨ e.typ = py% "attribute" →
    Dict.get? o'.attrs k = some v) (hver : Dict.get? o'.attrs (py% "GLOBAL_SOFAConventionsVersion") = Dict.get? o.attrs (py% "GLOBAL_SOFAConventionsVersion")) :
    Spec.Checkable o' where
  known k hk := by rw [conv h]; exact hc.known k (by rw [← h.names]; exact hk)
  custom cu k e h1 h2 h3 := by
    obtain ⟨v, e', d, hv⟩ := hc.custom cu k e (by rw [← custom h]; exact h1) h2 h3
    obtain ⟨v', hv'⟩ := (has h k).2 ⟨v, hv.value⟩
    exact ⟨v', e', d, hv', by rw [conv h]; exact hv.entry, hv.dims⟩
  texts k v' e d a hv' ha hs := by
    obtain ⟨v, hv⟩ := old h hv'
    obtain ⟨b, w, _, _, _, hw, hres⟩ := h.changed k v e d a hv ha
    rw [hv'.value, Option.some.injEq] at hw
    subst hw
    exact hres.texts (hc.texts k v e d a hv ha hs)
  four k v' e d a hv' ha := by
    obtain ⟨v, hv⟩ := old h hv'
    exact hc.four k v e d a hv ha
  sized k v' e d a hv' ha x hx := by
    obtain ⟨v, hv⟩ := old h hv'
    exact sized h (hc.sized k v e d a hv ha x hx)
  version := by rw [hver]; exact hc.version

/-- the value of an attribute -/
theorem sameText (h : Spec.Resized o o' size c n) (hc : Spec.Checkable o) {k : Str} {v' : Val} (hv' : Dict.get? o'.attrs k = some v')
    (ht : ∀ e, Dict.get? o.conv k = some e → e.typ = py% "attribute") : Dict.get? o.attrs k = some v' := by
  obtain ⟨v, hv⟩ := (has h k).1 ⟨v', hv'⟩
  have hm : k ∈ o.attrs.map Prod.fst := List.mem_map.2 ⟨(k, v), Dict.mem_of_get? hv, rfl⟩
  obtain ⟨e, he⟩ := hc.known k hm
  have := h.kept k v e hv he (Or.inr (ht e he))
  rw [hv', Option.some.injEq] at this
  rw [this]
  exact hv

theorem regular (h : Spec.Resized o o' size c n) (hc : Spec.Checkable o) (hr : Spec.RegularRules env o) : Spec.RegularRules env o' where
  ordinary := hr.ordinary
  typed key rule hm hn e he := hr.typed key rule hm hn e (by rw [← conv h]; exact he)
  unit := hr.unit
  items key rule v t sp items hm hv ht hs hi := by
    have hv1 := sameText h hc hv (fun e he => hr.typed key rule hm (Or.inr (by rw [hs]; simp)) e he)
    obtain ⟨g1, g2⟩ := hr.items key rule v t sp items hm hv1 ht hs hi
    refine ⟨fun k l hk => ⟨fun e he => (g1 k l hk).1 e (by rw [← conv h]; exact he), (g1 k l hk).2⟩, ?_⟩
    intro l d sizes str hl hd
    obtain ⟨x, hx, hsz⟩ := g2 l d sizes str hl hd
    exact ⟨x, hx, sized h hsz⟩
  units k e hk he hu := hr.units k e (by rw [← h.names]; exact hk) (by rw [← conv h]; exact he) hu

theorem fits (h : Spec.Resized o o' size c n) (hs : Spec.FitsSizes o size) (hcs : c ≠ 'I' ∧ c ≠ 'C' ∧ c ≠ 'S') :
    Spec.FitsSizes o' (fun x => if x = c then n else size x) where
  I := by simp only [if_neg (Ne.symm hcs.1)]; exact hs.I
  C := by simp only [if_neg (Ne.symm hcs.2.1)]; exact hs.C
  defines k v' e d a i x hv' ha hx hl := by
    obtain ⟨v, hv⟩ := old h hv'
    obtain ⟨b, w, _, _, _, hw, hres⟩ := h.changed k v e d a hv ha
    rw [hv'.value, Option.some.injEq] at hw
    subst hw
    rw [hres.lengths i x hx hl]
    by_cases hxc : Str.upperC x = c
    · simp only [if_pos hxc]
    · simp only [if_neg hxc]
      exact hs.defines k v e d a i x hv ha hx hl
  fits k v' e d first hv' hf := by
    obtain ⟨v, hv⟩ := old h hv'
    obtain ⟨b, w, hb, hbs, hfit, hw, hres⟩ := h.changed k v e d first hv hf
    rw [hv'.value, Option.some.injEq] at hw
    subst hw
    refine ⟨b, hb, hbs, fun i x hx => ?_⟩
    rw [hres.axes i x hx]
    by_cases hxc : Str.upperC x = c
    · have : x ≠ 'S' := by
        rintro rfl
        exact hcs.2.2 (by rw [← hxc]; decide)
      simp only [if_pos hxc, if_neg this]
    · simp only [if_neg hxc]
      exact hfit i x hx

theorem obeyed (h : Spec.Resized o o' size c n) (hc : Spec.Checkable o) (hr : Spec.RegularRules env o) (hfree : Spec.FreeSize env o c)
    {key : Str} {rule : Rule} (hm : (key, rule) ∈ env.rules) (ho : Spec.RuleObeyed env.aliases o size key rule) :
    Spec.RuleObeyed env.aliases o' (fun x => if x = c then n else size x) key rule := by
  intro v' hv'
  obtain ⟨v, hv⟩ := (has h _).1 ⟨v', hv'⟩
  refine ⟨fun l hl => ?_, fun g hg => (has h _).2 ((ho v hv).2.1 g hg), fun sp t items hsp ht hi i hin => ?_⟩
  · have hv1 := sameText h hc hv' (fun e he => hr.typed key rule hm (Or.inl (by rw [hl]; simp)) e he)
    exact (ho v' hv1).1 l hl
  · have hv1 := sameText h hc hv' (fun e he => hr.typed key rule hm (Or.inr (by rw [hsp]; simp)) e he)
    have h1 := (ho v' hv1).2.2 sp t items hsp ht hi i hin
    cases i with
    | dims l =>
      intro d sizes str hd
      obtain ⟨x, hx, hxs, hsz, hmem⟩ := h1 d sizes str hd
      have : x ≠ c := by
        rintro rfl
        exact hfree key rule v' t sp items l d sizes str hm hv1 ht hsp hi hin hd hx
      refine ⟨x, hx, hxs, sized h hsz, ?_⟩
      simp only [if_neg this]
      exact hmem
    | dep k ref =>
      obtain ⟨w, hw, hal⟩ := h1
      obtain ⟨w', hw'⟩ := (has h _).2 ⟨w, hw⟩
      refine ⟨w', hw', fun l hl => ?_⟩
      subst hl
      have := (hr.items key rule v' t sp items hm hv1 ht hsp hi).1 k l hin
      have hw2 := sameText h hc hw' this.1
      rw [hw, Option.some.injEq] at hw2
      subst hw2
      exact hal l rfl

theorem conforms (h : Spec.Resized o o' size c n) (hc : Spec.Checkable o) (hr : Spec.RegularRules env o) (hfree : Spec.FreeSize env o c)
    (hcs : c ≠ 'I' ∧ c ≠ 'C' ∧ c ≠ 'S') (hs : Spec.FitsSizes o size)
    (hob : ∀ key rule, (key, rule) ∈ env.rules → Spec.RuleObeyed env.aliases o size key rule) {wr : Bool}
    (hf : Spec.Conforms env o wr)
    (hcn : Dict.get? o'.attrs (py% "GLOBAL_SOFAConventions") = Dict.get? o.attrs (py% "GLOBAL_SOFAConventions")) :
    Spec.Conforms env o' wr where
  mandatory := by
    intro k e f he hfl hm
    rw [conv h] at he
    rw [h.names]
    exact hf.mandatory k e f he hfl hm
  types k v' hv' := by
    obtain ⟨v, hv⟩ := (has h k).1 ⟨v', hv'⟩
    obtain ⟨e, he, ht⟩ := hf.types k v hv
    refine ⟨e, by rw [conv h]; exact he, ?_⟩
    cases hd : e.dims with
    | none =>
      have := h.kept k v e hv he (Or.inl hd)
      rw [hv', Option.some.injEq] at this
      rwa [this]
    | some d =>
      obtain ⟨b, w, _, _, _, hw, hres⟩ := h.changed k v e d (firstAlt d) ⟨hv, he, hd⟩ (isFirst_firstAlt d)
      rw [hv', Option.some.injEq] at hw
      subst hw
      exact hres.type
  names k e hk he := by
    rw [conv h] at he ⊢
    exact hf.names k e (by rw [← h.names]; exact hk) he
  shapes := ⟨_, fits h hs hcs, fun key rule hm => obeyed h hc hr hfree hm (hob key rule hm)⟩
  units hw k v' hv' hu := by
    have hm : k ∈ o.attrs.map Prod.fst := by
      rw [← h.names]
      exact List.mem_map.2 ⟨(k, v'), Dict.mem_of_get? hv', rfl⟩
    exact hf.units hw k v' (sameText h hc hv' (fun e he => hr.units k e hm he hu)) hu
  current hw c' v hv ht := hf.current hw c' v (by rw [← hcn]; exact hv) ht

/-- the object with another size follows its convention, too -/
theorem valid (env : Env) {write : Bool} (hr : resetConvention env o = .ok o) (hc : Spec.Checkable o)
    (hrules : Spec.RegularRules env o) (hf : Spec.Conforms env o write) (hs : Spec.FitsSizes o size)
    (hob : ∀ key rule, (key, rule) ∈ env.rules → Spec.RuleObeyed env.aliases o size key rule)
    (hcust : ∀ c, o.custom = some c → ∃ n, Spec.CanCreate env o n ∧ ∀ k ∈ c.map Prod.fst, ∀ m ∈ n.conv.map Prod.fst,
      Str.replace m (py% "GLOBAL_") [] ≠ Str.replace k (py% "GLOBAL_") [])
    (hcs : c ≠ 'I' ∧ c ≠ 'C' ∧ c ≠ 'S') (hfree : Spec.FreeSize env o c)
    (hname : ∀ e, Dict.get? o.conv (py% "GLOBAL_SOFAConventions") = some e → e.dims = none)
    (hver : ∀ e, Dict.get? o.conv (py% "GLOBAL_SOFAConventionsVersion") = some e → e.dims = none)
    (h : Spec.Resized o o' size c n) :
    resetConvention env o' = .ok o' ∧ Spec.Checkable o' ∧ Spec.RegularRules env o' ∧ Spec.Conforms env o' write ∧
    ∀ c, o'.custom = some c → ∃ n, Spec.CanCreate env o' n ∧ ∀ k ∈ c.map Prod.fst, ∀ m ∈ n.conv.map Prod.fst,
      Str.replace m (py% "GLOBAL_") [] ≠ Str.replace k (py% "GLOBAL_") [] := by
  have same : ∀ k, (∀ e, Dict.get? o.conv k = some e → e.dims = none) → Dict.get? o'.attrs k = Dict.get? o.attrs k := by
    intro k hk
    cases hv : Dict.get? o.attrs k with
    | none =>
      cases hv' : Dict.get? o'.attrs k with
      | none => rfl
      | some v' =>
        obtain ⟨v, hv2⟩ := (has h k).1 ⟨v', hv'⟩
        rw [hv] at hv2
        cases hv2
    | some v =>
      obtain ⟨e, he⟩ := hc.known k (List.mem_map.2 ⟨(k, v), Dict.mem_of_get? hv, rfl⟩)
      exact h.kept k v e hv he (Or.inl (hk e he))
  have hn := same _ hname
  have hv := same _ hver
  refine ⟨reset h hr hc hn hv, checkable h hc h.kept hv, regular h hc hrules, conforms h hc hrules hfree hcs hs hob hf hn, ?_⟩
  intro cu hcu
  rw [custom h] at hcu
  obtain ⟨m, ⟨cv, c0, vv, v0, g1, g2, g3, g4, g5⟩, hk⟩ := hcust cu hcu
  exact ⟨m, ⟨cv, c0, vv, v0, by rw [hn]; exact g1, g2, by rw [hv]; exact g3, g4, g5⟩, hk⟩

end Resize

/-- C31: for objects that follow their convention `get_dimension` gives the sizes to which the data fits, for every dimension that is
set by data of the object. -/
theorem C31_conforming (env : Env) (o o1 : Obj) (size : Char → Nat) (hr : resetConvention env o = .ok o1)
    (hc : Spec.Checkable o1) (hrules : Spec.RegularRules env o1) (hf : Spec.Conforms env o1 true) (hs : Spec.FitsSizes o1 size)
    (hcust : ∀ c, o1.custom = some c → ∃ n, Spec.CanCreate env o1 n ∧
      ∀ k ∈ c.map Prod.fst, ∀ m ∈ n.conv.map Prod.fst,
        Str.replace m (py% "GLOBAL_") [] ≠ Str.replace k (py% "GLOBAL_") [])
    (c : Char) (hS : c ≠ 'S') (hcs : Spec.Sized o1 c) :
    (getDimension env o [c]).out = .ok (size c) := by
  have hok : (verify env o .raise .write).out = .ok none := (C58_accepted env o o1 .write hr hc hrules hf hcust).1
  obtain ⟨c1, c2, c3⟩ := C19_raise_return env o o1 .write hr hf.mandatory
  have hret : (verify env o .ret .write).out = .ok none := by
    cases h : (verify env o .ret .write).out with
    | error x => rw [c1 x h] at hok; cases hok
    | ok r =>
      cases r with
      | none => rfl
      | some t =>
        obtain ⟨t0, h0, _⟩ := c3 t h
        rw [h0] at hok
        cases hok
  have hobj : (verify env o .ret .write).obj = (verify env o .raise .write).obj :=
    verifyG_ret_obj_present _ env o o1 .write hr ((isMandatory_iff o1).2 hf.mandatory)
  obtain ⟨o1', api, dims, hV⟩ := verify_ok hok
  have := hV.reset
  rw [hr] at this
  cases this
  have hapi : (verify env o .ret .write).obj.api = some api := by rw [hobj, hV.obj]
  obtain ⟨_, api', ha', hok', hall⟩ := phaseDims_total hc
  have hpp := hV.passes.shapes
  rw [ha'] at hpp
  obtain ⟨dims', hd', _⟩ := phaseShapes_nil hpp
  have hsame : api' = api := by
    have h1 := hV.obj
    rw [hd'] at h1
    have h2 := congrArg Obj.api h1
    simpa using h2
  subst hsame
  obtain ⟨n, hn⟩ := hall c hcs
  have hu : updateDimensions env o = ⟨.ok (), (verify env o .ret .write).obj, (verify env o .ret .write).ev⟩ := by
    unfold updateDimensions
    simp only [hret]
  unfold getDimension
  simp only [hu, hapi, hn]
  rw [sizes_agree hc hok' hs hS hn]

example : (getDimension exEnv exVerified (py% "M")).out = .ok (exSizes 'M') ∧
    (getDimension exEnv exVerified (py% "R")).out = .ok (exSizes 'R') := by decide +kernel

/-- C93: an object that was verified and follows its convention passes `verify` with any other number of measurements, receivers, samples, ...
if all its variables get the new size along this dimension, unless a rule prescribes the size. -/
theorem C93_resized (env : Env) (o o' : Obj) (size : Char → Nat) (c : Char) (n : Nat) (mode : Mode)
    (hr : resetConvention env o = .ok o) (hc : Spec.Checkable o) (hrules : Spec.RegularRules env o)
    (hf : Spec.Conforms env o (decide (mode = .write))) (hs : Spec.FitsSizes o size)
    (hob : ∀ key rule, (key, rule) ∈ env.rules → Spec.RuleObeyed env.aliases o size key rule)
    (hcust : ∀ c, o.custom = some c → ∃ n, Spec.CanCreate env o n ∧ ∀ k ∈ c.map Prod.fst, ∀ m ∈ n.conv.map Prod.fst,
      Str.replace m (py% "GLOBAL_") [] ≠ Str.replace k (py% "GLOBAL_") [])
    (hcs : c ≠ 'I' ∧ c ≠ 'C' ∧ c ≠ 'S') (hfree : Spec.FreeSize env o c)
    (hname : ∀ e, Dict.get? o.conv (py% "GLOBAL_SOFAConventions") = some e → e.dims = none)
    (hver : ∀ e, Dict.get? o.conv (py% "GLOBAL_SOFAConventionsVersion") = some e → e.dims = none)
    (h : Spec.Resized o o' size c n) :
    (verify env o' .raise mode).out = .ok none := by
  obtain ⟨h1, h2, h3, h4, h5⟩ := Resize.valid env hr hc hrules hf hs hob hcust hcs hfree hname hver h
  exact (C58_accepted env o' o' mode h1 h2 h3 h4 h5).1

/-- C93: `get_dimension` gives the new size of the dimension, and the sizes of all other dimensions are as before. -/
theorem C93_sizes (env : Env) (o o' : Obj) (size : Char → Nat) (c : Char) (n : Nat)
    (hr : resetConvention env o = .ok o) (hc : Spec.Checkable o) (hrules : Spec.RegularRules env o)
    (hf : Spec.Conforms env o true) (hs : Spec.FitsSizes o size)
    (hob : ∀ key rule, (key, rule) ∈ env.rules → Spec.RuleObeyed env.aliases o size key rule)
    (hcust : ∀ c, o.custom = some c → ∃ n, Spec.CanCreate env o n ∧ ∀ k ∈ c.map Prod.fst, ∀ m ∈ n.conv.map Prod.fst,
      Str.replace m (py% "GLOBAL_") [] ≠ Str.replace k (py% "GLOBAL_") [])
    (hcs : c ≠ 'I' ∧ c ≠ 'C' ∧ c ≠ 'S') (hfree : Spec.FreeSize env o c)
    (hname : ∀ e, Dict.get? o.conv (py% "GLOBAL_SOFAConventions") = some e → e.dims = none)
    (hver : ∀ e, Dict.get? o.conv (py% "GLOBAL_SOFAConventionsVersion") = some e → e.dims = none)
    (h : Spec.Resized o o' size c n) :
    (Spec.Sized o c → (getDimension env o' [c]).out = .ok n) ∧
    ∀ x, x ≠ c → x ≠ 'S' → Spec.Sized o x → (getDimension env o' [x]).out = (getDimension env o [x]).out := by
  obtain ⟨h1, h2, h3, h4, h5⟩ := Resize.valid (write := true) env hr hc hrules hf hs hob hcust hcs hfree hname hver h
  have key : ∀ x, x ≠ 'S' → Spec.Sized o x → (getDimension env o' [x]).out = .ok (if x = c then n else size x) := fun x hx hsz =>
    C31_conforming env o' o' (fun x => if x = c then n else size x) h1 h2 h3 h4 (Resize.fits h hs hcs) h5 x hx
      (Resize.sized h hsz)
  constructor
  · intro hsz
    rw [key c hcs.2.2 hsz, if_pos rfl]
  · intro x hxc hxS hsz
    rw [key x hxS hsz, if_neg hxc, C31_conforming env o o size hr hc hrules hf hs hcust x hxS hsz]

/-- the object of the example with two measurements instead of one -/
def exMore : Obj :=
  exPut (exPut exVerified (py% "Data_IR") (.arr (exNums .i [2, 2, 3] [1, 2, 3, 4, 5, 6, 7, 8, 9, 10, 11, 12]))) (py% "SourcePosition")
    (.arr (exNums .i [2, 3] [0, 0, 1, 90, 0, 1]))

theorem exMore_resized : Spec.Resized exVerified exMore exSizes 'M' 2 where
  hidden := rfl
  names := by decide +kernel
  kept k v e hv he hd := by
    have h1 : ∀ p ∈ exVerified.attrs, p.1 = py% "Data_IR" ∨ p.1 = py% "SourcePosition" ∨ Dict.get? exMore.attrs p.1 = some p.2 := by decide +kernel
    rcases h1 _ (Dict.mem_of_get? hv) with h1 | h1 | h1
    · simp only at h1
      subst h1
      rw [show Dict.get? exVerified.conv (py% "Data_IR") = some ⟨some (py% "m"), some (py% "mRn"), py% "double",
        .list (exNums .i [1, 2, 3] [1, 2, 3, 4, 5, 6]), []⟩ by decide +kernel, Option.some.injEq] at he
      subst he
      rcases hd with hd | hd
      · cases hd
      · exact absurd hd (by decide)
    · simp only at h1
      subst h1
      rw [show Dict.get? exVerified.conv (py% "SourcePosition") = some ⟨some (py% "m"), some (py% "IC, MC"), py% "double",
        .list (exNums .i [3] [0, 0, 1]), []⟩ by decide +kernel, Option.some.injEq] at he
      subst he
      rcases hd with hd | hd
      · cases hd
      · exact absurd hd (by decide)
    · exact h1
  changed k v e d first hv hf := by
    have hk : k ∈ [py% "SourcePosition", py% "Names", py% "Data_IR", py% "Temperature"] := by
      have h1 : ∀ p ∈ exVerified.conv, p.2.dims ≠ none → p.1 ∈ [py% "SourcePosition", py% "Names", py% "Data_IR", py% "Temperature"] := by
        decide +kernel
      exact h1 (k, e) (Dict.mem_of_get? hv.entry) (by rw [hv.dims]; simp)
    have hfirst := firstAlt_of_isFirst hf
    obtain ⟨hval, hent, hdim⟩ := hv
    simp only [List.mem_cons, List.not_mem_nil, or_false] at hk
    rcases hk with rfl | rfl | rfl | rfl
    · rw [show Dict.get? exVerified.conv (py% "SourcePosition") = some ⟨some (py% "m"), some (py% "IC, MC"), py% "double",
        .list (exNums .i [3] [0, 0, 1]), []⟩ by decide +kernel, Option.some.injEq] at hent
      subst hent
      cases hdim
      rw [show Dict.get? exVerified.attrs (py% "SourcePosition") = some (.arr (exNums .i [1, 3] [0, 0, 1])) by decide +kernel,
        Option.some.injEq] at hval
      subst hval
      rw [show firstAlt (py% "IC, MC") = py% "IC" by decide +kernel] at hfirst
      subst hfirst
      refine ⟨py% "MC", .arr (exNums .i [2, 3] [0, 0, 1, 90, 0, 1]), ⟨[py% "IC"], [], by decide, by decide⟩, by decide, ?_,
        by decide +kernel, ⟨Or.inr (Or.inl ⟨rfl, Or.inr (Or.inr ⟨_, rfl, Or.inl rfl⟩)⟩), ?_, ?_, ?_⟩⟩
      · intro i x hx
        rcases i with _ | _ | i <;> simp at hx <;> subst hx <;> decide
      · rintro (h | ⟨a, n, rest, h, _, _, _, _, hx⟩)
        · simp [Spec.IsString] at h
        · cases h
          obtain ⟨s, hs⟩ := hx (.num (.fin 0)) (by decide +kernel)
          cases hs
      · intro i x hx
        rcases i with _ | _ | i <;> simp at hx <;> subst hx <;> decide
      · intro i x hx hl
        rcases i with _ | _ | i <;> simp at hx <;> subst hx <;> exact absurd hl (by decide)
    · rw [show Dict.get? exVerified.conv (py% "Names") = some ⟨none, some (py% "rS"), py% "string",
        .list ⟨.U, [2, 1], [.str (py% "left"), .str (py% "right")]⟩, []⟩ by decide +kernel, Option.some.injEq] at hent
      subst hent
      cases hdim
      rw [show Dict.get? exVerified.attrs (py% "Names") = some (.arr ⟨.U, [2, 1], [.str (py% "left"), .str (py% "right")]⟩) by
        decide +kernel, Option.some.injEq] at hval
      subst hval
      rw [show firstAlt (py% "rS") = py% "rS" by decide +kernel] at hfirst
      subst hfirst
      refine ⟨py% "rS", .arr ⟨.U, [2, 1], [.str (py% "left"), .str (py% "right")]⟩, ⟨[], [], by decide, by decide⟩, by decide, ?_,
        by decide +kernel, ⟨Or.inr (Or.inr ⟨rfl, Or.inr ⟨_, rfl, rfl⟩⟩), id, ?_, ?_⟩⟩
      · intro i x hx
        rcases i with _ | _ | i <;> simp at hx <;> subst hx <;> decide
      · intro i x hx
        rcases i with _ | _ | i <;> simp at hx <;> subst hx <;> decide
      · intro i x hx hl
        rcases i with _ | _ | i <;> simp at hx <;> subst hx <;> decide
    · rw [show Dict.get? exVerified.conv (py% "Data_IR") = some ⟨some (py% "m"), some (py% "mRn"), py% "double",
        .list (exNums .i [1, 2, 3] [1, 2, 3, 4, 5, 6]), []⟩ by decide +kernel, Option.some.injEq] at hent
      subst hent
      cases hdim
      rw [show Dict.get? exVerified.attrs (py% "Data_IR") = some (.arr (exNums .i [1, 2, 3] [1, 2, 3, 4, 5, 6])) by decide +kernel,
        Option.some.injEq] at hval
      subst hval
      rw [show firstAlt (py% "mRn") = py% "mRn" by decide +kernel] at hfirst
      subst hfirst
      refine ⟨py% "mRn", .arr (exNums .i [2, 2, 3] [1, 2, 3, 4, 5, 6, 7, 8, 9, 10, 11, 12]), ⟨[], [], by decide, by decide⟩, by decide, ?_,
        by decide +kernel, ⟨Or.inr (Or.inl ⟨rfl, Or.inr (Or.inr ⟨_, rfl, Or.inl rfl⟩)⟩), ?_, ?_, ?_⟩⟩
      · intro i x hx
        rcases i with _ | _ | _ | i <;> simp at hx <;> subst hx <;> decide
      · rintro (h | ⟨a, n, rest, h, _, _, _, _, hx⟩)
        · simp [Spec.IsString] at h
        · cases h
          obtain ⟨s, hs⟩ := hx (.num (.fin 1)) (by decide +kernel)
          cases hs
      · intro i x hx
        rcases i with _ | _ | _ | i <;> simp at hx <;> subst hx <;> decide
      · intro i x hx hl
        rcases i with _ | _ | _ | i <;> simp at hx <;> subst hx <;> first | exact absurd hl (by decide) | decide
    · rw [show Dict.get? exVerified.conv (py% "Temperature") = some (customEntry none (some (py% "I")) (py% "double")) by decide +kernel,
        Option.some.injEq] at hent
      subst hent
      cases hdim
      rw [show firstAlt (py% "I") = py% "I" by decide +kernel] at hfirst
      subst hfirst
      have hv1 : ∃ k n, v = .num k n ∧ Spec.HasType (py% "double") v := by
        obtain ⟨w, hw⟩ : ∃ w, Dict.get? exVerified.attrs (py% "Temperature") = some w ∧ (match w with | .num .f (.num _) => true | _ => false) = true :=
          ⟨((Dict.get? exVerified.attrs (py% "Temperature")).getD (.str [])), by decide +kernel, by decide +kernel⟩
        rw [hval, Option.some.injEq] at hw
        obtain ⟨rfl, hw⟩ := hw
        split at hw
        · exact ⟨_, _, rfl, Or.inr (Or.inl ⟨rfl, Or.inr (Or.inl ⟨_, rfl⟩)⟩)⟩
        · cases hw
      obtain ⟨kk, x, rfl, ht⟩ := hv1
      refine ⟨py% "I", _, ⟨[], [], by decide, by decide⟩, by decide, ?_, ?_, ⟨ht, id, ?_, ?_⟩⟩
      · intro i x hx
        rcases i with _ | i <;> simp at hx <;> subst hx <;> rfl
      · rw [← hval]
        decide +kernel
      · intro i x hx
        rcases i with _ | i <;> simp at hx <;> subst hx <;> rfl
      · intro i x hx hl
        rcases i with _ | i <;> simp at hx <;> subst hx <;> exact absurd hl (by decide)

/-- the hypotheses are met by the number of measurements -/
example : (verify exEnv exMore .raise .write).out = .ok none := by
  have hob := exRules_obeyed exVerified (by decide +kernel) (by decide +kernel) (by decide +kernel) (by decide +kernel)
  have hcu : exVerified.custom = some [(py% "Temperature", customEntry none (some (py% "I")) (py% "double"))] := by
    decide +kernel
  refine C93_resized exEnv exVerified exMore exSizes 'M' 2 .write (by decide +kernel) (checkableB_sound (by decide +kernel))
    (regularRulesB_sound (by decide +kernel)) (conformsB_sound (by decide +kernel) exSizes (by decide +kernel) hob)
    (fitsB_sound (by decide +kernel)) hob ?_ (by decide) ?_ ?_ ?_ exMore_resized
  · intro c hc
    rw [hcu, Option.some.injEq] at hc
    subst hc
    exact ⟨exSofa, ⟨.str (py% "FIR"), py% "FIR", .str (py% "1.0"), py% "1.0", by decide +kernel, rfl, by decide +kernel,
      rfl, by decide +kernel⟩, by decide +kernel⟩
  · intro key rule v t sp items l d sizes str hm hv ht hs hi hl hd
    simp only [exEnv, List.mem_cons, List.not_mem_nil, or_false, Prod.mk.injEq] at hm
    rcases hm with ⟨rfl, rfl⟩ | ⟨rfl, rfl⟩
    · cases hs
    · simp only [Option.some.injEq] at hs
      subst hs
      have := Dict.mem_of_get? hi
      simp only [List.mem_cons, Prod.mk.injEq, List.not_mem_nil, or_false] at this
      obtain ⟨_, rfl⟩ := this
      simp only [List.mem_cons, SpecItem.dims.injEq, List.not_mem_nil, or_false, reduceCtorEq, false_or] at hl
      subst hl
      simp only [List.mem_cons, Prod.mk.injEq, List.not_mem_nil, or_false] at hd
      obtain ⟨rfl, _⟩ := hd
      decide
  · have h1 : ∀ p ∈ exVerified.conv, p.1 = py% "GLOBAL_SOFAConventions" → p.2.dims = none := by decide +kernel
    exact fun e he => h1 _ (Dict.mem_of_get? he) rfl
  · have h1 : ∀ p ∈ exVerified.conv, p.1 = py% "GLOBAL_SOFAConventionsVersion" → p.2.dims = none := by decide +kernel
    exact fun e he => h1 _ (Dict.mem_of_get? he) rfl

/-- there are two measurements and still two receivers with three samples -/
example : (getDimension exEnv exMore (py% "M")).out = .ok 2 ∧ (getDimension exEnv exMore (py% "R")).out = .ok 2 ∧
    (getDimension exEnv exMore (py% "N")).out = .ok 3 ∧ (getDimension exEnv exVerified (py% "M")).out = .ok 1 := by
  decide +kernel

end Sofar
