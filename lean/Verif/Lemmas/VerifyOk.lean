import Verif.Lemmas.Modes
/-!
# Consequences of a successful verification
-/
namespace Sofar

/-- the state after a successful `verify(issue_handling="raise")` -/
structure Verified (env : Env) (o o1 : Obj) (api : Dict Nat) (dims : Dict Str) (mode : Mode) (o' : Obj) : Prop where
  reset : resetConvention env o = .ok o1
  obj : o' = { o1 with prot := true, dims := some dims, api := some api }
  passes : Passes (referenceNames env o1) env o1 o' mode
  apiOk : ApiOk o1 api
  shapes : ∀ k ∈ dimKeys o1, ∃ m, Dict.get? dims k = some m ∧ ShapeOk { o1 with prot := true, dims := some [], api := some api } api k m

theorem verify_ok {env : Env} {o : Obj} {mode : Mode} {r : Option Str} (h : (verify env o .raise mode).out = .ok r) :
    ∃ o1 api dims, Verified env o o1 api dims mode (verify env o .raise mode).obj := by
  unfold verify at h ⊢
  obtain ⟨_, o1, o3, h1, h2⟩ := (verifyG_raise_ok_iff _ _ _ _ _).1 h
  rw [verifyG_raise_ok_obj _ _ _ _ _ _ h1 h2]
  obtain ⟨api, ha, hapi⟩ := phaseDims_ok h2.dims
  have hs := h2.shapes
  rw [ha] at hs
  obtain ⟨dims, hd, hk⟩ := phaseShapes_nil hs
  exact ⟨o1, api, dims, h1, hd, h2, hapi, hk⟩

theorem Verified.attrs {env : Env} {o o1 : Obj} {api : Dict Nat} {dims : Dict Str} {mode : Mode} {o' : Obj}
    (h : Verified env o o1 api dims mode o') : o'.attrs = o.attrs ∧ o1.attrs = o.attrs ∧ o'.conv = o1.conv ∧
      o'.custom = o1.custom := by
  obtain ⟨c, k, hf, _⟩ := resetConvention_frame h.reset
  rw [h.obj, hf]
  exact ⟨rfl, rfl, rfl, rfl⟩

theorem Verified.types {env : Env} {o o1 : Obj} {api : Dict Nat} {dims : Dict Str} {mode : Mode} {o' : Obj}
    (h : Verified env o o1 api dims mode o') {k : Str} {v : Val} (hv : Dict.get? o.attrs k = some v) :
    ∃ e, Dict.get? o'.conv k = some e ∧ Spec.HasType e.typ v := by
  obtain ⟨h1, h2, h3, h4⟩ := h.attrs
  rw [← h2] at hv
  obtain ⟨e, w, he, hw, ht⟩ := (phaseTypes_nil env o1 o1.keys).1 h.passes.types k (mem_keys_of_get hv)
  rw [getAttr_of_get hv] at hw
  cases hw
  exact ⟨e, h3 ▸ he, ht⟩

/-- a variable of the object is checked -/
theorem dimKeys_mem {o : Obj} {k : Str} {v : Val} {e : Entry} {d : Str} (hv : Dict.get? o.attrs k = some v)
    (he : Dict.get? o.conv k = some e) (hd : e.dims = some d) : k ∈ dimKeys o := by
  unfold dimKeys
  rw [List.mem_append]
  left
  rw [List.mem_filter]
  exact ⟨mem_keys_of_get hv, by simp [he, hd]⟩

/-- shape of a verified variable -/
theorem Verified.shape {env : Env} {o o1 : Obj} {api : Dict Nat} {dims : Dict Str} {mode : Mode} {o' : Obj}
    (h : Verified env o o1 api dims mode o') {k : Str} {v : Val} {e : Entry} {d : Str}
    (hv : Dict.get? o.attrs k = some v) (he : Dict.get? o'.conv k = some e) (hd : e.dims = some d) :
    ∃ alt act, alt ∈ Str.splitCommaSpace d ∧ Dict.get? dims k = some (Str.upper alt) ∧
      actualShape k e.typ d v = .ok act ∧
      compareShape act alt.length = alt.map (fun c => if c = 'S' then 1 else sizeIn api (Str.upperC c)) ∧
      ∀ c ∈ alt, c ≠ 'S' → ∃ n, Dict.get? api [Str.upperC c] = some n := by
  obtain ⟨h1, h2, h3, h4⟩ := h.attrs
  rw [← h2] at hv
  rw [h3] at he
  obtain ⟨m, hm, hs⟩ := h.shapes k (dimKeys_mem hv he hd)
  obtain ⟨e', v', d', alt, act, a1, a2, a3, a4, a5, a6, a7⟩ := hs.ex
  have hv' : ({ o1 with prot := true, dims := some [], api := some api } : Obj).getAttr k = .ok v :=
    getAttr_of_get hv
  rw [hv'] at a2
  cases a2
  have a1' : Dict.get? o1.conv k = some e' := a1
  rw [he] at a1'
  cases a1'
  rw [hd] at a3
  cases a3
  obtain ⟨b1, b2⟩ := refShape_ok a7
  exact ⟨alt, act, a5, by rw [hm, a6], a4, b1, b2⟩

end Sofar
