import Verif.Lemmas.Deleting
import Verif.Props.Total
import Verif.Props.Rules
import Verif.Props.RoundTrip
/-!
# C71: deleting data keeps valid objects valid
-/
namespace Sofar

/-- C71: deleting data that can be spared from an object that was verified and follows its convention gives an object
that passes `verify`. The object `o1` that is verified (the deleted data is not known anymore if it was custom data)
follows its convention, so that more data can be deleted. -/
theorem C71_deleted (env : Env) (o : Obj) (size : Char → Nat) (mode : Mode) (name : Str)
    (hr : resetConvention env o = .ok o) (hc : Spec.Checkable o) (hrules : Spec.RegularRules env o)
    (hf : Spec.Conforms env o (decide (mode = .write))) (hs : Spec.FitsSizes o size)
    (hob : ∀ key rule, (key, rule) ∈ env.rules → Spec.RuleObeyed env.aliases o size key rule)
    (hcust : ∀ c, o.custom = some c → ∃ n, Spec.CanCreate env o n ∧ ∀ k ∈ c.map Prod.fst, ∀ m ∈ n.conv.map Prod.fst,
      Str.replace m (py% "GLOBAL_") [] ≠ Str.replace k (py% "GLOBAL_") [])
    (hin : name ∈ o.attrs.map Prod.fst) (hspare : Spec.Sparable env o name) :
    (delAttr o name).out = .ok () ∧
    (∀ k, Dict.get? (delAttr o name).obj.attrs k = if k = name then none else Dict.get? o.attrs k) ∧
    (verify env (delAttr o name).obj .raise mode).out = .ok none ∧
    ∃ o1, resetConvention env (delAttr o name).obj = .ok o1 ∧ resetConvention env o1 = .ok o1 ∧ Spec.Checkable o1 ∧
      Spec.RegularRules env o1 ∧ Spec.Conforms env o1 (decide (mode = .write)) ∧ Spec.FitsSizes o1 size ∧
      (∀ key rule, (key, rule) ∈ env.rules → Spec.RuleObeyed env.aliases o1 size key rule) ∧
      (∀ c, o1.custom = some c → ∃ n, Spec.CanCreate env o1 n ∧ ∀ k ∈ c.map Prod.fst, ∀ m ∈ n.conv.map Prod.fst,
        Str.replace m (py% "GLOBAL_") [] ≠ Str.replace k (py% "GLOBAL_") []) := by
  have hdel : delAttr o name = ⟨.ok (), { o with attrs := Dict.del o.attrs name,
                                                 custom := o.custom.map (fun c => Dict.del c name) }, []⟩ := by
    have hh : Dict.has o.attrs name = true := (Dict.has_iff_mem _ _).2 hin
    obtain ⟨e, he⟩ := hc.known name hin
    have hm : mandatory e.flags = false := by
      rw [Bool.eq_false_iff]
      intro hm
      obtain ⟨f, hf1, hf2⟩ := (mandatory_iff e).1 hm
      exact hspare.optional e f he hf1 hf2
    have ha : o.hasAttr name = true := by simp [Obj.hasAttr, hh]
    unfold delAttr removeAttr
    simp [ha, he, hm, hh]
  rw [hdel]
  obtain ⟨o1, h1, h2⟩ := reset_removed hr hspare.convention hspare.version
  have hc' := h2.checkable hspare hc
  have hr' := h2.regular hspare hrules
  have hf' := h2.conforms hspare hf
  have hcust' : ∀ c, o1.custom = some c → ∃ n, Spec.CanCreate env o1 n ∧ ∀ k ∈ c.map Prod.fst,
      ∀ m ∈ n.conv.map Prod.fst, Str.replace m (py% "GLOBAL_") [] ≠ Str.replace k (py% "GLOBAL_") [] := by
    intro c' hcc
    have hne : ∃ c, o.custom = some c := by
      cases hcu : o.custom with
      | some c => exact ⟨c, rfl⟩
      | none =>
        obtain ⟨_, _, _, _, _, _, _, _, _, g6⟩ := resetConvention_inv h1
        rw [hcu] at g6
        rw [g6] at hcc
        simp at hcc
    obtain ⟨c, hcu⟩ := hne
    obtain ⟨n, ⟨cv, c0, vv, v, g1, g2, g3, g4, g5⟩, hk⟩ := hcust c hcu
    refine ⟨n, ⟨cv, c0, vv, v, h2.stays (Ne.symm hspare.convention) g1, g2, h2.stays (Ne.symm hspare.version) g3, g4, g5⟩,
      ?_⟩
    intro k hkm m hm
    obtain ⟨p, hp, rfl⟩ := List.mem_map.1 hkm
    obtain ⟨_, c2, hc2, hp2⟩ := h2.custom c' p.1 p.2 hcc hp
    rw [hcu, Option.some.injEq] at hc2
    subst hc2
    exact hk _ (List.mem_map_of_mem (f := Prod.fst) hp2) m hm
  refine ⟨rfl, fun k => Dict.get?_del _ _ _, (C58_accepted env _ o1 mode h1 hc' hr' hf' hcust').1, o1, h1, ?_, hc', hr', hf',
    h2.fitsSizes hs, fun key rule hm => h2.obeyed hspare hm (hob key rule hm), hcust'⟩
  exact resetConvention_idem h1 ⟨rfl, rfl, rfl⟩

/-- an object with a custom variable that was verified -/
def exVerified : Obj := (verify exEnv exCustom .raise .write).obj

/-- the hypotheses are met by a custom variable -/
example : resetConvention exEnv exVerified = .ok exVerified ∧ Spec.Checkable exVerified ∧
    Spec.RegularRules exEnv exVerified ∧ Spec.Conforms exEnv exVerified true ∧ Spec.FitsSizes exVerified exSizes ∧
    (∀ key rule, (key, rule) ∈ exEnv.rules → Spec.RuleObeyed exEnv.aliases exVerified exSizes key rule) ∧
    (∀ c, exVerified.custom = some c → ∃ n, Spec.CanCreate exEnv exVerified n ∧ ∀ k ∈ c.map Prod.fst,
      ∀ m ∈ n.conv.map Prod.fst, Str.replace m (py% "GLOBAL_") [] ≠ Str.replace k (py% "GLOBAL_") []) ∧
    py% "Temperature" ∈ exVerified.attrs.map Prod.fst ∧ Spec.Sparable exEnv exVerified (py% "Temperature") := by
  have hob := exRules_obeyed exVerified (by decide +kernel) (by decide +kernel) (by decide +kernel) (by decide +kernel)
  have hcu : exVerified.custom = some [(py% "Temperature", customEntry none (some (py% "I")) (py% "double"))] := by
    decide +kernel
  have hen : Dict.get? exVerified.conv (py% "Temperature") = some (customEntry none (some (py% "I")) (py% "double")) := by
    decide +kernel
  refine ⟨by decide +kernel, checkableB_sound (by decide +kernel), regularRulesB_sound (by decide +kernel),
    conformsB_sound (by decide +kernel) exSizes (by decide +kernel) hob, fitsB_sound (by decide +kernel), hob,
    ?_, by decide +kernel, ?_⟩
  · intro c hc
    rw [hcu, Option.some.injEq] at hc
    subst hc
    exact ⟨exSofa, ⟨.str (py% "FIR"), py% "FIR", .str (py% "1.0"), py% "1.0", by decide +kernel, rfl, by decide +kernel,
      rfl, by decide +kernel⟩, by decide +kernel⟩
  · refine ⟨?_, by decide, by decide, ?_, ?_, ?_⟩
    · intro e f he hf
      rw [hen, Option.some.injEq] at he
      subst he
      cases hf
    · intro c hc hk rest e hr hin
      have : ∀ k ∈ exVerified.attrs.map Prod.fst, ¬ (py% "Temperature_") <+: k := by decide +kernel
      exact absurd ⟨rest, by simp⟩ (this _ hin)
    · intro key rule v hm hv hk
      simp only [exEnv, List.mem_cons, List.not_mem_nil, or_false, Prod.mk.injEq] at hm
      rcases hm with ⟨rfl, rfl⟩ | ⟨rfl, rfl⟩
      · refine ⟨by decide, ?_⟩
        intro sp t items name ref hsp
        cases hsp
      · refine ⟨by decide, ?_⟩
        intro sp t items name ref hsp ht hi hd
        simp only [Option.some.injEq] at hsp
        subst hsp
        have := Dict.mem_of_get? hi
        simp only [List.mem_cons, Prod.mk.injEq, List.not_mem_nil, or_false] at this
        obtain ⟨_, rfl⟩ := this
        simp only [List.mem_cons, SpecItem.dep.injEq, List.not_mem_nil, or_false, reduceCtorEq] at hd
        obtain ⟨rfl, _⟩ := hd
        decide
    · intro v e d a x hv ha hx hl
      have he := hv.entry
      rw [hen, Option.some.injEq] at he
      have hd := hv.dims
      subst he
      cases hd
      rw [(alternatives_single (by decide)).2] at ha
      subst ha
      simp only [List.mem_cons, List.not_mem_nil, or_false] at hx
      subst hx
      exact absurd hl (by decide)

/-- C71, the other way round: a custom variable can be deleted although attributes of it remain, and the object is
rejected afterwards. -/
theorem C71_orphans (env : Env) (o : Obj) (mode : Mode) (name rest : Str) (c : Dict Entry) (e : Entry) (r : Option Str)
    (hr : resetConvention env o = .ok o) (hcu : o.custom = some c) (hn : name ∈ c.map Prod.fst)
    (hrest : '_' ∉ rest) (hin : name ++ '_' :: rest ∈ o.attrs.map Prod.fst)
    (he : Dict.get? o.conv (name ++ '_' :: rest) = some e) (ht : e.typ = py% "attribute")
    (hg : ¬ (py% "GLOBAL_") <+: name ++ '_' :: rest) (hd : (delAttr o name).out = .ok ()) :
    (verify env (delAttr o name).obj .raise mode).out ≠ .ok r := by
  intro hv
  have hne : name ++ '_' :: rest ≠ name := by
    intro h
    have := congrArg List.length h
    simp at this
  have hdel : (delAttr o name).obj = { o with attrs := Dict.del o.attrs name,
                                              custom := o.custom.map (fun c => Dict.del c name) } := by
    rcases delAttr_cases o name with ⟨x, h1, _⟩ | ⟨_, _, h⟩
    · rw [hd] at h1; cases h1
    · rw [h]
  have hdist : name ≠ py% "GLOBAL_SOFAConventions" ∧ name ≠ py% "GLOBAL_SOFAConventionsVersion" := by
    constructor <;>
    · rintro rfl
      exact hg (List.isPrefixOf_iff_prefix.1 (by simp))
  obtain ⟨o1, h1, h2⟩ := reset_removed hr hdist.1 hdist.2
  rw [hdel] at hv
  obtain ⟨x, hx⟩ := get_of_mem_keys (o := o) hin
  obtain ⟨e', he', ha, _⟩ := C24_names_partial env _ mode r hv _ x (by
    show Dict.get? (Dict.del o.attrs name) _ = _
    rw [Dict.get?_del_ne _ hne]; exact hx)
  obtain ⟨o1', api, dims, hV⟩ := verify_ok hv
  have : o1' = o1 := by
    have := hV.reset
    rw [h1] at this
    cases this
    rfl
  subst this
  rw [hV.attrs.2.2.1, h2.keep _ hne, he] at he'
  cases he'
  obtain ⟨var, att, g1, g2, g3⟩ := ha ht
  have hvar : var = name := by
    have e1 := beforeLast_append name rest hrest
    rw [g1, beforeLast_append var att g2, Option.some.injEq] at e1
    exact e1
  subst hvar
  rcases g3 with g3 | ⟨e2, g3⟩
  · exact hg g3
  · rw [hV.attrs.2.2.1, h2.gone c hcu hn] at g3
    cases g3

/-- a verified object with a custom variable that has units -/
def exUnits : Obj := (verify exEnv exCustomized .raise .write).obj

example : resetConvention exEnv exUnits = .ok exUnits ∧
    exUnits.custom.map Dict.keys = some [py% "Foo", py% "Foo_Units"] ∧
    (Dict.get? exUnits.conv (py% "Foo_Units")).map (·.typ) = some (py% "attribute") ∧
    py% "Foo_Units" ∈ exUnits.attrs.map Prod.fst ∧ (delAttr exUnits (py% "Foo")).out = .ok () ∧
    (verify exEnv exUnits .raise .write).out = .ok none := by
  decide +kernel

end Sofar
