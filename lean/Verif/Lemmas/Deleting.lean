import Verif.Lemmas.Adding
import Verif.Lemmas.Init
import Verif.Lemmas.Congr
import Verif.Lemmas.Upgrade
import Verif.Spec.Deleting
/-!
# Deleting data from valid objects
-/
namespace Sofar

/-- the object after deleting data and loading the convention -/
structure RemovedEntry (o o' : Obj) (n : Str) : Prop where
  get : ∀ k, Dict.get? o'.attrs k = if k = n then none else Dict.get? o.attrs k
  entry : ∀ k e, Dict.get? o'.conv k = some e → Dict.get? o.conv k = some e
  keep : ∀ k, k ≠ n → Dict.get? o'.conv k = Dict.get? o.conv k
  name : n ∈ Dict.keys o.conv → n ∉ Dict.keys o'.conv → ∃ c, o.custom = some c ∧ n ∈ Dict.keys c
  gone : ∀ c, o.custom = some c → n ∈ Dict.keys c → Dict.get? o'.conv n = none
  nodup : (Dict.keys o'.conv).Nodup
  custom : ∀ c' k e, o'.custom = some c' → (k, e) ∈ c' → k ≠ n ∧ ∃ c, o.custom = some c ∧ (k, e) ∈ c

theorem find?_del (l : Dict Entry) {k n : Str} (h : k ≠ n) :
    (Dict.del l n).reverse.find? (fun p => p.1 = k) = l.reverse.find? (fun p => p.1 = k) := by
  unfold Dict.del
  rw [← List.filter_reverse, List.find?_filter]
  congr 1
  funext p
  by_cases hp : p.1 = k
  · simp [hp, h]
  · simp [hp]

theorem nodup_foldl_put (l d : Dict Entry) (h : (Dict.keys d).Nodup) :
    (Dict.keys (l.foldl (fun d p => Dict.put d p.1 p.2) d)).Nodup := by
  induction l generalizing d with
  | nil => exact h
  | cons p l ih => exact ih _ (Dict.nodup_put p.1 p.2 h)

theorem reset_removed {env : Env} {o : Obj} {n : Str} (hr : resetConvention env o = .ok o)
    (h1 : n ≠ py% "GLOBAL_SOFAConventions") (h2 : n ≠ py% "GLOBAL_SOFAConventionsVersion") :
    ∃ o1, resetConvention env { o with attrs := Dict.del o.attrs n, custom := o.custom.map (fun c => Dict.del c n) } =
      .ok o1 ∧ RemovedEntry o o1 n := by
  obtain ⟨cv, c, v, conv, g1, g2, g3, g4, g5, g6⟩ := resetConvention_inv hr
  have key : ∀ (m : Str) (x : Val) (o' : Obj), o'.attrs = Dict.del o.attrs n → isPrivate m = false →
      m ∉ publicMembers → m ≠ n → o.getAttr m = .ok x → o'.getAttr m = .ok x := by
    intro m x o' ho' hp hm hne hx
    rcases getAttr_ok hx with h | ⟨_, _, h⟩
    · exact getAttr_of_get (by rw [ho', Dict.get?_del_ne _ hne]; exact h)
    · rw [hasAttr_public o m hp] at h
      rcases h with h | h
      · obtain ⟨y, hy⟩ := (Dict.has_iff _ _).1 h
        have := getAttr_of_get hy
        rw [hx] at this
        cases this
        exact getAttr_of_get (by rw [ho', Dict.get?_del_ne _ hne]; exact hy)
      · exact absurd h hm
  have hnd := loadConvention_nodup g5
  unfold resetConvention
  rw [key _ cv _ rfl (by decide) (by decide) (Ne.symm h1) g1, key _ v _ rfl (by decide) (by decide) (Ne.symm h2) g3]
  simp only [g2, g4, g5]
  cases hc : o.custom with
  | none =>
    rw [hc] at g6
    have hconv : o.conv = conv := by rw [g6]
    refine ⟨_, rfl, ?_⟩
    refine ⟨fun k => Dict.get?_del _ _ _, ?_, ?_, ?_, ?_, hnd, ?_⟩
    · intro k e hk; rw [hconv]; exact hk
    · intro k _; rw [hconv]
    · intro hk hk'
      rw [hconv] at hk
      exact absurd hk hk'
    · intro c' hc'
      rw [hc] at hc'
      cases hc'
    · intro c' k e hc'
      simp at hc'
  | some cu =>
    rw [hc] at g6
    simp only at g6
    have hconv : o.conv = (mergeCustom conv cu).1 := by rw [g6]
    have hcu : cu.filter (fun p => ! Dict.has conv p.1) = cu := by
      have := congrArg Obj.custom g6
      rw [hc] at this
      simp only [Option.some.injEq] at this
      exact this.symm
    have hdel : (Dict.del cu n).filter (fun p => ! Dict.has conv p.1) = Dict.del cu n := by
      unfold Dict.del
      rw [List.filter_filter]
      refine Eq.trans ?_ (congrArg (List.filter (fun p => decide (p.1 ≠ n))) hcu)
      rw [List.filter_filter]
      congr 1
      funext p
      exact Bool.and_comm _ _
    have hfree : ∀ p ∈ cu, Dict.get? conv p.1 = none := by
      intro p hp
      rw [← hcu] at hp
      have := (List.mem_filter.1 hp).2
      simp only [Bool.not_eq_true'] at this
      exact (Dict.has_false_iff _ _).1 this
    have hother : ∀ k, k ≠ n → Dict.get? ((Dict.del cu n).foldl (fun d p => Dict.put d p.1 p.2) conv) k =
        Dict.get? o.conv k := by
      intro k hk
      rw [hconv]
      simp only [mergeCustom, hcu]
      rw [Dict.get?_foldl_put, Dict.get?_foldl_put, find?_del _ hk]
    have hself : Dict.get? ((Dict.del cu n).foldl (fun d p => Dict.put d p.1 p.2) conv) n = Dict.get? conv n := by
      apply get?_foldl_put_other
      have := Dict.keys_del cu n
      unfold Dict.keys at this
      rw [this]
      simp
    simp only [mergeCustom, Option.map_some]
    rw [hdel]
    refine ⟨_, rfl, ⟨fun k => Dict.get?_del _ _ _, ?_, hother, ?_, ?_, nodup_foldl_put _ _ hnd, ?_⟩⟩
    · intro k e hk
      by_cases hkn : k = n
      · subst hkn
        simp only at hk
        rw [hself] at hk
        rw [hconv]
        simp only [mergeCustom, hcu]
        rw [get?_foldl_put_other]
        · exact hk
        · intro hm
          obtain ⟨p, hp, rfl⟩ := List.mem_map.1 hm
          rw [hfree p hp] at hk
          cases hk
      · rw [← hother k hkn]; exact hk
    · intro hk hk'
      refine ⟨cu, hc, ?_⟩
      rw [← Dict.get?_eq_none_iff] at hk'
      simp only at hk'
      rw [hself, Dict.get?_eq_none_iff] at hk'
      rw [hconv] at hk
      simp only [mergeCustom, hcu] at hk
      rcases (Dict.mem_keys_foldl_put _ _ _).1 hk with h | h
      · exact absurd h hk'
      · exact h
    · intro c' hc' hk
      rw [hc, Option.some.injEq] at hc'
      subst hc'
      simp only
      rw [hself]
      obtain ⟨p, hp, rfl⟩ := List.mem_map.1 hk
      exact hfree p hp
    · intro c' k e hc' hm
      simp only [Option.some.injEq] at hc'
      subst hc'
      unfold Dict.del at hm
      have := List.mem_filter.1 hm
      exact ⟨by simpa using this.2, cu, hc, this.1⟩

namespace RemovedEntry

variable {o o' : Obj} {n : Str} {env : Env}

theorem old (h : RemovedEntry o o' n) {k : Str} {v : Val} (hk : Dict.get? o'.attrs k = some v) :
    k ≠ n ∧ Dict.get? o.attrs k = some v := by
  rw [h.get] at hk
  split at hk
  · cases hk
  · rename_i hkn
    exact ⟨hkn, hk⟩

theorem stays (h : RemovedEntry o o' n) {k : Str} {v : Val} (hkn : k ≠ n) (hk : Dict.get? o.attrs k = some v) :
    Dict.get? o'.attrs k = some v := by
  rw [h.get, if_neg hkn]; exact hk

theorem keys (h : RemovedEntry o o' n) {k : Str} : k ∈ o'.attrs.map Prod.fst ↔ k ≠ n ∧ k ∈ o.attrs.map Prod.fst := by
  have e : ∀ d : Dict Val, k ∈ d.map Prod.fst ↔ Dict.get? d k ≠ none := by
    intro d
    rw [Ne, Dict.get?_eq_none_iff, Classical.not_not]
    rfl
  rw [e, e, h.get]
  by_cases hkn : k = n <;> simp [hkn]

theorem variable' (h : RemovedEntry o o' n) {k : Str} {v : Val} {en : Entry} {d : Str} :
    Spec.VariableWith o' k v en d ↔ k ≠ n ∧ Spec.VariableWith o k v en d := by
  constructor
  · rintro ⟨h1, h2, h3⟩
    exact ⟨(h.old h1).1, (h.old h1).2, h.entry _ _ h2, h3⟩
  · rintro ⟨hkn, h1, h2, h3⟩
    exact ⟨h.stays hkn h1, by rw [h.keep k hkn]; exact h2, h3⟩

theorem sized (h : RemovedEntry o o' n) (hs : Spec.Sparable env o n) {c : Char} (hc : Spec.Sized o c) :
    Spec.Sized o' c := by
  rcases hc with hc | hc | hc | ⟨k, v, en, d, a, x, h1, h2, h3, h4, h5⟩
  · exact Or.inl hc
  · exact Or.inr (Or.inl hc)
  · exact Or.inr (Or.inr (Or.inl hc))
  · refine Or.inr (Or.inr (Or.inr ?_))
    by_cases hkn : k = n
    · subst hkn
      obtain ⟨k', v', e', d', a', g1, g2, g3, g4⟩ := hs.sizes v en d a x h1 h2 h3 h4
      exact ⟨k', v', e', d', a', x, h.variable'.2 ⟨g1, g2⟩, g3, g4, h4, h5⟩
    · exact ⟨k, v, en, d, a, x, h.variable'.2 ⟨hkn, h1⟩, h2, h3, h4, h5⟩

theorem checkable (h : RemovedEntry o o' n) (hs : Spec.Sparable env o n) (hc : Spec.Checkable o) :
    Spec.Checkable o' := by
  refine ⟨?_, ?_, ?_, ?_, ?_, ?_⟩
  · intro k hk
    obtain ⟨hkn, hk⟩ := h.keys.1 hk
    rw [h.keep k hkn]
    exact hc.known k hk
  · intro c' k e hc' hm hd
    obtain ⟨hkn, c, hcu, hm'⟩ := h.custom c' k e hc' hm
    obtain ⟨v, e', d, hv⟩ := hc.custom c k e hcu hm' hd
    exact ⟨v, e', d, h.variable'.2 ⟨hkn, hv⟩⟩
  · intro k v e d a hv
    exact hc.texts k v e d a (h.variable'.1 hv).2
  · intro k v e d a hv
    exact hc.four k v e d a (h.variable'.1 hv).2
  · intro k v e d a hv ha c hca
    exact h.sized hs (hc.sized k v e d a (h.variable'.1 hv).2 ha c hca)
  · obtain ⟨v, t, q, h1, h2⟩ := hc.version
    exact ⟨v, t, q, h.stays (Ne.symm hs.version) h1, h2⟩

theorem obeyed (h : RemovedEntry o o' n) (hs : Spec.Sparable env o n) {size : Char → Nat} {key : Str} {rule : Rule}
    (hm : (key, rule) ∈ env.rules) (hr : Spec.RuleObeyed env.aliases o size key rule) :
    Spec.RuleObeyed env.aliases o' size key rule := by
  intro v hv
  obtain ⟨hkn, hv⟩ := h.old hv
  obtain ⟨h1, h2, h3⟩ := hr v hv
  obtain ⟨n1, n2⟩ := hs.needed key rule v hm hv hkn
  refine ⟨h1, ?_, ?_⟩
  · intro g hg
    obtain ⟨u, hu⟩ := h2 g hg
    exact ⟨u, h.stays (n1 g hg) hu⟩
  · intro sp t items hsp ht hi i him
    have := h3 sp t items hsp ht hi i him
    cases i with
    | dims l =>
      intro d sizes str hm
      obtain ⟨c, e1, e2, e3, e4⟩ := this d sizes str hm
      exact ⟨c, e1, e2, h.sized hs e3, e4⟩
    | dep k ref =>
      obtain ⟨u, hu, hl⟩ := this
      exact ⟨u, h.stays (n2 sp t items k ref hsp ht hi him) hu, hl⟩

theorem regular (h : RemovedEntry o o' n) (hs : Spec.Sparable env o n) (hr : Spec.RegularRules env o) :
    Spec.RegularRules env o' := by
  refine ⟨hr.ordinary, ?_, hr.unit, ?_, ?_⟩
  · intro key rule hm hv en hen
    exact hr.typed key rule hm hv en (h.entry _ _ hen)
  · intro key rule v t sp items hm hv ht hsp hi
    obtain ⟨h1, h2⟩ := hr.items key rule v t sp items hm (h.old hv).2 ht hsp hi
    refine ⟨fun k l hdep => ⟨fun e he => (h1 k l hdep).1 e (h.entry _ _ he), (h1 k l hdep).2⟩, ?_⟩
    intro l d sizes str hdim hm'
    obtain ⟨c, e1, e2⟩ := h2 l d sizes str hdim hm'
    exact ⟨c, e1, h.sized hs e2⟩
  · intro k en hk hen hu
    exact hr.units k en (h.keys.1 hk).2 (h.entry _ _ hen) hu

theorem fitsSizes (h : RemovedEntry o o' n) {size : Char → Nat} (hs : Spec.FitsSizes o size) :
    Spec.FitsSizes o' size :=
  ⟨hs.I, hs.C, fun k v e d a i x hv => hs.defines k v e d a i x (h.variable'.1 hv).2,
    fun k v e d first hv => hs.fits k v e d first (h.variable'.1 hv).2⟩

theorem conforms (h : RemovedEntry o o' n) (hs : Spec.Sparable env o n) {wr : Bool} (hc : Spec.Conforms env o wr) :
    Spec.Conforms env o' wr := by
  refine ⟨?_, ?_, ?_, ?_, ?_, ?_⟩
  · intro k e f hm hf hmand
    have hg := h.entry _ _ (Dict.get?_of_mem h.nodup hm)
    have hkn : k ≠ n := by
      rintro rfl
      exact hs.optional e f hg hf hmand
    exact h.keys.2 ⟨hkn, hc.mandatory k e f (Dict.mem_of_get? hg) hf hmand⟩
  · intro k v hv
    obtain ⟨hkn, hv⟩ := h.old hv
    rw [h.keep k hkn]
    exact hc.types k v hv
  · intro k e hk he
    obtain ⟨hkn, hk⟩ := h.keys.1 hk
    have he := h.entry _ _ he
    have hl := hc.names k e hk he
    refine ⟨?_, hl.var, hl.notPrivate, hl.notApi, hl.glob⟩
    intro ht
    obtain ⟨var, rest, h1, h2, h3⟩ := hl.attr ht
    refine ⟨var, rest, h1, h2, h3.imp id ?_⟩
    intro hv
    by_cases hvn : var = n
    · subst hvn
      refine Classical.byContradiction fun hnot => ?_
      obtain ⟨c, hcu, hm⟩ := h.name hv hnot
      subst h1
      exact hs.attributes c hcu hm rest e h2 hk he ht
    · refine Classical.byContradiction fun hnot => ?_
      have := (Dict.get?_eq_none_iff _ _).2 hnot
      rw [h.keep var hvn, Dict.get?_eq_none_iff] at this
      exact this hv
  · obtain ⟨size, h1, h2⟩ := hc.shapes
    exact ⟨size, h.fitsSizes h1, fun key rule hm => h.obeyed hs hm (h2 key rule hm)⟩
  · intro hwr k v hv
    exact hc.units hwr k v (h.old hv).2
  · intro hwr c v hv
    exact hc.current hwr c v (h.old hv).2

end RemovedEntry

end Sofar
