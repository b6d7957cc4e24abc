import Verif.Lemmas.Conforms
import Verif.Lemmas.Custom
import Verif.Lemmas.Names
import Verif.Lemmas.Shapes
import Verif.Spec.Adding
/-!
# Adding custom data to valid objects
-/
namespace Sofar

theorem put_new {V : Type} {d : Dict V} {k : Str} (v : V) (h : k ∉ Dict.keys d) : Dict.put d k v = d ++ [(k, v)] := by
  induction d with
  | nil => rfl
  | cons p d ih =>
    simp only [Dict.keys_cons, List.mem_cons, not_or] at h
    simp only [Dict.put, if_neg (Ne.symm h.1), ih h.2, List.cons_append]

/-- merging the custom entries with an additional entry -/
theorem mergeCustom_put {conv cu : Dict Entry} {n : Str} {e : Entry} (hcu : (mergeCustom conv cu).2 = cu)
    (hn : Dict.get? (mergeCustom conv cu).1 n = none) :
    mergeCustom conv (Dict.put cu n e) = (Dict.put (mergeCustom conv cu).1 n e, Dict.put cu n e) := by
  rw [Dict.get?_eq_none_iff] at hn
  unfold mergeCustom at hcu hn ⊢
  simp only at hcu hn ⊢
  rw [hcu] at hn ⊢
  rw [Dict.mem_keys_foldl_put, not_or] at hn
  have h1 : Dict.has conv n = false := by
    rw [Dict.has_false_iff, Dict.get?_eq_none_iff]; exact hn.1
  rw [put_new e hn.2, List.filter_append, hcu]
  simp [h1]

/-- the object after adding custom data -/
theorem reset_added {env : Env} {o : Obj} {n : Str} {e : Entry} {w : Val} (hr : resetConvention env o = .ok o)
    (hn : Dict.get? o.conv n = none) (hnew : o.hasAttr n = false) :
    resetConvention env { o with attrs := Dict.put o.attrs n w, conv := Dict.put o.conv n e,
                                 custom := some (Dict.put (o.custom.getD []) n e), prot := true } =
      .ok { o with attrs := Dict.put o.attrs n w, conv := Dict.put o.conv n e,
                   custom := some (Dict.put (o.custom.getD []) n e), prot := true } := by
  obtain ⟨cv, c, v, conv, h1, h2, h3, h4, h5, h6⟩ := resetConvention_inv hr
  have key : ∀ (m : Str) (x : Val) (o' : Obj), o'.attrs = Dict.put o.attrs n w → isPrivate m = false →
      m ∉ publicMembers → o.getAttr m = .ok x → o'.getAttr m = .ok x := by
    intro m x o' ho' hp hm hx
    have hne : m ≠ n := by
      rintro rfl
      unfold Obj.getAttr at hx
      cases hg : Dict.get? o.attrs m with
      | some y =>
        have : o.hasAttr m = true := by simp [Obj.hasAttr, Dict.has, hg]
        rw [this] at hnew; cases hnew
      | none => simp [hg, hnew] at hx
    rcases getAttr_ok hx with h | ⟨_, _, h⟩
    · exact getAttr_of_get (by rw [ho', Dict.get?_put_ne _ _ hne]; exact h)
    · rw [hasAttr_public o m hp] at h
      rcases h with h | h
      · obtain ⟨y, hy⟩ := (Dict.has_iff _ _).1 h
        have := getAttr_of_get hy
        rw [hx] at this
        cases this
        exact getAttr_of_get (by rw [ho', Dict.get?_put_ne _ _ hne]; exact hy)
      · exact absurd h hm
  unfold resetConvention
  rw [key _ cv _ rfl (by decide) (by decide) h1, key _ v _ rfl (by decide) (by decide) h3]
  simp only [h2, h4, h5]
  cases hc : o.custom with
  | none =>
    rw [hc] at h6
    have hconv : o.conv = conv := by rw [h6]
    rw [hconv] at hn ⊢
    have := mergeCustom_put (conv := conv) (cu := []) (n := n) (e := e) rfl hn
    simp only [Option.getD_none]
    rw [this]
    rfl
  | some cu =>
    rw [hc] at h6
    simp only at h6
    have hconv : o.conv = (mergeCustom conv cu).1 := by rw [h6]
    have hcu : (mergeCustom conv cu).2 = cu := by
      have := congrArg Obj.custom h6
      rw [hc] at this
      simp only [Option.some.injEq] at this
      exact this.symm
    rw [hconv] at hn
    simp only [Option.getD_some]
    rw [mergeCustom_put hcu hn, hconv]

theorem alternatives_single {s a : Str} (h : ',' ∉ s) : (Spec.IsAlternative s a ↔ a = s) ∧
    (Spec.IsFirstAlternative s a ↔ a = s) := by
  have hs : Str.splitCommaSpace s = [s] := by
    apply splitCommaSpace_self
    intro hi
    exact h (hi.subset (by simp))
  constructor
  · rw [isAlternative_iff, hs]; simp
  · constructor
    · intro ha
      have := firstAlt_of_isFirst ha
      rw [← this]
      simp [firstAlt, hs]
    · rintro rfl
      have := isFirst_firstAlt a
      simpa [firstAlt, hs] using this

theorem upperC_of_not_lower {c : Char} (h : Str.isLowerC c = false) : Str.upperC c = c := by
  unfold Str.upperC
  rw [if_neg]
  rintro ⟨h1, h2⟩
  rw [Bool.eq_false_iff] at h
  exact h (by unfold Str.isLowerC; rw [decide_eq_true h1, decide_eq_true h2]; rfl)

theorem upperC_lowerC_eq (c : Char) : Str.upperC (Str.lowerC c) = Str.upperC c := by
  have hA : 'A'.toNat = 65 := rfl
  have hZ : 'Z'.toNat = 90 := rfl
  have ha : 'a'.toNat = 97 := rfl
  have hz : 'z'.toNat = 122 := rfl
  unfold Str.lowerC
  rw [hA, hZ]
  by_cases h : 65 ≤ c.toNat ∧ c.toNat ≤ 90
  · have h1 : (Char.ofNat (c.toNat + 32)).toNat = c.toNat + 32 := ofNat_toNat (by omega)
    rw [if_pos h]
    unfold Str.upperC
    rw [ha, hz, h1, if_pos (by omega), if_neg (by omega), Nat.add_sub_cancel, Char.ofNat_toNat]
  · rw [if_neg h]

theorem customLetters_no_s {d s : Str} (h : Spec.CustomLetters d s) : 's' ∉ s := by
  unfold Spec.CustomLetters at h
  subst h
  intro hm
  obtain ⟨c, _, hc⟩ := List.mem_map.1 hm
  split at hc
  · rename_i hu
    rw [hc] at hu
    exact absurd hu (by decide)
  · rename_i hu
    have : Str.upperC c = 'S' := by
      rw [← upperC_lowerC_eq, hc]; decide
    rw [this] at hu
    exact hu (by decide)

/-- the object after adding an entry -/
structure AddedEntry (o o' : Obj) (n : Str) (w : Val) (e : Entry) : Prop where
  attrs : o'.attrs = Dict.put o.attrs n w
  conv : o'.conv = Dict.put o.conv n e
  custom : o'.custom = some (Dict.put (o.custom.getD []) n e)
  fresh : Dict.get? o.attrs n = none
  unknown : Dict.get? o.conv n = none

namespace AddedEntry

variable {o o' : Obj} {n : Str} {w : Val} {e : Entry}

theorem get (h : AddedEntry o o' n w e) (k : Str) : Dict.get? o'.attrs k = if k = n then some w else Dict.get? o.attrs k := by
  rw [h.attrs, Dict.get?_put]

theorem entry (h : AddedEntry o o' n w e) (k : Str) : Dict.get? o'.conv k = if k = n then some e else Dict.get? o.conv k := by
  rw [h.conv, Dict.get?_put]

theorem keep (h : AddedEntry o o' n w e) {k : Str} {v : Val} (hk : Dict.get? o.attrs k = some v) :
    Dict.get? o'.attrs k = some v := by
  rw [h.get]
  split
  · rename_i hkn
    rw [hkn, h.fresh] at hk; cases hk
  · exact hk

theorem variable' (h : AddedEntry o o' n w e) {k : Str} {v : Val} {en : Entry} {d : Str} :
    Spec.VariableWith o' k v en d ↔ (k = n ∧ v = w ∧ en = e ∧ e.dims = some d) ∨ Spec.VariableWith o k v en d := by
  constructor
  · rintro ⟨h1, h2, h3⟩
    rw [h.get] at h1
    rw [h.entry] at h2
    by_cases hk : k = n
    · rw [if_pos hk, Option.some.injEq] at h1 h2
      subst h1 h2
      exact Or.inl ⟨hk, rfl, rfl, h3⟩
    · rw [if_neg hk] at h1 h2
      exact Or.inr ⟨h1, h2, h3⟩
  · rintro (⟨rfl, rfl, rfl, h3⟩ | ⟨h1, h2, h3⟩)
    · exact ⟨by rw [h.get, if_pos rfl], by rw [h.entry, if_pos rfl], h3⟩
    · have hk : k ≠ n := by rintro rfl; rw [h.fresh] at h1; cases h1
      exact ⟨by rw [h.get, if_neg hk]; exact h1, by rw [h.entry, if_neg hk]; exact h2, h3⟩

theorem sized (h : AddedEntry o o' n w e) {c : Char} (hc : Spec.Sized o c) : Spec.Sized o' c := by
  rcases hc with hc | hc | hc | ⟨k, v, en, d, a, x, h1, h2⟩
  · exact Or.inl hc
  · exact Or.inr (Or.inl hc)
  · exact Or.inr (Or.inr (Or.inl hc))
  · exact Or.inr (Or.inr (Or.inr ⟨k, v, en, d, a, x, h.variable'.2 (Or.inr h1), h2⟩))

theorem keys (h : AddedEntry o o' n w e) {k : Str} : k ∈ o'.attrs.map Prod.fst ↔ k = n ∨ k ∈ o.attrs.map Prod.fst := by
  have := Dict.mem_keys_put o.attrs n k w
  rw [← h.attrs] at this
  exact this

theorem sized_letter (h : AddedEntry o o' n w e) {env : Env} {size : Char → Nat} {wr : Bool} {dims : Option Str}
    (hf : Spec.Fitting env o size wr n w e.typ dims) {given s : Str} (hd : dims = some given)
    (hs : Spec.CustomLetters given s) (hed : e.dims = some s) {c : Char} (hc : c ∈ s) : Spec.Sized o' (Str.upperC c) := by
  obtain ⟨hcomma, _, _, hl⟩ := hf.letters given s hd hs
  obtain ⟨i, hi⟩ := List.getElem?_of_mem hc
  have h1 := (hl i c hi).1
  by_cases hlow : Str.isLowerC c = true
  · exact Or.inr (Or.inr (Or.inr ⟨n, w, e, s, s, c, h.variable'.2 (Or.inl ⟨rfl, rfl, rfl, hed⟩),
      (alternatives_single hcomma).2.2 rfl, hc, hlow, rfl⟩))
  · rw [if_neg hlow] at h1
    rw [upperC_of_not_lower (by simpa using hlow)]
    exact h.sized h1

theorem checkable (h : AddedEntry o o' n w e) {env : Env} {size : Char → Nat} {wr : Bool} {dims : Option Str}
    (hf : Spec.Fitting env o size wr n w e.typ dims)
    (hd : ∀ given, dims = some given → ∃ s, e.dims = some s ∧ Spec.CustomLetters given s)
    (hnone : dims = none → e.dims = none) (hc : Spec.Checkable o) : Spec.Checkable o' := by
  have new : ∀ d, e.dims = some d → ∃ given, dims = some given ∧ Spec.CustomLetters given d := by
    intro d hed
    cases hdim : dims with
    | none => rw [hnone hdim] at hed; cases hed
    | some g =>
      obtain ⟨s, h1, h2⟩ := hd g hdim
      rw [hed] at h1
      cases h1
      exact ⟨g, rfl, h2⟩
  refine ⟨?_, ?_, ?_, ?_, ?_, ?_⟩
  · intro k hk
    rw [h.entry]
    rcases h.keys.1 hk with rfl | hk
    · exact ⟨e, by simp⟩
    · by_cases hkn : k = n
      · exact ⟨e, by simp [hkn]⟩
      · rw [if_neg hkn]; exact hc.known k hk
  · intro c k en hcu hmem hdim
    rw [h.custom, Option.some.injEq] at hcu
    subst hcu
    by_cases hkn : k = n
    · subst hkn
      have : en = e ∨ (k, en) ∈ o.custom.getD [] := by
        have hput : ∀ (d : Dict Entry), (k, en) ∈ Dict.put d k e → en = e ∨ (k, en) ∈ d := by
          intro d
          induction d with
          | nil => simp [Dict.put]
          | cons p d ih =>
            simp only [Dict.put]
            split
            · simp only [List.mem_cons, Prod.mk.injEq]
              rintro (⟨_, h1⟩ | h1)
              · exact Or.inl h1
              · exact Or.inr (Or.inr h1)
            · simp only [List.mem_cons]
              rintro (h1 | h1)
              · exact Or.inr (Or.inl h1)
              · rcases ih h1 with h2 | h2
                · exact Or.inl h2
                · exact Or.inr (Or.inr h2)
        exact hput _ hmem
      rcases this with rfl | hold
      · obtain ⟨d, hd'⟩ := Option.ne_none_iff_exists'.1 hdim
        exact ⟨w, en, d, h.variable'.2 (Or.inl ⟨rfl, rfl, rfl, hd'⟩)⟩
      · cases hcu : o.custom with
        | none => simp [hcu] at hold
        | some cu =>
          rw [hcu] at hold
          obtain ⟨v, e', d, hv⟩ := hc.custom cu k en hcu hold hdim
          exact ⟨v, e', d, h.variable'.2 (Or.inr hv)⟩
    · have hold : (k, en) ∈ o.custom.getD [] := by
        have hput : ∀ (d : Dict Entry), (k, en) ∈ Dict.put d n e → (k, en) ∈ d := by
          intro d
          induction d with
          | nil => simp [Dict.put, hkn]
          | cons p d ih =>
            simp only [Dict.put]
            split
            · rename_i hp
              simp only [List.mem_cons, Prod.mk.injEq]
              rintro (⟨h1, _⟩ | h1)
              · exact absurd (h1.trans hp) hkn
              · exact Or.inr h1
            · simp only [List.mem_cons]
              rintro (h1 | h1)
              · exact Or.inl h1
              · exact Or.inr (ih h1)
        exact hput _ hmem
      cases hcu : o.custom with
      | none => simp [hcu] at hold
      | some cu =>
        rw [hcu] at hold
        obtain ⟨v, e', d, hv⟩ := hc.custom cu k en hcu hold hdim
        exact ⟨v, e', d, h.variable'.2 (Or.inr hv)⟩
  · intro k v en d a hv ha ht
    rcases h.variable'.1 hv with ⟨rfl, rfl, rfl, hed⟩ | hv
    · obtain ⟨g, h1, h2⟩ := new d hed
      obtain ⟨hcomma, _, htext, _⟩ := hf.letters g d h1 h2
      rw [(alternatives_single hcomma).2] at ha
      subst ha
      apply htext
      rcases ht with ht | ht | ht
      · exact Or.inl (by rw [ht]; decide)
      · exact Or.inl (by rw [ht]; decide)
      · exact Or.inr ht
    · exact hc.texts k v en d a hv ha ht
  · intro k v en d a hv ha
    rcases h.variable'.1 hv with ⟨rfl, rfl, rfl, hed⟩ | hv
    · obtain ⟨g, h1, h2⟩ := new d hed
      obtain ⟨hcomma, hlen, _⟩ := hf.letters g d h1 h2
      rw [(alternatives_single hcomma).2] at ha
      subst ha
      exact hlen
    · exact hc.four k v en d a hv ha
  · intro k v en d a hv ha c hca
    rcases h.variable'.1 hv with ⟨rfl, rfl, rfl, hed⟩ | hv
    · obtain ⟨g, h1, h2⟩ := new d hed
      obtain ⟨hcomma, _⟩ := hf.letters g d h1 h2
      rw [(alternatives_single hcomma).1] at ha
      subst ha
      exact h.sized_letter hf h1 h2 hed hca
    · exact h.sized (hc.sized k v en d a hv ha c hca)
  · obtain ⟨v, t, q, h1, h2⟩ := hc.version
    exact ⟨v, t, q, h.keep h1, h2⟩

theorem obeyed (h : AddedEntry o o' n w e) {size : Char → Nat} {al : Dict Str} {key : Str} {rule : Rule}
    (hk : Spec.sofarName key ≠ n) (hr : Spec.RuleObeyed al o size key rule) : Spec.RuleObeyed al o' size key rule := by
  intro v hv
  rw [h.get, if_neg hk] at hv
  obtain ⟨h1, h2, h3⟩ := hr v hv
  refine ⟨h1, ?_, ?_⟩
  · intro g hg
    obtain ⟨u, hu⟩ := h2 g hg
    exact ⟨u, h.keep hu⟩
  · intro sp t items hsp ht hi i him
    have := h3 sp t items hsp ht hi i him
    cases i with
    | dims l =>
      intro d sizes str hm
      obtain ⟨c, e1, e2, e3, e4⟩ := this d sizes str hm
      exact ⟨c, e1, e2, h.sized e3, e4⟩
    | dep k ref =>
      obtain ⟨u, hu, hl⟩ := this
      exact ⟨u, h.keep hu, hl⟩

theorem regular (h : AddedEntry o o' n w e) {env : Env} {size : Char → Nat} {wr : Bool} {dims : Option Str}
    (hf : Spec.Fitting env o size wr n w e.typ dims) (hr : Spec.RegularRules env o)
    (hob : ∀ key rule, (key, rule) ∈ env.rules → Spec.RuleObeyed env.aliases o size key rule) :
    Spec.RegularRules env o' := by
  refine ⟨hr.ordinary, ?_, hr.unit, ?_, ?_⟩
  · intro key rule hm hv en hen
    rw [h.entry, if_neg (hf.rules key rule hm)] at hen
    exact hr.typed key rule hm hv en hen
  · intro key rule v t sp items hm hv ht hsp hi
    rw [h.get, if_neg (hf.rules key rule hm)] at hv
    obtain ⟨h1, h2⟩ := hr.items key rule v t sp items hm hv ht hsp hi
    refine ⟨?_, ?_⟩
    · intro k l hdep
      refine ⟨?_, (h1 k l hdep).2⟩
      intro en hen
      have hob' := (hob key rule hm v hv).2.2 sp t items hsp ht hi _ hdep
      obtain ⟨u, hu, _⟩ := hob'
      have hkn : Spec.sofarName k ≠ n := by
        intro hkn
        rw [hkn, h.fresh] at hu; cases hu
      rw [h.entry, if_neg hkn] at hen
      exact (h1 k l hdep).1 en hen
    · intro l d sizes str hdim hm'
      obtain ⟨c, e1, e2⟩ := h2 l d sizes str hdim hm'
      exact ⟨c, e1, h.sized e2⟩
  · intro k en hk hen hu
    rw [h.entry] at hen
    by_cases hkn : k = n
    · subst hkn
      simp only [if_true, Option.some.injEq] at hen
      subst hen
      exact (hf.units hu).1
    · rw [if_neg hkn] at hen
      rcases h.keys.1 hk with rfl | hk
      · exact absurd rfl hkn
      · exact hr.units k en hk hen hu

theorem fitsSizes (h : AddedEntry o o' n w e) {env : Env} {size : Char → Nat} {wr : Bool} {dims : Option Str}
    (hf : Spec.Fitting env o size wr n w e.typ dims)
    (hd : ∀ given, dims = some given → ∃ s, e.dims = some s ∧ Spec.CustomLetters given s)
    (hnone : dims = none → e.dims = none) (hs : Spec.FitsSizes o size) : Spec.FitsSizes o' size := by
  have new : ∀ d, e.dims = some d → ∃ given, dims = some given ∧ Spec.CustomLetters given d := by
    intro d hed
    cases hdim : dims with
    | none => rw [hnone hdim] at hed; cases hed
    | some g =>
      obtain ⟨s, h1, h2⟩ := hd g hdim
      rw [hed] at h1
      cases h1
      exact ⟨g, rfl, h2⟩
  refine ⟨hs.I, hs.C, ?_, ?_⟩
  · intro k v en d a i x hv ha hx hlow
    rcases h.variable'.1 hv with ⟨rfl, rfl, rfl, hed⟩ | hv
    · obtain ⟨g, h1, h2⟩ := new d hed
      obtain ⟨hcomma, _, _, hl⟩ := hf.letters g d h1 h2
      rw [(alternatives_single hcomma).2] at ha
      subst ha
      have := (hl i x hx).1
      rwa [if_pos hlow] at this
    · exact hs.defines k v en d a i x hv ha hx hlow
  · intro k v en d first hv ha
    rcases h.variable'.1 hv with ⟨rfl, rfl, rfl, hed⟩ | hv
    · obtain ⟨g, h1, h2⟩ := new d hed
      obtain ⟨hcomma, _, _, hl⟩ := hf.letters g d h1 h2
      rw [(alternatives_single hcomma).2] at ha
      subst ha
      exact ⟨first, (alternatives_single hcomma).1.2 rfl, customLetters_no_s h2, fun i c hi => (hl i c hi).2⟩
    · exact hs.fits k v en d first hv ha

theorem conforms (h : AddedEntry o o' n w e) {env : Env} {size : Char → Nat} {wr : Bool} {dims : Option Str}
    (hf : Spec.Fitting env o size wr n w e.typ dims) (hflags : e.flags = none)
    (hd : ∀ given, dims = some given → ∃ s, e.dims = some s ∧ Spec.CustomLetters given s)
    (hnone : dims = none → e.dims = none) (hs : Spec.FitsSizes o size)
    (hob : ∀ key rule, (key, rule) ∈ env.rules → Spec.RuleObeyed env.aliases o size key rule)
    (hname : Spec.LegalName o'.conv n e) (hdep : n ≠ py% "GLOBAL_SOFAConventions")
    (hc : Spec.Conforms env o wr) : Spec.Conforms env o' wr := by
  have legal : ∀ k en, Spec.LegalName o.conv k en → Spec.LegalName o'.conv k en := by
    intro k en hl
    refine ⟨?_, hl.var, hl.notPrivate, hl.notApi, hl.glob⟩
    intro ht
    obtain ⟨var, rest, h1, h2, h3⟩ := hl.attr ht
    refine ⟨var, rest, h1, h2, h3.imp id ?_⟩
    intro hv
    have := (Dict.mem_keys_put o.conv n var e).2 (Or.inr hv)
    rw [← h.conv] at this
    exact this
  refine ⟨?_, ?_, ?_, ⟨size, h.fitsSizes hf hd hnone hs, fun key rule hm => h.obeyed (hf.rules key rule hm) (hob key rule hm)⟩,
    ?_, ?_⟩
  · intro k en f hm hfl hmand
    have : (k, en) ∈ o.conv := by
      rw [h.conv, put_new _ ((Dict.get?_eq_none_iff _ _).1 h.unknown)] at hm
      rcases List.mem_append.1 hm with hm | hm
      · exact hm
      · simp only [List.mem_cons, Prod.mk.injEq, List.not_mem_nil, or_false] at hm
        rw [hm.2, hflags] at hfl
        cases hfl
    exact h.keys.2 (Or.inr (hc.mandatory k en f this hfl hmand))
  · intro k v hv
    rw [h.get] at hv
    by_cases hkn : k = n
    · rw [if_pos hkn, Option.some.injEq] at hv
      subst hv
      exact ⟨e, by rw [h.entry, if_pos hkn], hf.type⟩
    · rw [if_neg hkn] at hv
      rw [h.entry, if_neg hkn]
      exact hc.types k v hv
  · intro k en hk hen
    rw [h.entry] at hen
    by_cases hkn : k = n
    · subst hkn
      simp only [if_true, Option.some.injEq] at hen
      subst hen
      exact hname
    · rw [if_neg hkn] at hen
      rcases h.keys.1 hk with rfl | hk
      · exact absurd rfl hkn
      · exact legal _ _ (hc.names k en hk hen)
  · intro hwr k v hv hu
    rw [h.get] at hv
    by_cases hkn : k = n
    · rw [if_pos hkn, Option.some.injEq] at hv
      subst hv hkn
      exact (hf.units hu).2 hwr
    · rw [if_neg hkn] at hv
      exact hc.units hwr k v hv hu
  · intro hwr c v hv ht
    rw [h.get, if_neg (Ne.symm hdep)] at hv
    exact hc.current hwr c v hv ht

end AddedEntry

/-- what the checks of `_add_entry` say about the name -/
theorem checkEntry_legal {o : Obj} {n t : Str} {dims : Option Str} {e : Entry} {conv : Dict Entry}
    (hc : checkEntry o n t dims = none) (ht : e.typ = t) (hconv : ∀ k, k ∈ Dict.keys o.conv → k ∈ Dict.keys conv)
    (h1 : ¬ (py% "PRIVATE") <+: n) (h2 : ¬ (py% "API") <+: n)
    (h3 : (py% "GLOBAL") <+: n → (py% "GLOBAL_") <+: n ∧ t = py% "attribute") : Spec.LegalName conv n e := by
  subst ht
  unfold checkEntry at hc
  split at hc
  · cases hc
  split at hc
  · cases hc
  split at hc
  · cases hc
  rename_i hu
  split at hc
  · cases hc
  rename_i hform
  split at hc
  · cases hc
  rename_i hvar
  refine ⟨?_, ?_, h1, h2, h3⟩
  · intro ht
    have hcount : n.count '_' = 1 := by
      refine Classical.byContradiction fun hne => ?_
      exact hform ⟨ht, Or.inl hne⟩
    have hmem : '_' ∈ n := List.count_pos_iff.1 (by omega)
    cases hb : Str.beforeLast '_' n with
    | none => exact absurd hmem (beforeLast_none_iff.1 hb)
    | some var =>
      obtain ⟨rest, hr, hno⟩ := beforeLast_some hb
      refine ⟨var, rest, hr, hno, ?_⟩
      by_cases hg : (py% "GLOBAL_") <+: n
      · exact Or.inl hg
      · right
        refine Classical.byContradiction fun hnot => ?_
        apply hvar
        refine ⟨ht, ?_, ?_⟩
        · rw [Bool.eq_false_iff]
          intro hs
          exact hg (List.isPrefixOf_iff_prefix.1 hs)
        · rw [hb, Option.getD_some, Dict.has_false_iff, Dict.get?_eq_none_iff]
          exact fun hm => hnot (hconv _ hm)
  · intro ht p s hps
    have hmem : '_' ∈ n := by rw [hps]; simp
    exact absurd (by simp [hmem, ht]) hu

end Sofar
