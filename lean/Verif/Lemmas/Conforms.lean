import Verif.Lemmas.Total
/-!
# Objects that follow their convention pass the verification
-/
namespace Sofar

/-! ## Names -/

theorem beforeLast_eq {c : Char} {v a : Str} (h : c ∉ a) : Str.beforeLast c (v ++ c :: a) = some v := by
  induction v with
  | nil => simp [Str.beforeLast, beforeLast_none_iff.2 h]
  | cons d v ih => simp [Str.beforeLast, ih]

theorem replaceData_go {k : Str} (n : Nat) (hn : k.length ≤ n) (h : ∀ p s, k = p ++ '_' :: s → (py% "Data") <:+ p) :
    '_' ∉ Str.replaceGo (py% "Data_") [] 0 k := by
  induction n generalizing k with
  | zero =>
    have : k = [] := List.length_eq_zero_iff.1 (by omega)
    subst this
    simp [Str.replaceGo]
  | succ n ih =>
    cases k with
    | nil => simp [Str.replaceGo]
    | cons c t =>
      simp only [Str.replaceGo]
      by_cases hp : (py% "Data_") <+: c :: t
      · rw [if_pos (List.isPrefixOf_iff_prefix.2 hp)]
        obtain ⟨rest, hrest⟩ := hp
        have hct : c :: t = 'D' :: 'a' :: 't' :: 'a' :: '_' :: rest := hrest.symm
        injection hct with h1 h2
        subst h1 h2
        simp only [List.nil_append, List.length_cons, List.length_nil, Str.replaceGo]
        apply ih
        · simp only [List.length_cons] at hn; omega
        · rintro p s rfl
          have hd := h ('D' :: 'a' :: 't' :: 'a' :: '_' :: p) s rfl
          have hr := List.reverse_prefix.2 hd
          rcases p.eq_nil_or_concat with rfl | ⟨p1, x1, rfl⟩
          · simp at hr
          rcases p1.eq_nil_or_concat with rfl | ⟨p2, x2, rfl⟩
          · simp at hr
          rcases p2.eq_nil_or_concat with rfl | ⟨p3, x3, rfl⟩
          · simp at hr
          rcases p3.eq_nil_or_concat with rfl | ⟨p4, x4, rfl⟩
          · simp at hr
          simp only [List.concat_eq_append, List.append_assoc, List.cons_append, List.nil_append, List.reverse_cons,
            List.reverse_append, List.reverse_nil, List.cons_prefix_cons, List.nil_prefix, and_true] at hr
          obtain ⟨rfl, rfl, rfl, rfl⟩ := hr
          exact ⟨p4, by simp⟩
      · rw [if_neg (fun hh => hp (List.isPrefixOf_iff_prefix.1 hh))]
        simp only [List.mem_cons, not_or]
        constructor
        · rintro rfl
          have := h [] t rfl
          simp at this
        · apply ih
          · simp only [List.length_cons] at hn; omega
          · rintro p s rfl
            have hd := h (c :: p) s rfl
            obtain ⟨q, hq⟩ := hd
            cases q with
            | nil =>
              exfalso
              apply hp
              refine ⟨s, ?_⟩
              simp only [List.nil_append] at hq
              rw [← List.cons_append, ← hq]
              rfl
            | cons q0 q =>
              simp only [List.cons_append, List.cons.injEq] at hq
              exact ⟨q, hq.2⟩

theorem nameOk_of_legal {o : Obj} {k : Str} {e : Entry} (h : Spec.LegalName o.conv k e) : NameOk o k e := by
  have np : ∀ p : Str, ¬ p <+: k → Str.startsWith k p = false := by
    intro p hp
    unfold Str.startsWith
    rw [← Bool.not_eq_true, List.isPrefixOf_iff_prefix]
    exact hp
  have pp : ∀ p : Str, Str.startsWith k p = true ↔ p <+: k := by
    intro p
    unfold Str.startsWith
    rw [List.isPrefixOf_iff_prefix]
  refine ⟨?_, ?_, np _ h.notPrivate, np _ h.notApi, ?_⟩
  · intro ht
    obtain ⟨var, rest, rfl, hr, hor⟩ := h.attr ht
    refine ⟨var, beforeLast_eq hr, ?_⟩
    rcases hor with hor | hor
    · exact Or.inl ((pp _).2 hor)
    · exact Or.inr ((Dict.has_iff_mem _ _).2 hor)
  · intro ht
    exact replaceData_go k.length (Nat.le_refl _) (h.var ht)
  · intro hg
    obtain ⟨h1, h2⟩ := h.glob ((pp _).1 hg)
    exact ⟨(pp _).2 h1, h2⟩

/-! ## Shapes -/

theorem matchShape_found {api : Dict Nat} {act last : List Nat} {alts : List Str}
    (h : ∀ a ∈ alts, ∀ c ∈ a, ∃ n, Dict.get? api [Str.upperC c] = some n)
    (hf : ∃ a ∈ alts, compareShape act a.length = a.map (fun c => if c = 'S' then 1 else sizeIn api (Str.upperC c))) :
    ∃ m, matchShape api act last alts = .ok (.inl m) := by
  induction alts generalizing last with
  | nil => obtain ⟨a, ha, _⟩ := hf; simp at ha
  | cons a l ih =>
    obtain ⟨r, hr⟩ := refShape_total (h a (by simp))
    simp only [matchShape, hr]
    by_cases hc : compareShape act r.length = r
    · rw [if_pos hc]; exact ⟨a, rfl⟩
    · rw [if_neg hc]
      apply ih (fun b hb => h b (by simp [hb]))
      obtain ⟨b, hb, hbc⟩ := hf
      rcases List.mem_cons.1 hb with rfl | hb
      · exfalso
        apply hc
        rw [refShape_length hr, hbc, ← (refShape_ok hr).1]
      · exact ⟨b, hb, hbc⟩

theorem upperC_S {c : Char} (h : Str.upperC c = 'S') : c = 'S' ∨ c = 's' := by
  unfold Str.upperC at h
  split at h
  · rename_i hc
    right
    have h1 := congrArg Char.toNat h
    have e2 : 'z'.toNat = 122 := rfl
    have e1 : 'a'.toNat = 97 := rfl
    have e3 : 'S'.toNat = 83 := rfl
    rw [ofNat_toNat (by omega)] at h1
    have : c.toNat = 's'.toNat := by
      have : 's'.toNat = 115 := rfl
      omega
    exact Char.toNat_inj.1 this
  · exact Or.inl h

theorem isVar_variable {o : Obj} (hc : Spec.Checkable o) {v : Val} {s : Str} (h : IsVar o (dimKeys o) v s) :
    ∃ k e d, Spec.VariableWith o k v e d ∧ Spec.IsFirstAlternative d s := by
  obtain ⟨k, hk, e, d, h1, h2, h3, rfl⟩ := h
  obtain ⟨v', e', d', hv⟩ := dimKeys_variable hc k hk
  rw [getAttr_of_get hv.value] at h1
  cases h1
  exact ⟨k, e, d, ⟨hv.value, h2, h3⟩, isFirst_firstAlt d⟩

/-- the sizes that are found are the sizes of the specification -/
theorem sizes_agree {o : Obj} (hc : Spec.Checkable o) {api : Dict Nat} (ha : ApiOk o api) {size : Char → Nat}
    (hs : Spec.FitsSizes o size) {c : Char} {n : Nat} (hS : c ≠ 'S') (hn : Dict.get? api [c] = some n) : n = size c := by
  by_cases h1 : c = 'C'
  · subst h1
    have := ha.C
    rw [hn] at this
    rw [hs.C]; simpa using this
  by_cases h2 : c = 'I'
  · subst h2
    have := ha.I
    rw [hn] at this
    rw [hs.I]; simpa using this
  obtain ⟨v, s, i, x, hv, hx, hl, hk, hg⟩ := ha.others [c] n (by simp [h1]) (by simp [h2]) (by simp [hS]) hn
  obtain ⟨k, e, d, hvar, hf⟩ := isVar_variable hc hv
  have hd := hs.defines k v e d s i x hvar hf hx hl
  have hcx : c = Str.upperC x := by simpa using hk
  rw [hcx, ← hd]
  have hp := getD_padOnes 4 v.shape i
  unfold Arr.ndNewaxisShape at hg
  rw [← hp, List.getD_eq_getElem?_getD, hg]
  rfl

theorem sized_not_comma {o : Obj} : ¬ Spec.Sized o (Str.upperC ',') := by
  intro h
  have h1 := Sized.letter h
  have h2 : (Str.upperC ',').toNat = 44 := by decide
  omega

theorem shapeKey_found {o : Obj} (hc : Spec.Checkable o) {api : Dict Nat} (ha : ApiOk o api)
    (hd : ∀ c, Spec.Sized o c → ∃ n, Dict.get? api [c] = some n) {size : Char → Nat} (hs : Spec.FitsSizes o size)
    {k : Str} {v : Val} {e : Entry} {d : Str} (hv : Spec.VariableWith o k v e d) :
    ∃ m, shapeKey o api k = .ok (.inl m) := by
  unfold shapeKey
  obtain ⟨act, hact⟩ := actualShape_total hc hv
  have hl : ∀ a ∈ Str.splitCommaSpace d, ∀ c ∈ a, ∃ n, Dict.get? api [Str.upperC c] = some n := by
    intro a ha' c hc'
    exact hd _ (hc.sized k v e d a hv (isAlternative_of_mem ha') c hc')
  have hcomma : ',' ∉ firstAlt d := fun hm =>
    sized_not_comma (hc.sized k v e d _ hv (isAlternative_of_mem (firstAlt_mem d)) ',' hm)
  obtain ⟨a, halt, hsm, hfit⟩ := hs.fits k v e d _ hv (isFirst_firstAlt d)
  have ham := isAlternative_iff.1 halt
  obtain ⟨m, hm⟩ := matchShape_found (act := act) (last := []) hl ⟨a, ham, by
    apply List.ext_getElem?
    intro i
    by_cases hi : i < a.length
    · rw [getElem?_compareShape hi, actualShape_axis hact hcomma, List.getElem?_map, List.getElem?_eq_getElem hi]
      rw [hfit i _ (List.getElem?_eq_getElem hi)]
      simp only [Option.map_some, Option.some.injEq]
      by_cases hS : a[i] = 'S'
      · simp [hS]
      · rw [if_neg hS, if_neg hS]
        obtain ⟨n, hn⟩ := hl a ham a[i] (List.getElem_mem hi)
        have hne : Str.upperC a[i] ≠ 'S' := by
          intro hu
          rcases upperC_S hu with h | h
          · exact hS h
          · exact hsm (h ▸ List.getElem_mem hi)
        rw [← sizes_agree hc ha hs hne hn, sizeIn, hn]
        rfl
    · rw [List.getElem?_eq_none, List.getElem?_eq_none]
      · simp; omega
      · have : (compareShape act a.length).length = a.length := by
          unfold compareShape Arr.padOnes
          simp only [List.length_append, List.length_replicate, List.length_take]
          omega
        omega⟩
  simp only [convEntry, hv.entry, getAttr_of_get hv.value, entryDims, hv.dims, hact, hm]
  exact ⟨_, rfl⟩

theorem shapeLoop_found {o : Obj} {api : Dict Nat} {ks : List Str} {dims : Dict Str}
    (h : ∀ k ∈ ks, ∃ m, shapeKey o api k = .ok (.inl m)) : (shapeLoop o api ks dims).1 = .ok [] := by
  induction ks generalizing dims with
  | nil => rfl
  | cons k ks ih =>
    obtain ⟨m, hm⟩ := h k (by simp)
    simp only [shapeLoop, hm]
    exact ih (fun j hj => h j (by simp [hj]))

theorem shapeKey_same {o o' : Obj} (h1 : o'.attrs = o.attrs) (h2 : o'.conv = o.conv) {api : Dict Nat} {k : Str} {v : Val}
    {e : Entry} {d : Str} (hv : Spec.VariableWith o k v e d) : shapeKey o' api k = shapeKey o api k := by
  have h3 : o'.getAttr k = o.getAttr k := by rw [getAttr_of_get hv.value, getAttr_of_get (h1.symm ▸ hv.value)]
  unfold shapeKey convEntry
  rw [h2, h3]

/-! ## Everything -/

theorem ruleHolds_of_obeyed {aliases : Dict Str} {o o' : Obj} {api : Dict Nat} {size : Char → Nat} {key : Str} {rule : Rule}
    (hc : Spec.Checkable o) (ha : ApiOk o api) (hs : Spec.FitsSizes o size)
    (hd : ∀ c, Spec.Sized o c → ∃ n, Dict.get? api [c] = some n) (h1 : o'.attrs = o.attrs) (hapi : o'.api = some api)
    (h : Spec.RuleObeyed aliases o size key rule) : Spec.RuleHolds aliases o' key rule := by
  intro v hv
  rw [h1] at hv
  obtain ⟨g1, g2, g3⟩ := h v hv
  refine ⟨g1, by rw [h1]; exact g2, ?_⟩
  intro sp t items e1 e2 e3 i hi
  have := g3 sp t items e1 e2 e3 i hi
  cases i with
  | dims l =>
    intro d sizes str hm
    obtain ⟨c, rfl, hS, hsz, hin⟩ := this d sizes str hm
    obtain ⟨n, hn⟩ := hd c hsz
    rw [hapi]
    refine ⟨n, hn, ?_⟩
    rw [sizes_agree hc ha hs hS hn]
    exact hin
  | dep k ref =>
    unfold Spec.ItemHolds
    rw [h1]
    exact this

theorem passes_of_conforms {inner : Inner} {env : Env} {o : Obj} {mode : Mode} (h : Ready inner env o)
    (hf : Spec.Conforms env o (decide (mode = .write)))
    (hcust : ∀ c, o.custom = some c → ∃ names, inner.out = .ok names ∧
        ∀ k ∈ Dict.keys c, ∀ n ∈ names, Str.replace n (py% "GLOBAL_") [] ≠ Str.replace k (py% "GLOBAL_") []) :
    ∃ o3, Passes inner env o o3 mode := by
  have hty : Typed o := hf.types
  obtain ⟨size, hsz, hrules⟩ := hf.shapes
  obtain ⟨h4, api, h5, h6, h7⟩ := phaseDims_total h.check
  have a1 : (phaseDims o).2.attrs = o.attrs := by rw [h5]
  have a2 : (phaseDims o).2.conv = o.conv := by rw [h5]
  have a3 : (phaseDims o).2.custom = o.custom := by rw [h5]
  have hc' := Checkable.same h.check a1 a2 a3
  have hshape : (phaseShapes (phaseDims o).2).1 = .ok [] := by
    unfold phaseShapes
    have hapi : (phaseDims o).2.api.getD [] = api := by rw [h5]; rfl
    have := shapeLoop_found (o := (phaseDims o).2) (api := api) (ks := dimKeys (phaseDims o).2) (dims := []) (by
      intro k hk
      obtain ⟨v, e, d, hv⟩ := dimKeys_variable hc' k hk
      have hv' : Spec.VariableWith o k v e d := ⟨a1 ▸ hv.value, a2 ▸ hv.entry, hv.dims⟩
      rw [shapeKey_same a1 a2 hv']
      exact shapeKey_found h.check h6 h7 hsz hv')
    simp only [hapi, this]
    simp [section_]
  obtain ⟨d, hd⟩ := phaseShapes_obj (phaseDims o).2
  have b1 : (phaseShapes (phaseDims o).2).2.attrs = o.attrs := by rw [hd, a1]
  have b2 : (phaseShapes (phaseDims o).2).2.conv = o.conv := by rw [hd, a2]
  have b3 : (phaseShapes (phaseDims o).2).2.api = some api := by rw [hd, h5]
  refine ⟨(phaseShapes (phaseDims o).2).2, ?_, ?_, ?_, ?_, h4, Prod.ext hshape rfl, ?_, ?_⟩
  · exact (isMandatory_iff o).2 hf.mandatory
  · rw [phaseTypes_nil]
    intro k hk
    obtain ⟨v, hv⟩ := get_of_mem_keys hk
    obtain ⟨e, he, ht⟩ := hf.types k v hv
    exact ⟨e, v, he, getAttr_of_get hv, ht⟩
  · rw [phaseNames_nil _ _ (keys_known h.check)]
    intro k hk e he
    exact nameOk_of_legal (hf.names k e hk he)
  · rw [phaseCustomNames_nil]
    exact hcust
  · rw [phaseRules_nil h.rules.ordinary]
    constructor
    · rintro ⟨key, rule⟩ hp
      refine ⟨ruleHolds_of_obeyed h.check h6 hsz h7 b1 b3 (hrules key rule hp), ?_⟩
      intro v hv hn
      rw [b1] at hv
      obtain ⟨t, ht⟩ := hty.text hv (h.rules.typed key rule hp (Or.inr hn))
      cases v <;> simp_all [Spec.text]
    · intro hm
      rw [b1]
      exact hf.units (by simp [hm])
  · obtain ⟨cv, hcv⟩ := h.conv
    obtain ⟨e8, w8, h10⟩ := phaseDeprecations_total (env := env) (o := (phaseShapes (phaseDims o).2).2) (mode := mode)
      (cv := cv) (by rw [b1, hcv]) (by rw [b1]; exact h.check.version)
    refine ⟨w8, ?_⟩
    rw [h10]
    suffices e8 = [] by rw [this]
    obtain ⟨v, t, q, g1, _, _⟩ := h.check.version
    unfold phaseDeprecations at h10
    rw [getAttr_of_get (b1.symm ▸ hcv), getAttr_of_get (b1.symm ▸ g1)] at h10
    simp only at h10
    split at h10
    · simp at h10
    · cases mode with
      | read => simp only [Except.ok.injEq, Prod.mk.injEq] at h10; exact h10.1.symm
      | write =>
        simp only [Except.ok.injEq, Prod.mk.injEq] at h10
        rw [← h10.1]
        cases hct : cv.asStr with
        | none => rfl
        | some c =>
          simp only
          rw [asStr_text] at hct
          unfold deprecationText
          rw [hf.current (by simp) c cv hcv hct]

end Sofar
