import Verif.Lemmas.Conforms
/-!
# Deciding whether an object can be checked and whether it follows its convention

Used for the examples.
-/
namespace Sofar

/-- name, value, entry and dimensions of the variables -/
def variablesOf (o : Obj) : List (Str × Val × Entry × Str) :=
  o.keys.filterMap fun k =>
    match Dict.get? o.attrs k, Dict.get? o.conv k with
    | some v, some e => e.dims.map fun d => (k, v, e, d)
    | _, _ => none

theorem mem_variablesOf {o : Obj} {k : Str} {v : Val} {e : Entry} {d : Str} :
    (k, v, e, d) ∈ variablesOf o ↔ Spec.VariableWith o k v e d := by
  unfold variablesOf
  rw [List.mem_filterMap]
  constructor
  · rintro ⟨j, hj, h⟩
    cases hv : Dict.get? o.attrs j with
    | none => simp [hv] at h
    | some v' =>
      cases he : Dict.get? o.conv j with
      | none => simp [hv, he] at h
      | some e' =>
        simp only [hv, he, Option.map_eq_some_iff, Prod.mk.injEq] at h
        obtain ⟨d', hd, rfl, rfl, rfl, rfl⟩ := h
        exact ⟨hv, he, hd⟩
  · intro h
    exact ⟨k, mem_keys_of_get h.value, by simp [h.value, h.entry, h.dims]⟩

/-- see `Spec.Sized` -/
def sizedB (o : Obj) (c : Char) : Bool :=
  c = 'I' || c = 'C' || c = 'S' ||
    (variablesOf o).any fun p => (firstAlt p.2.2.2).any fun x => Str.isLowerC x && Str.upperC x = c

theorem sizedB_sound {o : Obj} {c : Char} (h : sizedB o c = true) : Spec.Sized o c := by
  unfold sizedB at h
  simp only [Bool.or_eq_true, decide_eq_true_eq] at h
  rcases h with ((h | h) | h) | h
  · exact Or.inl h
  · exact Or.inr (Or.inl h)
  · exact Or.inr (Or.inr (Or.inl h))
  · rw [List.any_eq_true] at h
    obtain ⟨⟨k, v, e, d⟩, hm, hx⟩ := h
    rw [List.any_eq_true] at hx
    obtain ⟨x, hx, hlx⟩ := hx
    simp only [Bool.and_eq_true, decide_eq_true_eq] at hlx
    exact Or.inr (Or.inr (Or.inr ⟨k, v, e, d, _, x, mem_variablesOf.1 hm, isFirst_firstAlt d, hx, hlx.1, hlx.2⟩))

/-- see `Spec.TextColumn` -/
def textColumnB : Val → Bool
  | .str _ => true
  | .npstr _ => true
  | .arr a =>
    match a.shape with
    | [] => false
    | n :: rest => n ≠ 0 && Spec.prod rest ≠ 0 && (n = 1 || Spec.prod rest = 1) &&
        a.data.all fun x => match x with
          | .str _ => true
          | _ => false
  | _ => false

theorem textColumnB_sound {v : Val} (h : textColumnB v = true) : Spec.TextColumn v := by
  cases v with
  | str s => exact Or.inl (Or.inl ⟨s, rfl⟩)
  | npstr s => exact Or.inl (Or.inr ⟨s, rfl⟩)
  | arr a =>
    right
    unfold textColumnB at h
    simp only at h
    cases hs : a.shape with
    | nil => simp [hs] at h
    | cons n rest =>
      simp only [hs, Bool.and_eq_true, decide_eq_true_eq, Bool.or_eq_true, List.all_eq_true] at h
      obtain ⟨⟨⟨h1, h2⟩, h3⟩, h4⟩ := h
      refine ⟨a, n, rest, rfl, hs, h1, h2, h3, ?_⟩
      intro x hx
      have := h4 x hx
      cases x <;> simp at this ⊢
  | _ => simp [textColumnB] at h

/-- see `Spec.Checkable` -/
def checkableB (o : Obj) : Bool :=
  (o.keys.all fun k => Dict.has o.conv k) &&
  ((o.custom.getD []).all fun p => p.2.dims.isNone || (variablesOf o).any fun q => q.1 = p.1) &&
  ((variablesOf o).all fun p =>
    (! (p.2.2.1.typ = py% "string" || p.2.2.1.typ = py% "attribute" || (firstAlt p.2.2.2).contains 'S') || textColumnB p.2.1)
    && (firstAlt p.2.2.2).length ≤ 4
    && (Str.splitCommaSpace p.2.2.2).all fun a => a.all fun c => sizedB o (Str.upperC c)) &&
  (match Dict.get? o.attrs (py% "GLOBAL_SOFAConventionsVersion") with
    | some v => match Spec.text v with
      | some t => (pyFloat t).isSome
      | none => false
    | none => false)

theorem checkableB_sound {o : Obj} (h : checkableB o = true) : Spec.Checkable o := by
  unfold checkableB at h
  simp only [Bool.and_eq_true] at h
  obtain ⟨⟨⟨h1, h2⟩, h3⟩, h4⟩ := h
  rw [List.all_eq_true] at h1 h2 h3
  refine ⟨?_, ?_, ?_, ?_, ?_, ?_⟩
  · intro k hk
    exact (Dict.has_iff _ _).1 (h1 k hk)
  · intro c k e hc hm hd
    have := h2 (k, e) (by simpa [hc] using hm)
    simp only [Bool.or_eq_true, Option.isNone_iff_eq_none, hd, false_or, List.any_eq_true, decide_eq_true_eq] at this
    obtain ⟨⟨k', v, e', d⟩, hq, rfl⟩ := this
    exact ⟨v, e', d, mem_variablesOf.1 hq⟩
  · intro k v e d a hv ha ht
    have := h3 _ (mem_variablesOf.2 hv)
    simp only [Bool.and_eq_true] at this
    have ht' := this.1.1
    rw [firstAlt_of_isFirst ha] at ht'
    apply textColumnB_sound
    simp only [Bool.or_eq_true, Bool.not_eq_true', Bool.or_eq_false_iff, decide_eq_false_iff_not] at ht'
    rcases ht' with ⟨⟨g1, g2⟩, g3⟩ | g
    · exfalso
      rcases ht with ht | ht | ht
      · exact g1 ht
      · exact g2 ht
      · rw [← Bool.not_eq_true, List.contains_iff_mem] at g3
        exact g3 ht
    · exact g
  · intro k v e d a hv ha
    have := h3 _ (mem_variablesOf.2 hv)
    simp only [Bool.and_eq_true, decide_eq_true_eq] at this
    rw [← firstAlt_of_isFirst ha]
    exact this.1.2
  · intro k v e d a hv ha c hc
    have := h3 _ (mem_variablesOf.2 hv)
    simp only [Bool.and_eq_true] at this
    have h5 := this.2
    rw [List.all_eq_true] at h5
    have h6 := h5 a (isAlternative_iff.1 ha)
    rw [List.all_eq_true] at h6
    exact sizedB_sound (h6 c hc)
  · cases hv : Dict.get? o.attrs (py% "GLOBAL_SOFAConventionsVersion") with
    | none => simp [hv] at h4
    | some v =>
      cases ht : Spec.text v with
      | none => simp [hv, ht] at h4
      | some t =>
        simp only [hv, ht] at h4
        obtain ⟨q, hq⟩ := Option.isSome_iff_exists.1 h4
        exact ⟨v, t, q, rfl, ht, hq⟩

/-- see `Spec.OrdinaryName` -/
def ordinaryB (n : Str) : Bool := ! Spec.methodNames.contains n && ! isPrivate n

theorem ordinaryB_sound {n : Str} (h : ordinaryB n = true) : Spec.OrdinaryName n := by
  unfold ordinaryB at h
  simp only [Bool.and_eq_true, Bool.not_eq_true'] at h
  exact ⟨fun hm => by rw [List.contains_iff_mem.2 hm] at h; simp at h, h.2⟩

/-- the entry is an attribute of the convention or unknown -/
def attributeB (o : Obj) (k : Str) : Bool :=
  match Dict.get? o.conv k with
  | some e => e.typ = py% "attribute"
  | none => true

/-- a single unit -/
def singleB (k : Str) (l : List Str) : Bool := ! Str.endsWith k (py% "Units") || l.length = 1

/-- one specific dependency -/
def itemB (o : Obj) : SpecItem → Bool
  | .dep k ref => ordinaryB (Spec.sofarName k) && (ref.isNone || attributeB o (Spec.sofarName k)) &&
      singleB (Spec.sofarName k) (ref.getD [[]])
  | .dims l => l.all fun r =>
      match r.1 with
      | [c] => sizedB o c
      | _ => false

/-- see `Spec.RegularRules` (for all values) -/
def regularRulesB (env : Env) (o : Obj) : Bool :=
  (env.rules.all fun p =>
    ordinaryB (Spec.sofarName p.1) && (p.2.general.all fun g => ordinaryB (Spec.sofarName g)) &&
    (p.2.value.isNone && p.2.specific.isNone || attributeB o (Spec.sofarName p.1)) &&
    singleB (Spec.sofarName p.1) (p.2.value.getD [[]]) &&
    ((p.2.specific.getD []).all fun q => q.2.all (itemB o))) &&
  (o.keys.all fun k => ! Str.endsWith k (py% "Units") || attributeB o k)

theorem attributeB_sound {o : Obj} {k : Str} (h : attributeB o k = true) :
    ∀ e, Dict.get? o.conv k = some e → e.typ = py% "attribute" := by
  intro e he
  simpa [attributeB, he] using h

theorem singleB_sound {k : Str} {l : List Str} (h : singleB k l = true) (hk : (py% "Units") <:+ k) : ∃ r, l = [r] := by
  unfold singleB Str.endsWith at h
  rw [List.isSuffixOf_iff_suffix.2 hk] at h
  simp only [Bool.not_true, Bool.false_or, decide_eq_true_eq] at h
  exact List.length_eq_one_iff.1 h

theorem regularRulesB_sound {env : Env} {o : Obj} (h : regularRulesB env o = true) : Spec.RegularRules env o := by
  unfold regularRulesB at h
  rw [Bool.and_eq_true, List.all_eq_true, List.all_eq_true] at h
  obtain ⟨h1, h2⟩ := h
  have key : ∀ key rule, (key, rule) ∈ env.rules → _ := fun key rule hp => h1 (key, rule) hp
  simp only [Bool.and_eq_true, List.all_eq_true] at key
  have hspec : ∀ key rule, (key, rule) ∈ env.rules → ∀ sp t items, rule.specific = some sp →
      Dict.get? sp t = some items → ∀ i ∈ items, itemB o i = true := by
    intro k rule hp sp t items hs hg i hi
    exact (key k rule hp).2 (t, items) (by rw [hs]; exact Dict.mem_of_get? hg) i hi
  refine ⟨?_, ?_, ?_, ?_, ?_⟩
  · rintro ⟨k, rule⟩ hp
    obtain ⟨⟨⟨⟨a1, a2⟩, a3⟩, a4⟩, a5⟩ := key k rule hp
    refine ⟨ordinaryB_sound a1, fun g hg => ordinaryB_sound (a2 g hg), ?_⟩
    intro sp t items hs hg j ref hi
    have := hspec k rule hp sp t items hs hg _ hi
    simp only [itemB, Bool.and_eq_true] at this
    exact ordinaryB_sound this.1.1
  · intro k rule hp hn
    obtain ⟨⟨⟨⟨a1, a2⟩, a3⟩, a4⟩, a5⟩ := key k rule hp
    apply attributeB_sound
    simp only [Bool.or_eq_true, Bool.and_eq_true, Option.isNone_iff_eq_none] at a3
    rcases a3 with ⟨g1, g2⟩ | g
    · rcases hn with hn | hn
      · exact absurd g1 hn
      · exact absurd g2 hn
    · exact g
  · intro k rule l hp hl hu
    obtain ⟨⟨⟨⟨a1, a2⟩, a3⟩, a4⟩, a5⟩ := key k rule hp
    rw [hl] at a4
    exact singleB_sound a4 hu
  · intro k rule v t sp items hp hv ht hs hg
    constructor
    · intro j l hi
      have := hspec k rule hp sp _ items hs hg _ hi
      simp only [itemB, Bool.and_eq_true, Option.isNone_some, Bool.false_or, Option.getD_some] at this
      exact ⟨attributeB_sound this.1.2, singleB_sound this.2⟩
    · intro l d sizes str hi hm
      have := hspec k rule hp sp _ items hs hg _ hi
      simp only [itemB, List.all_eq_true] at this
      have h3 := this _ hm
      simp only at h3
      match d, h3 with
      | [c], h3 => exact ⟨c, rfl, sizedB_sound h3⟩
  · intro k e hk he hu
    have := h2 k hk
    unfold Str.endsWith at this
    rw [List.isSuffixOf_iff_suffix.2 hu] at this
    simp only [Bool.not_true, Bool.false_or] at this
    exact attributeB_sound this e he

/-! ## Objects that follow their convention -/

/-- see `Spec.HasType` -/
def hasTypeB (typ : Str) (v : Val) : Bool :=
  if typ = py% "attribute" then v.isStr
  else if typ = py% "double" then doubleOk v
  else if typ = py% "string" then
    match v with
    | .str _ => true
    | .npstr _ => true
    | .arr a => a.kind = .U
    | _ => false
  else false

theorem hasTypeB_sound {typ : Str} {v : Val} (h : hasTypeB typ v = true) : Spec.HasType typ v := by
  unfold hasTypeB at h
  split at h
  · rename_i ht
    left
    refine ⟨ht, ?_⟩
    cases v with
    | str s => exact Or.inl ⟨s, rfl⟩
    | npstr s => exact Or.inr ⟨s, rfl⟩
    | _ => simp [Val.isStr, Val.asStr] at h
  · split at h
    · rename_i ht
      right; left
      refine ⟨ht, ?_⟩
      cases v with
      | num k e => cases k <;> simp [doubleOk, Spec.IsNumeric] at h ⊢
      | arr a =>
        right; right
        simp only [doubleOk, Bool.or_eq_true, decide_eq_true_eq] at h
        exact ⟨a, rfl, h⟩
      | _ => simp [doubleOk] at h
    · split at h
      · rename_i ht
        right; right
        refine ⟨ht, ?_⟩
        cases v with
        | str s => exact Or.inl (Or.inl ⟨s, rfl⟩)
        | npstr s => exact Or.inl (Or.inr ⟨s, rfl⟩)
        | arr a => exact Or.inr ⟨a, rfl, by simpa using h⟩
        | _ => simp at h
      · simp at h

/-- see `Spec.LegalName` -/
def legalB (conv : Dict Entry) (k : Str) (e : Entry) : Bool :=
  (if e.typ = py% "attribute" then
    match Str.beforeLast '_' k with
    | some var => Str.startsWith k (py% "GLOBAL_") || Dict.has conv var
    | none => false
  else ! (Str.replace k (py% "Data_") []).contains '_') &&
  ! Str.startsWith k (py% "PRIVATE") && ! Str.startsWith k (py% "API") &&
  (! Str.startsWith k (py% "GLOBAL") || (Str.startsWith k (py% "GLOBAL_") && e.typ = py% "attribute"))

theorem legalB_sound {conv : Dict Entry} {k : Str} {e : Entry} (h : legalB conv k e = true) : Spec.LegalName conv k e := by
  unfold legalB at h
  simp only [Bool.and_eq_true, Bool.not_eq_true', Bool.or_eq_true, decide_eq_true_eq] at h
  obtain ⟨⟨⟨h1, h2⟩, h3⟩, h4⟩ := h
  have np : ∀ p : Str, Str.startsWith k p = false → ¬ p <+: k := by
    intro p hp hh
    unfold Str.startsWith at hp
    rw [List.isPrefixOf_iff_prefix.2 hh] at hp
    cases hp
  have pp : ∀ p : Str, Str.startsWith k p = true ↔ p <+: k := by
    intro p
    unfold Str.startsWith
    rw [List.isPrefixOf_iff_prefix]
  refine ⟨?_, ?_, np _ h2, np _ h3, ?_⟩
  · intro ht
    rw [if_pos ht] at h1
    cases hb : Str.beforeLast '_' k with
    | none => simp [hb] at h1
    | some var =>
      simp only [hb, Bool.or_eq_true] at h1
      obtain ⟨a, ha, hn⟩ := beforeLast_some hb
      refine ⟨var, a, ha, hn, ?_⟩
      rcases h1 with h1 | h1
      · exact Or.inl ((pp _).1 h1)
      · exact Or.inr ((Dict.has_iff_mem _ _).1 h1)
  · intro ht p s hps
    rw [if_neg ht] at h1
    refine replace_data (fun hm => ?_) p s hps
    rw [List.contains_iff_mem.2 hm] at h1
    simp at h1
  · intro hg
    rcases h4 with h4 | h4
    · exact absurd hg (np _ h4)
    · exact ⟨(pp _).1 h4.1, h4.2⟩

/-- see `Spec.FitsSizes` -/
def fitsB (o : Obj) (size : Char → Nat) : Bool :=
  size 'I' = 1 && size 'C' = 3 &&
  ((variablesOf o).all fun p =>
    ((List.range (firstAlt p.2.2.2).length).all fun i =>
      match (firstAlt p.2.2.2)[i]? with
      | some x => ! Str.isLowerC x || p.2.1.shape.getD i 1 = size (Str.upperC x)
      | none => true) &&
    ((Str.splitCommaSpace p.2.2.2).any fun a => ! a.contains 's' &&
      ((List.range a.length).all fun i =>
        match a[i]? with
        | some c => Spec.axisSize (decide (p.2.2.1.typ = py% "attribute" ∨ p.2.2.1.typ = py% "string"))
            (firstAlt p.2.2.2).length p.2.1.shape i = (if c = 'S' then 1 else size (Str.upperC c))
        | none => true)))

theorem fitsB_sound {o : Obj} {size : Char → Nat} (h : fitsB o size = true) : Spec.FitsSizes o size := by
  unfold fitsB at h
  simp only [Bool.and_eq_true, decide_eq_true_eq] at h
  obtain ⟨⟨h1, h2⟩, h3⟩ := h
  rw [List.all_eq_true] at h3
  refine ⟨h1, h2, ?_, ?_⟩
  · intro k v e d a i x hv ha hx hl
    have := h3 _ (mem_variablesOf.2 hv)
    simp only [Bool.and_eq_true] at this
    have h4 := this.1
    rw [List.all_eq_true, firstAlt_of_isFirst ha] at h4
    have h5 := h4 i (List.mem_range.2 (List.getElem?_eq_some_iff.1 hx).1)
    simp only [hx, hl, Bool.not_true, Bool.false_or, decide_eq_true_eq] at h5
    exact h5
  · intro k v e d first hv hf
    have := h3 _ (mem_variablesOf.2 hv)
    simp only [Bool.and_eq_true] at this
    have h4 := this.2
    rw [List.any_eq_true] at h4
    obtain ⟨a, ha, hfit⟩ := h4
    simp only [Bool.and_eq_true, Bool.not_eq_true'] at hfit
    obtain ⟨g1, g2⟩ := hfit
    rw [List.all_eq_true] at g2
    refine ⟨a, isAlternative_of_mem ha, ?_, ?_⟩
    · intro hm
      rw [List.contains_iff_mem.2 hm] at g1
      cases g1
    · intro i c hc
      have := g2 i (List.mem_range.2 (List.getElem?_eq_some_iff.1 hc).1)
      simp only [hc, decide_eq_true_eq] at this
      rw [firstAlt_of_isFirst hf] at this
      exact this

/-- see `Spec.Conforms`, without the rules -/
def conformsB (env : Env) (o : Obj) (write : Bool) : Bool :=
  (o.conv.all fun p => ! mandatory p.2.flags || o.keys.contains p.1) &&
  (o.keys.all fun k =>
    match Dict.get? o.attrs k, Dict.get? o.conv k with
    | some v, some e => hasTypeB e.typ v && legalB o.conv k e
    | _, _ => false) &&
  (! write || o.keys.all fun k => ! Str.endsWith k (py% "Units") ||
    match Dict.get? o.attrs k with
    | some v => match Spec.text v with
      | some u => Str.lower u = u
      | none => false
    | none => true) &&
  (! write ||
    match Dict.get? o.attrs (py% "GLOBAL_SOFAConventions") with
    | some v => match Spec.text v with
      | some c => ! Dict.has env.deprecations c
      | none => true
    | none => true)

theorem conformsB_sound {env : Env} {o : Obj} {write : Bool} (h : conformsB env o write = true) (size : Char → Nat)
    (hf : fitsB o size = true)
    (hr : ∀ key rule, (key, rule) ∈ env.rules → Spec.RuleObeyed env.aliases o size key rule) :
    Spec.Conforms env o write := by
  unfold conformsB at h
  simp only [Bool.and_eq_true, Bool.or_eq_true, Bool.not_eq_true'] at h
  obtain ⟨⟨⟨h1, h2⟩, h3⟩, h4⟩ := h
  rw [List.all_eq_true] at h1 h2
  refine ⟨?_, ?_, ?_, ⟨size, fitsB_sound hf, hr⟩, ?_, ?_⟩
  · apply (isMandatory_iff o).1
    intro p hp hm
    have := h1 p hp
    simp only [hm, Bool.true_eq_false, Bool.or_eq_true, Bool.not_eq_true', false_or] at this
    exact List.contains_iff_mem.1 this
  · intro k v hv
    have := h2 k (mem_keys_of_get hv)
    cases he : Dict.get? o.conv k with
    | none => simp [hv, he] at this
    | some e =>
      simp only [hv, he, Bool.and_eq_true] at this
      exact ⟨e, rfl, hasTypeB_sound this.1⟩
  · intro k e hk he
    have := h2 k hk
    cases hv : Dict.get? o.attrs k with
    | none => simp [hv] at this
    | some v =>
      simp only [hv, he, Bool.and_eq_true] at this
      exact legalB_sound this.2
  · intro hw k v hv hu
    rcases h3 with h3 | h3
    · rw [hw] at h3; cases h3
    · rw [List.all_eq_true] at h3
      have := h3 k (mem_keys_of_get hv)
      unfold Str.endsWith at this
      rw [List.isSuffixOf_iff_suffix.2 hu] at this
      simp only [Bool.not_true, Bool.false_or, hv] at this
      cases ht : Spec.text v with
      | none => simp [ht] at this
      | some u => simp only [ht, decide_eq_true_eq] at this; exact ⟨u, rfl, this⟩
  · intro hw c v hv ht
    rcases h4 with h4 | h4
    · rw [hw] at h4; cases h4
    · simp only [hv, ht, Bool.not_eq_true'] at h4
      rwa [Dict.has_false_iff] at h4

end Sofar
