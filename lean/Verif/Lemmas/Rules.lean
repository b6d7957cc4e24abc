import Verif.Lemmas.Phases
/-!
# Units, allowed values and rules
-/
namespace Sofar

/-! ## Splitting unit strings -/

theorem reSplitComma_cons {c : Char} (h : c ≠ ',') (t : Str) :
    Str.reSplitComma (c :: t) = Str.consHead c (Str.reSplitComma t) := by
  rw [Str.reSplitComma.eq_def]
  split
  · rename_i heq; simp at heq
  · rename_i heq; simp at heq; exact absurd heq.1 h
  · rename_i heq; simp at heq; exact absurd heq.1 h
  · rename_i heq; simp only [List.cons.injEq] at heq; rw [heq.1, heq.2]

theorem reSplitComma_comma {t : Str} (h : ∀ t', t ≠ ' ' :: t') :
    Str.reSplitComma (',' :: t) = [] :: Str.reSplitComma t := by
  rw [Str.reSplitComma.eq_def]
  split
  · rename_i heq; simp at heq
  · rename_i t' heq; simp at heq; exact absurd heq (h t')
  · rename_i heq; simp at heq; rw [heq]
  · grind

theorem reSplitComma_prefix {u : Str} (h : ',' ∉ u) (t : Str) (l : List Str) (ht : Str.reSplitComma t = [] :: l) :
    Str.reSplitComma (u ++ t) = u :: l := by
  induction u with
  | nil => exact ht
  | cons c u ih =>
    simp only [List.mem_cons, not_or] at h
    rw [List.cons_append, reSplitComma_cons (Ne.symm h.1), ih h.2]
    rfl

theorem units_split {t : Str} {us : List Str} (h : Spec.Units t us) : Str.reSplitComma t = us := by
  induction h with
  | one u hu => have := reSplitComma_prefix hu [] [] rfl; simpa using this
  | comma u t us hu hs _ ih => exact reSplitComma_prefix hu _ _ (by rw [reSplitComma_comma hs, ih])
  | commaSpace u t us hu _ ih =>
    exact reSplitComma_prefix hu _ _ (by rw [Str.reSplitComma, ih])

theorem units_cons {t : Str} {us : List Str} (h : Spec.Units t us) {c : Char} (hc : c ≠ ',') :
    Spec.Units (c :: t) (Str.consHead c us) := by
  cases h with
  | one u hu => exact .one _ (by simp [Ne.symm hc, hu])
  | comma u t us hu hs h => exact .comma (c :: u) t us (by simp [Ne.symm hc, hu]) hs h
  | commaSpace u t us hu h => exact .commaSpace (c :: u) t us (by simp [Ne.symm hc, hu]) h

theorem split_units (t : Str) : Spec.Units t (Str.reSplitComma t) := by
  fun_induction Str.reSplitComma t with
  | case1 => exact .one [] (by simp)
  | case2 t ih => exact .commaSpace [] t _ (by simp) ih
  | case3 t hn ih => exact .comma [] t _ (by simp) (by grind) ih
  | case4 c t hn1 hn2 ih => exact units_cons ih (by grind)

theorem units_iff (t : Str) (us : List Str) : Spec.Units t us ↔ Str.reSplitComma t = us :=
  ⟨units_split, fun h => h ▸ split_units t⟩

theorem unitsOk_iff (aliases : Dict Str) (ts rs : List Str) :
    ((rs.length = ts.length) ∧ unitsOk aliases ts rs = true) ↔ Spec.AliasOf aliases ts rs := by
  constructor
  · rintro ⟨hl, h⟩
    induction ts generalizing rs with
    | nil => cases rs with
      | nil => exact .nil
      | cons r rs => simp at hl
    | cons t ts ih =>
      cases rs with
      | nil => simp at hl
      | cons r rs =>
        simp only [unitsOk, Bool.and_eq_true, decide_eq_true_eq] at h
        exact .cons _ _ _ _ h.1 (ih rs (by simpa using hl) h.2)
  · intro h
    induction h with
    | nil => simp [unitsOk]
    | cons t r ts rs h1 _ ih => simp [unitsOk, h1, ih.1, ih.2]

theorem verifyUnit_iff (aliases : Dict Str) (test r : Str) :
    verifyUnit aliases test [r] = .ok true ↔
      ∃ ut ur, Spec.Units test ut ∧ Spec.Units r ur ∧ Spec.AliasOf aliases ut ur := by
  simp only [verifyUnit, units_iff]
  constructor
  · intro h
    refine ⟨_, _, rfl, rfl, ?_⟩
    rw [← unitsOk_iff]
    split at h
    · simp at h
    · rename_i hl
      exact ⟨by simpa using hl, by simpa using h⟩
  · rintro ⟨_, _, rfl, rfl, h⟩
    rw [← unitsOk_iff] at h
    simp [h.1, h.2]

theorem verifyUnit_total (aliases : Dict Str) (test r : Str) : ∃ b, verifyUnit aliases test [r] = .ok b := by
  simp only [verifyUnit]
  split <;> exact ⟨_, rfl⟩

/-! ## Allowed values -/

theorem verifyValue_none (aliases : Dict Str) (v : Val) (k : Str) : verifyValue aliases v none k = .ok true := rfl

theorem verifyValue_true_iff (aliases : Dict Str) (v : Val) (ref : List Str) (k : Str) :
    verifyValue aliases v (some ref) k = .ok true ↔ Spec.Allowed aliases k v ref := by
  unfold verifyValue Spec.Allowed
  rw [asStr_text]
  cases Spec.text v with
  | none => simp
  | some t =>
    simp only [Option.some.injEq, exists_eq_left']
    by_cases h1 : t ∈ ref
    · simp [h1]
    by_cases h2 : k = py% "GLOBAL_DataType" ∨ k = py% "GLOBAL_SOFAConventions"
    · rcases h2 with h2 | h2 <;> subst h2 <;> simp [h1]
    have h2' := not_or.1 h2
    by_cases h3 : Str.lower t ∈ ref
    · simp [h1, h2', h3]
    have h4 : Str.endsWith k (py% "Units") = true ↔ (py% "Units") <:+ k := by
      unfold Str.endsWith
      exact List.isSuffixOf_iff_suffix
    by_cases h5 : (py% "Units") <:+ k
    · have h6 := h4.2 h5
      simp only [List.contains_eq_mem, h1, h2', h3, h5, h6, decide_false, Bool.false_eq_true, if_false, if_true,
        false_or, true_and, ne_eq, not_false_eq_true]
      constructor
      · intro h
        cases ref with
        | nil => simp [verifyUnit] at h
        | cons r l =>
          cases l with
          | nil =>
            obtain ⟨ut, ur, h⟩ := (verifyUnit_iff _ _ _).1 h
            exact ⟨r, ut, ur, rfl, h⟩
          | cons _ _ => simp [verifyUnit] at h
      · rintro ⟨r, ut, ur, rfl, h⟩
        exact (verifyUnit_iff _ _ _).2 ⟨ut, ur, h⟩
    · have h6 : Str.endsWith k (py% "Units") = false := by
        simpa using (fun h => h5 (h4.1 h))
      simp [h1, h2, h3, h5, h6]

theorem toSofar_eq (n : Str) : toSofar n = Spec.sofarName n := by
  unfold toSofar Spec.sofarName Str.replaceChar
  rw [List.map_map]
  apply List.map_congr_left
  intro c _
  simp only [Function.comp]
  by_cases h : c = '.'
  · simp [h]
  · by_cases h2 : c = ':' <;> simp [h, h2]

theorem lowerTest_eq (t : Str) : lowerTest t = Spec.ruleValue t := by
  unfold lowerTest Spec.ruleValue
  by_cases h : Str.lower t ∈ [py% "cartesian", py% "spherical", py% "spherical harmonics"]
  · rw [if_pos (by simpa using h), if_pos h]
  · rw [if_neg (by simpa using h), if_neg h]

/-! ## Rules -/

theorem hasAttr_data {o : Obj} {k : Str} (h1 : k ∉ publicMembers) (h2 : isPrivate k = false) :
    o.hasAttr k = true ↔ ∃ v, Dict.get? o.attrs k = some v := by
  rw [hasAttr_public o k h2]
  constructor
  · rintro (h | h)
    · exact (Dict.has_iff _ _).1 h
    · exact absurd h h1
  · intro h
    exact Or.inl ((Dict.has_iff _ _).2 h)

theorem generalRule_nil {o : Obj} {s k : Str} (hk : Spec.OrdinaryName (Spec.sofarName k)) :
    generalRule o s k = [] ↔ ∃ v, Dict.get? o.attrs (Spec.sofarName k) = some v := by
  unfold generalRule
  rw [toSofar_eq]
  by_cases h : o.hasAttr (Spec.sofarName k) = true
  · simp [h, (hasAttr_data hk.1 hk.2).1 h]
  · have : ¬ ∃ v, Dict.get? o.attrs (Spec.sofarName k) = some v := fun h' => h ((hasAttr_data hk.1 hk.2).2 h')
    simp [h, this]

theorem specificRule_nil {env : Env} {o : Obj} {s t : Str} {item : SpecItem}
    (hk : ∀ k ref, item = .dep k ref → Spec.OrdinaryName (Spec.sofarName k)) :
    specificRule env o s t item = .ok [] ↔ Spec.ItemHolds env.aliases o item := by
  cases item with
  | dims l =>
    simp only [specificRule, concatE_nil_iff, Spec.ItemHolds]
    constructor
    · intro h d sizes str hm
      have := h _ hm
      unfold dimRule at this
      cases hg : Dict.get? (o.api.getD []) d with
      | none => simp [hg] at this
      | some n =>
        simp only [hg] at this
        refine ⟨n, rfl, ?_⟩
        apply Classical.byContradiction
        intro hn
        simp [hn] at this
    · rintro h ⟨d, sizes, str⟩ hm
      obtain ⟨n, h1, h2⟩ := h d sizes str hm
      simp [dimRule, h1, h2]
  | dep k ref =>
    have hk' := hk k ref rfl
    simp only [specificRule, Spec.ItemHolds, toSofar_eq]
    by_cases h : o.hasAttr (Spec.sofarName k) = true
    · obtain ⟨v, hv⟩ := (hasAttr_data hk'.1 hk'.2).1 h
      simp only [h, Bool.not_true, Bool.false_eq_true, if_false, hv, getAttr_of_get hv, Option.some.injEq,
        exists_eq_left']
      cases ref with
      | none => simp
      | some r =>
        simp only [Option.some.injEq, forall_eq', ← verifyValue_true_iff]
        cases verifyValue env.aliases v (some r) (Spec.sofarName k) with
        | error e => simp
        | ok b => cases b <;> simp
    · have : ¬ ∃ v, Dict.get? o.attrs (Spec.sofarName k) = some v := fun h' => h ((hasAttr_data hk'.1 hk'.2).2 h')
      simp only [h, Bool.not_false, if_true]
      constructor
      · intro h; simp at h
      · rintro ⟨v, hv, _⟩; exact absurd ⟨v, hv⟩ this

theorem ruleKey_nil {env : Env} {o : Obj} {p : Str × Rule} (hk : Spec.OrdinaryRule p.1 p.2) :
    ruleKey env o p = .ok [] ↔ Spec.RuleHolds env.aliases o p.1 p.2 ∧
      (∀ v, Dict.get? o.attrs (Spec.sofarName p.1) = some v → p.2.specific ≠ none →
        (∀ a, v ≠ .arr a) ∧ v ≠ .dict) := by
  obtain ⟨key, rule⟩ := p
  unfold ruleKey Spec.RuleHolds
  simp only [toSofar_eq]
  by_cases h : o.hasAttr (Spec.sofarName key) = true
  · obtain ⟨v, hv⟩ := (hasAttr_data hk.name.1 hk.name.2).1 h
    simp only [h, Bool.not_true, Bool.false_eq_true, if_false, hv, getAttr_of_get hv, Option.some.injEq, forall_eq']
    have hval : verifyValue env.aliases v rule.value (Spec.sofarName key) = .ok true ↔
        ∀ l, rule.value = some l → Spec.Allowed env.aliases (Spec.sofarName key) v l := by
      cases hr : rule.value with
      | none => simp [verifyValue]
      | some l => simp [verifyValue_true_iff]
    have hgen : (rule.general.map (generalRule o (Spec.sofarName key))).flatten = [] ↔
        ∀ g ∈ rule.general, ∃ w, Dict.get? o.attrs (Spec.sofarName g) = some w := by
      rw [List.flatten_eq_nil_iff]
      constructor
      · intro h g hg
        exact (generalRule_nil (hk.general g hg)).1 (h _ (List.mem_map.2 ⟨g, hg, rfl⟩))
      · rintro h l hl
        obtain ⟨g, hg, rfl⟩ := List.mem_map.1 hl
        exact (generalRule_nil (hk.general g hg)).2 (h g hg)
    have hspec : (∃ items t, specificItems rule v = .ok (items, t) ∧
          concatE (specificRule env o (Spec.sofarName key) t) items = .ok []) ↔
        (∀ sp t items, rule.specific = some sp → Spec.text v = some t →
          Dict.get? sp (Spec.ruleValue t) = some items → ∀ i ∈ items, Spec.ItemHolds env.aliases o i) ∧
        (rule.specific ≠ none → (∀ a, v ≠ .arr a) ∧ v ≠ .dict) := by
      unfold specificItems
      cases hs : rule.specific with
      | none => exact ⟨fun _ => ⟨by simp, by simp⟩, fun _ => ⟨[], [], rfl, rfl⟩⟩
      | some sp =>
        rw [asStr_text]
        cases ht : Spec.text v with
        | none =>
          cases v with
          | str s => simp [Spec.text] at ht
          | npstr s => simp [Spec.text] at ht
          | arr a => simp
          | dict => simp
          | num k e => exact ⟨fun _ => ⟨by simp, by simp⟩, fun _ => ⟨[], [], rfl, rfl⟩⟩
          | obj t => exact ⟨fun _ => ⟨by simp, by simp⟩, fun _ => ⟨[], [], rfl, rfl⟩⟩
        | some t =>
          have hv' : (∀ a, v ≠ .arr a) ∧ v ≠ .dict := by cases v <;> simp_all [Spec.text]
          simp only [lowerTest_eq]
          cases hi : Dict.get? sp (Spec.ruleValue t) with
          | none =>
            refine ⟨fun _ => ⟨?_, fun _ => hv'⟩, fun _ => ⟨[], _, rfl, rfl⟩⟩
            rintro sp' t' items h1 h2 h3
            cases h1; cases h2
            simp [hi] at h3
          | some items =>
            constructor
            · rintro ⟨_, _, h0, h⟩
              cases h0
              refine ⟨?_, fun _ => hv'⟩
              rintro sp' t' items' h1 h2 h3 i hm
              cases h1; cases h2
              rw [hi] at h3
              cases h3
              exact (specificRule_nil (fun k ref e => hk.specific sp _ items hs hi k ref (e ▸ hm))).1
                ((concatE_nil_iff _ _).1 h i hm)
            · rintro ⟨h, _⟩
              exact ⟨_, _, rfl, (concatE_nil_iff _ _).2 fun i hm =>
                (specificRule_nil (fun k ref e => hk.specific sp _ items hs hi k ref (e ▸ hm))).2
                  (h sp t items rfl rfl hi i hm)⟩
    rw [and_assoc, and_assoc, ← hspec, ← hgen, ← hval]
    cases hvv : verifyValue env.aliases v rule.value (Spec.sofarName key) with
    | error e => simp
    | ok b =>
      cases hsi : specificItems rule v with
      | error e => simp
      | ok q =>
        obtain ⟨items, t⟩ := q
        simp only [Except.ok.injEq, Prod.mk.injEq]
        cases hc : concatE (specificRule env o (Spec.sofarName key) t) items with
        | error e =>
          constructor
          · intro h; simp at h
          · rintro ⟨_, _, i', t', ⟨rfl, rfl⟩, h⟩; simp [hc] at h
        | ok s3 =>
          cases b with
          | false => simp
          | true =>
            simp only [if_true, List.nil_append, List.append_eq_nil_iff, Except.ok.injEq, true_and]
            constructor
            · rintro ⟨h1, rfl⟩; exact ⟨h1, items, t, ⟨rfl, rfl⟩, hc⟩
            · rintro ⟨h1, i', t', ⟨rfl, rfl⟩, h⟩
              rw [hc] at h
              exact ⟨h1, by simpa using h⟩
  · have h0 : ¬ ∃ v, Dict.get? o.attrs (Spec.sofarName key) = some v :=
      fun h' => h ((hasAttr_data hk.name.1 hk.name.2).2 h')
    have : Dict.get? o.attrs (Spec.sofarName key) = none := by
      cases hg : Dict.get? o.attrs (Spec.sofarName key) with
      | none => rfl
      | some v => exact absurd ⟨v, hg⟩ h0
    simp [h, this]

theorem unitKey_nil {env : Env} {o : Obj} {k : Str} {v : Val} (h : Dict.get? o.attrs k = some v) :
    unitKey env o k = .ok [] ↔ ∃ u, Spec.text v = some u ∧ Str.lower u = u := by
  unfold unitKey
  rw [getAttr_of_get h]
  simp only [asStr_text]
  cases Spec.text v with
  | none => simp
  | some u => by_cases hu : Str.lower u = u <;> simp [hu]

theorem phaseRules_nil {env : Env} {o : Obj} {mode : Mode} (hk : ∀ p ∈ env.rules, Spec.OrdinaryRule p.1 p.2) :
    phaseRules env o mode = .ok [] ↔
      (∀ p ∈ env.rules, Spec.RuleHolds env.aliases o p.1 p.2 ∧
        (∀ v, Dict.get? o.attrs (Spec.sofarName p.1) = some v → p.2.specific ≠ none →
          (∀ a, v ≠ .arr a) ∧ v ≠ .dict)) ∧
      (mode = .write → ∀ k v, Dict.get? o.attrs k = some v → (py% "Units") <:+ k →
        ∃ u, Spec.text v = some u ∧ Str.lower u = u) := by
  have h1 : phaseRules env o mode = .ok [] ↔ concatE (ruleKey env o) env.rules = .ok [] ∧
      phaseUnits env o mode = .ok [] := by
    unfold phaseRules
    cases concatE (ruleKey env o) env.rules with
    | error e => simp
    | ok s1 =>
      cases phaseUnits env o mode with
      | error e => simp
      | ok s2 => simp [section_nil_iff]
  rw [h1, concatE_nil_iff]
  apply and_congr
  · constructor
    · intro h p hp; exact (ruleKey_nil (hk p hp)).1 (h p hp)
    · intro h p hp; exact (ruleKey_nil (hk p hp)).2 (h p hp)
  · cases mode with
    | read => simp [phaseUnits]
    | write =>
      simp only [phaseUnits, concatE_nil_iff, List.mem_filter, forall_const]
      constructor
      · intro h k v hv hu
        exact (unitKey_nil hv).1 (h k ⟨mem_keys_of_get hv, by
          unfold Str.endsWith; exact List.isSuffixOf_iff_suffix.2 hu⟩)
      · rintro h k ⟨hm, hu⟩
        obtain ⟨v, hv⟩ := get_of_mem_keys hm
        exact (unitKey_nil hv).2 (h k v hv (by unfold Str.endsWith at hu; exact List.isSuffixOf_iff_suffix.1 hu))

end Sofar
