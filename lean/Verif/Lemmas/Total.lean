import Verif.Spec.Checkable
import Verif.Lemmas.Dims
import Verif.Lemmas.Names
/-!
# Verification of objects that can be checked does not crash
-/
namespace Sofar

theorem concatE_total {α : Type} {f : α → Except Exc Str} {l : List α} (h : ∀ x ∈ l, ∃ s, f x = .ok s) :
    ∃ s, concatE f l = .ok s := by
  induction l with
  | nil => exact ⟨[], rfl⟩
  | cons x l ih =>
    obtain ⟨s, hs⟩ := h x (by simp)
    obtain ⟨t, ht⟩ := ih (fun y hy => h y (by simp [hy]))
    exact ⟨s ++ t, by simp [concatE, hs, ht]⟩

theorem phaseTypes_total {env : Env} {o : Obj} {keys : List Str}
    (h : ∀ k ∈ keys, ∃ e v, Dict.get? o.conv k = some e ∧ Dict.get? o.attrs k = some v) :
    ∃ s, phaseTypes env o keys = .ok s := by
  unfold phaseTypes
  obtain ⟨s, hs⟩ := concatE_total (f := typeErrorKey env o) (l := keys) (by
    intro k hk
    obtain ⟨e, v, he, hv⟩ := h k hk
    simp only [typeErrorKey, convEntry, he, getAttr_of_get hv]
    exact ⟨_, rfl⟩)
  rw [hs]
  exact ⟨_, rfl⟩

theorem phaseNames_total {o : Obj} {keys : List Str} (h : ∀ k ∈ keys, ∃ e, Dict.get? o.conv k = some e) :
    ∃ s, phaseNames o keys = .ok s := by
  have a1 : ∃ s, concatE (nameNoVariable o) keys = .ok s := concatE_total fun k hk => by
    obtain ⟨e, he⟩ := h k hk
    simp only [nameNoVariable, convEntry, he]
    split
    · exact ⟨_, rfl⟩
    · split
      · exact ⟨_, rfl⟩
      · split <;> exact ⟨_, rfl⟩
  have a2 : ∃ s, concatE (nameNoUnderscore o) keys = .ok s := concatE_total fun k hk => by
    obtain ⟨e, he⟩ := h k hk
    simp only [nameNoUnderscore, convEntry, he]
    split <;> exact ⟨_, rfl⟩
  have a3 : ∃ s, concatE (nameVariable o) keys = .ok s := concatE_total fun k hk => by
    obtain ⟨e, he⟩ := h k hk
    simp only [nameVariable, convEntry, he]
    split <;> exact ⟨_, rfl⟩
  have a4 : ∃ s, concatE (nameReserved o) keys = .ok s := concatE_total fun k hk => by
    obtain ⟨e, he⟩ := h k hk
    simp only [nameReserved, convEntry, he]
    split
    · split
      · exact ⟨_, rfl⟩
      · split <;> exact ⟨_, rfl⟩
    · exact ⟨_, rfl⟩
  obtain ⟨s1, h1⟩ := a1
  obtain ⟨s2, h2⟩ := a2
  obtain ⟨s3, h3⟩ := a3
  obtain ⟨s4, h4⟩ := a4
  simp only [phaseNames, h1, h2, h3, h4]
  exact ⟨_, rfl⟩

/-! ## Dimensions -/

theorem stringVar_total {v : Val} (h : Spec.TextColumn v) (key : Str) : ∃ p, stringVar v key = .ok p := by
  rcases h with (⟨s, rfl⟩ | ⟨s, rfl⟩) | ⟨a, n, rest, rfl, hs, hn, hr, h1, hd⟩
  · exact ⟨_, rfl⟩
  · exact ⟨_, rfl⟩
  · have hm : ∃ lens, a.data.mapM elemLen = some lens := by
      generalize a.data = l at hd
      induction l with
      | nil => exact ⟨[], rfl⟩
      | cons x l ih =>
        obtain ⟨s, rfl⟩ := hd x (by simp)
        obtain ⟨t, ht⟩ := ih (fun y hy => hd y (by simp [hy]))
        exact ⟨s.length :: t, by simp [List.mapM_cons, elemLen, ht]⟩
    obtain ⟨lens, hl⟩ := hm
    have hz : a.size ≠ 0 := by
      unfold Arr.size
      rw [hs, prod_eq]
      simp only [Spec.prod]
      exact Nat.mul_ne_zero hn hr
    simp only [stringVar, hl, hz, if_false, hs]
    rw [prod_eq, if_pos h1]
    exact ⟨_, rfl⟩

theorem isLower_upper {x : Char} (h : Str.isLowerC x = true) : 65 ≤ (Str.upperC x).toNat ∧ (Str.upperC x).toNat ≤ 90 := by
  unfold Str.isLowerC at h
  unfold Str.upperC
  simp only [Bool.and_eq_true, decide_eq_true_eq] at h
  rw [if_pos h]
  have e1 : 'a'.toNat = 97 := rfl
  have e2 : 'z'.toNat = 122 := rfl
  rw [ofNat_toNat (by omega)]
  omega

theorem Sized.letter {o : Obj} {c : Char} (h : Spec.Sized o c) : 65 ≤ c.toNat ∧ c.toNat ≤ 90 := by
  rcases h with rfl | rfl | rfl | ⟨k, v, e, d, a, x, _, _, _, hl, rfl⟩
  · decide
  · decide
  · decide
  · exact isLower_upper hl

/-- letters whose size is defined in the loop over the letters of a variable -/
theorem dimLetters_total {v : Val} {key : Str} {idx : Nat} {s : Str} {st : Dict Nat × Nat} (hl : idx + s.length ≤ 4)
    (hs : 'S' ∈ s → Spec.TextColumn v) :
    (dimLetters v key idx s st).1 = .ok () ∧
    (∀ k, Dict.has st.1 k = true → Dict.has (dimLetters v key idx s st).2.1 k = true) ∧
    (∀ x ∈ s, Str.isLowerC x = true → Dict.has (dimLetters v key idx s st).2.1 [Str.upperC x] = true) := by
  induction s generalizing idx st with
  | nil => simp [dimLetters]
  | cons d ds ih =>
    obtain ⟨api, S⟩ := st
    simp only [dimLetters]
    have hlt : idx < (Arr.ndNewaxisShape 4 v.shape).length := by
      unfold Arr.ndNewaxisShape Arr.padOnes
      simp only [List.length_append, List.length_replicate]
      simp only [List.length_cons] at hl
      omega
    generalize hr : (if (!(py% "ICS").contains d && Str.isLowerC d) = true then
        match (Arr.ndNewaxisShape 4 v.shape)[idx]? with
        | some n => .ok (Dict.put api [Str.upperC d] n)
        | none => .error .indexError
      else .ok api : Except Exc (Dict Nat)) = r
    have hapi : ∃ api', r = .ok api' ∧ (∀ k, Dict.has api k = true → Dict.has api' k = true) ∧
        (Str.isLowerC d = true → Dict.has api' [Str.upperC d] = true) := by
      rw [← hr]
      by_cases hlow : Str.isLowerC d = true
      · have hn : (py% "ICS").contains d = false := by
          apply Bool.eq_false_iff.2
          intro hm
          rw [List.contains_iff_mem] at hm
          simp only [List.mem_cons, List.not_mem_nil, or_false] at hm
          rcases hm with rfl | rfl | rfl <;> simp [Str.isLowerC] at hlow
        rw [List.getElem?_eq_getElem hlt]
        simp only [hn, hlow, Bool.not_false, Bool.and_self, if_true]
        refine ⟨_, rfl, ?_, ?_⟩
        · intro k hk
          rw [Dict.has_put]
          simp [hk]
        · intro _
          rw [Dict.has_put]
          simp
      · have : (!(py% "ICS").contains d && Str.isLowerC d) = false := by simp [hlow]
        rw [this]
        exact ⟨api, rfl, fun _ h => h, fun h => absurd h hlow⟩
    obtain ⟨api', rfl, h1, h2⟩ := hapi
    simp only
    have hl' : idx + 1 + ds.length ≤ 4 := by simp only [List.length_cons] at hl; omega
    have hs' : 'S' ∈ ds → Spec.TextColumn v := fun h => hs (by simp [h])
    have fin : ∀ S', (dimLetters v key (idx + 1) ds (api', S')).1 = .ok () ∧
        (∀ k, Dict.has api k = true → Dict.has (dimLetters v key (idx + 1) ds (api', S')).2.1 k = true) ∧
        (∀ x ∈ d :: ds, Str.isLowerC x = true →
          Dict.has (dimLetters v key (idx + 1) ds (api', S')).2.1 [Str.upperC x] = true) := by
      intro S'
      obtain ⟨b1, b2, b3⟩ := ih (idx := idx + 1) (st := (api', S')) hl' hs'
      refine ⟨b1, fun k hk => b2 k (h1 k hk), ?_⟩
      intro x hx hlow
      rcases List.mem_cons.1 hx with rfl | hx
      · exact b2 _ (h2 hlow)
      · exact b3 x hx hlow
    by_cases hd : d = 'S'
    · obtain ⟨⟨n, sh⟩, hp⟩ := stringVar_total (hs (by simp [hd])) key
      simp only [hd, if_true, hp]
      subst hd
      exact fin _
    · simp only [hd, if_false]
      exact fin _

theorem dimLoop_total {o : Obj} {ks : List Str} {st : Dict Nat × Nat}
    (hk : ∀ k ∈ ks, ∃ v e d, Spec.VariableWith o k v e d) (hc : Spec.Checkable o) :
    (dimLoop o ks st).1 = .ok () ∧
    (∀ k, Dict.has st.1 k = true → Dict.has (dimLoop o ks st).2.1 k = true) ∧
    (∀ k ∈ ks, ∀ v e d, Spec.VariableWith o k v e d → ∀ x ∈ firstAlt d, Str.isLowerC x = true →
      Dict.has (dimLoop o ks st).2.1 [Str.upperC x] = true) := by
  induction ks generalizing st with
  | nil => simp [dimLoop]
  | cons k ks ih =>
    obtain ⟨v, e, d, hv⟩ := hk k (by simp)
    have hf := isFirst_firstAlt d
    simp only [dimLoop, convEntry, entryDims, getAttr_of_get hv.value, hv.entry, hv.dims]
    obtain ⟨a1, a2, a3⟩ := dimLetters_total (v := v) (key := k) (idx := 0) (s := firstAlt d) (st := st)
      (by have := hc.four k v e d _ hv hf; omega) (fun h => hc.texts k v e d _ hv hf (Or.inr (Or.inr h)))
    simp only [a1]
    obtain ⟨b1, b2, b3⟩ := ih (st := (dimLetters v k 0 (firstAlt d) st).2) (fun j hj => hk j (by simp [hj]))
    refine ⟨b1, fun j hj => b2 j (a2 j hj), ?_⟩
    intro j hj v' e' d' hv' x hx hlow
    rcases List.mem_cons.1 hj with rfl | hj
    · have h1 := hv.value; have h2 := hv.entry; have h3 := hv.dims
      have g2 := hv'.entry; have g3 := hv'.dims
      rw [h2] at g2
      cases g2
      rw [h3] at g3
      cases g3
      exact b2 _ (a3 x hx hlow)
    · exact b3 j hj v' e' d' hv' x hx hlow

theorem dimKeys_variable {o : Obj} (hc : Spec.Checkable o) : ∀ k ∈ dimKeys o, ∃ v e d, Spec.VariableWith o k v e d := by
  intro k hk
  unfold dimKeys at hk
  rcases List.mem_append.1 hk with hk | hk
  · rw [List.mem_filter] at hk
    obtain ⟨hk, hd⟩ := hk
    obtain ⟨v, hv⟩ := get_of_mem_keys hk
    cases he : Dict.get? o.conv k with
    | none => simp [he] at hd
    | some e =>
      simp only [he] at hd
      obtain ⟨d, hd⟩ := Option.isSome_iff_exists.1 hd
      exact ⟨v, e, d, hv, he, hd⟩
  · cases hcu : o.custom with
    | none => simp [hcu] at hk
    | some c =>
      simp only [hcu, List.mem_map, List.mem_filter, Bool.and_eq_true] at hk
      obtain ⟨⟨k', e⟩, ⟨hm, _, hd⟩, rfl⟩ := hk
      exact hc.custom c k' e hcu hm (by intro h; simp [h] at hd)

/-- the sizes that are found -/
theorem phaseDims_total {o : Obj} (hc : Spec.Checkable o) :
    (phaseDims o).1 = .ok () ∧ ∃ api, (phaseDims o).2 = { o with prot := true, dims := some [], api := some api } ∧
      ApiOk o api ∧ ∀ c, Spec.Sized o c → ∃ n, Dict.get? api [c] = some n := by
  obtain ⟨a1, a2, a3⟩ := dimLoop_total (st := ([], 0)) (dimKeys_variable hc) hc
  have hok : (phaseDims o).1 = .ok () := by
    unfold phaseDims
    simp only [a1]
  refine ⟨hok, ?_⟩
  obtain ⟨api, h1, h2⟩ := phaseDims_ok hok
  refine ⟨api, h1, h2, ?_⟩
  have hapi : api = Dict.put (Dict.put (Dict.put (dimLoop o (dimKeys o) ([], 0)).2.1 (py% "C") 3) (py% "I") 1)
      (py% "S") (dimLoop o (dimKeys o) ([], 0)).2.2 := by
    have h3 := congrArg Obj.api h1
    unfold phaseDims at h3
    simp only [a1, Option.some.injEq] at h3
    exact h3.symm
  intro c hs
  rw [← Dict.has_iff, hapi]
  simp only [Dict.has_put]
  rcases hs with rfl | rfl | rfl | ⟨k, v, e, d, a, x, hv, ha, hx, hl, rfl⟩
  · simp
  · simp
  · simp
  · have := a3 k (dimKeys_mem hv.value hv.entry hv.dims) v e d hv x (by rw [firstAlt_of_isFirst ha]; exact hx) hl
    simp [this]

/-! ## Shapes -/

theorem refShape_total {api : Dict Nat} {a : Str} (h : ∀ c ∈ a, ∃ n, Dict.get? api [Str.upperC c] = some n) :
    ∃ r, refShape api a = .ok r := by
  induction a with
  | nil => exact ⟨[], rfl⟩
  | cons c a ih =>
    obtain ⟨n, hn⟩ := h c (by simp)
    obtain ⟨r, hr⟩ := ih (fun x hx => h x (by simp [hx]))
    simp only [refShape, hn, hr]
    by_cases hS : c = 'S' <;> simp [hS]

theorem matchShape_total {api : Dict Nat} {act last : List Nat} {alts : List Str}
    (h : ∀ a ∈ alts, ∀ c ∈ a, ∃ n, Dict.get? api [Str.upperC c] = some n) :
    ∃ r, matchShape api act last alts = .ok r := by
  induction alts generalizing last with
  | nil => exact ⟨_, rfl⟩
  | cons a l ih =>
    obtain ⟨r, hr⟩ := refShape_total (h a (by simp))
    simp only [matchShape, hr]
    split
    · exact ⟨_, rfl⟩
    · exact ih (fun b hb => h b (by simp [hb]))

theorem verboseDim_total {api : Dict Nat} {a : Str} (h : ∀ c ∈ a, ∃ n, Dict.get? api [c] = some n) :
    ∃ r, verboseDim api a = .ok r := by
  induction a with
  | nil => exact ⟨[], rfl⟩
  | cons c a ih =>
    obtain ⟨n, hn⟩ := h c (by simp)
    obtain ⟨r, hr⟩ := ih (fun x hx => h x (by simp [hx]))
    simp only [verboseDim, hn, hr]
    exact ⟨_, rfl⟩

theorem verboseDims_total {api : Dict Nat} {l : List Str} (h : ∀ a ∈ l, ∀ c ∈ a, ∃ n, Dict.get? api [c] = some n) :
    ∃ r, verboseDims api l = .ok r := by
  induction l with
  | nil => exact ⟨[], rfl⟩
  | cons a l ih =>
    obtain ⟨n, hn⟩ := verboseDim_total (h a (by simp))
    obtain ⟨r, hr⟩ := ih (fun x hx => h x (by simp [hx]))
    simp only [verboseDims, hn, hr]
    exact ⟨_, rfl⟩

theorem splitChar_mem {c x : Char} {s a : Str} (ha : a ∈ Str.splitChar c s) (hx : x ∈ a) : x ∈ s ∧ x ≠ c := by
  induction s generalizing a with
  | nil => simp [Str.splitChar] at ha; simp [ha] at hx
  | cons d s ih =>
    simp only [Str.splitChar] at ha
    by_cases h : d = c
    · simp only [h, if_true, List.mem_cons] at ha
      rcases ha with rfl | ha
      · simp at hx
      · obtain ⟨h1, h2⟩ := ih ha hx
        exact ⟨by simp [h1], h2⟩
    · simp only [h, if_false] at ha
      cases hs : Str.splitChar c s with
      | nil =>
        simp only [hs, Str.consHead, List.mem_cons, List.not_mem_nil, or_false] at ha
        subst ha
        simp only [List.mem_cons, List.not_mem_nil, or_false] at hx
        subst hx
        exact ⟨by simp, h⟩
      | cons b l =>
        simp only [hs, Str.consHead, List.mem_cons] at ha
        rcases ha with rfl | ha
        · rcases List.mem_cons.1 hx with rfl | hx
          · exact ⟨by simp, h⟩
          · obtain ⟨h1, h2⟩ := ih (a := b) (by simp [hs]) hx
            exact ⟨by simp [h1], h2⟩
        · obtain ⟨h1, h2⟩ := ih (a := a) (by simp [hs, ha]) hx
          exact ⟨by simp [h1], h2⟩

theorem mem_splitCommaSpace {x : Char} {s : Str} (hx : x ∈ s) :
    x = ',' ∨ x = ' ' ∨ ∃ a ∈ Str.splitCommaSpace s, x ∈ a := by
  have key : ∀ l : List Str, x ∈ Str.join (py% ", ") l → x = ',' ∨ x = ' ' ∨ ∃ a ∈ l, x ∈ a := by
    intro l
    induction l with
    | nil => simp [Str.join]
    | cons a l ih =>
      cases l with
      | nil => intro h; exact Or.inr (Or.inr ⟨a, by simp, by simpa [Str.join] using h⟩)
      | cons b l =>
        intro h
        simp only [Str.join, List.mem_append, List.mem_cons, List.not_mem_nil, or_false] at h
        rcases h with (h | h) | h
        · exact Or.inr (Or.inr ⟨a, by simp, h⟩)
        · rcases h with h | h
          · exact Or.inl h
          · exact Or.inr (Or.inl h)
        · rcases ih h with h | h | ⟨y, hy, hxy⟩
          · exact Or.inl h
          · exact Or.inr (Or.inl h)
          · exact Or.inr (Or.inr ⟨y, by simp at hy ⊢; right; exact hy, hxy⟩)
  rw [← join_splitCommaSpace s] at hx
  exact key _ hx

theorem actualShape_total {o : Obj} (hc : Spec.Checkable o) {k : Str} {v : Val} {e : Entry} {d : Str}
    (hv : Spec.VariableWith o k v e d) : ∃ act, actualShape k e.typ d v = .ok act := by
  unfold actualShape
  by_cases ht : e.typ = py% "attribute" ∨ e.typ = py% "string"
  · obtain ⟨p, hp⟩ := stringVar_total (hc.texts k v e d _ hv (isFirst_firstAlt d)
      (by rcases ht with h | h <;> simp [h])) k
    exact ⟨p.2, by rw [if_pos ht, hp]⟩
  · rw [if_neg ht]
    split <;> exact ⟨_, rfl⟩

theorem upperC_comma {c : Char} (h : c = ',' ∨ c = ' ') : Str.upperC c = c := by
  rcases h with rfl | rfl <;> decide

theorem shapeKey_total {o : Obj} (hc : Spec.Checkable o) {api : Dict Nat}
    (ha : ∀ c, Spec.Sized o c → ∃ n, Dict.get? api [c] = some n) {k : Str} {v : Val} {e : Entry} {d : Str}
    (hv : Spec.VariableWith o k v e d) : ∃ r, shapeKey o api k = .ok r := by
  unfold shapeKey
  obtain ⟨act, hact⟩ := actualShape_total hc hv
  have hl : ∀ a ∈ Str.splitCommaSpace d, ∀ c ∈ a, ∃ n, Dict.get? api [Str.upperC c] = some n := by
    intro a ha' c hc'
    exact ha _ (hc.sized k v e d a hv (isAlternative_of_mem ha') c hc')
  obtain ⟨r, hr⟩ := matchShape_total (act := act) (last := []) hl
  simp only [convEntry, hv.entry, getAttr_of_get hv.value, entryDims, hv.dims, hact, hr]
  cases r with
  | inl m => exact ⟨_, rfl⟩
  | inr s =>
    obtain ⟨l, hl'⟩ := verboseDims_total (api := api) (l := Str.splitChar ',' ((Str.upper d).filter (· ≠ ' '))) (by
      intro a ha' c hc'
      obtain ⟨h1, h2⟩ := splitChar_mem ha' hc'
      simp only [Str.upper, List.mem_filter, List.mem_map, ne_eq, decide_eq_true_eq] at h1
      obtain ⟨⟨x, hx, rfl⟩, h3⟩ := h1
      rcases mem_splitCommaSpace hx with h | h | ⟨b, hb, hxb⟩
      · exact absurd (by rw [upperC_comma (Or.inl h), h]) h2
      · exact absurd (by rw [upperC_comma (Or.inr h), h]) h3
      · exact hl b hb x hxb)
    simp only [hl']
    exact ⟨_, rfl⟩

theorem shapeLoop_total {o : Obj} {api : Dict Nat} {ks : List Str} {dims : Dict Str}
    (h : ∀ k ∈ ks, ∃ r, shapeKey o api k = .ok r) : ∃ s, (shapeLoop o api ks dims).1 = .ok s := by
  induction ks generalizing dims with
  | nil => exact ⟨[], rfl⟩
  | cons k ks ih =>
    obtain ⟨r, hr⟩ := h k (by simp)
    have ih' := fun dims => ih (dims := dims) (fun j hj => h j (by simp [hj]))
    simp only [shapeLoop, hr]
    cases r with
    | inl m => exact ih' _
    | inr s =>
      obtain ⟨t, ht⟩ := ih' dims
      exact ⟨s ++ t, by simp only [ht]⟩

theorem Checkable.same {o o' : Obj} (hc : Spec.Checkable o) (h1 : o'.attrs = o.attrs) (h2 : o'.conv = o.conv)
    (h3 : o'.custom = o.custom) : Spec.Checkable o' := by
  have hv : ∀ {k v e d}, Spec.VariableWith o' k v e d ↔ Spec.VariableWith o k v e d := by
    intro k v e d
    exact ⟨fun h => ⟨h1 ▸ h.value, h2 ▸ h.entry, h.dims⟩, fun h => ⟨h1.symm ▸ h.value, h2.symm ▸ h.entry, h.dims⟩⟩
  refine ⟨?_, ?_, ?_, ?_, ?_, ?_⟩
  · rw [h1, h2]; exact hc.known
  · rw [h3]; simpa only [hv] using hc.custom
  · simpa only [hv] using hc.texts
  · simpa only [hv] using hc.four
  · have hs := hc.sized; unfold Spec.Sized at hs ⊢; simpa only [hv] using hs
  · rw [h1]; exact hc.version

theorem Sized.same {o o' : Obj} (h1 : o'.attrs = o.attrs) (h2 : o'.conv = o.conv) {c : Char} :
    Spec.Sized o' c ↔ Spec.Sized o c := by
  have hv : ∀ {k v e d}, Spec.VariableWith o' k v e d ↔ Spec.VariableWith o k v e d := by
    intro k v e d
    exact ⟨fun h => ⟨h1 ▸ h.value, h2 ▸ h.entry, h.dims⟩, fun h => ⟨h1.symm ▸ h.value, h2.symm ▸ h.entry, h.dims⟩⟩
  unfold Spec.Sized
  simp only [hv]

theorem phaseShapes_total {o : Obj} (hc : Spec.Checkable o) {api : Dict Nat} (hapi : o.api = some api)
    (ha : ∀ c, Spec.Sized o c → ∃ n, Dict.get? api [c] = some n) : ∃ s, (phaseShapes o).1 = .ok s := by
  unfold phaseShapes
  simp only [hapi, Option.getD_some]
  obtain ⟨s, hs⟩ := shapeLoop_total (o := o) (api := api) (ks := dimKeys o) (dims := []) (by
    intro k hk
    obtain ⟨v, e, d, hv⟩ := dimKeys_variable hc k hk
    exact shapeKey_total hc ha hv)
  simp only [hs]
  exact ⟨_, rfl⟩

/-! ## Rules -/

theorem verifyValue_total {aliases : Dict Str} {v : Val} {ref : Option (List Str)} {k t : Str}
    (ht : ref ≠ none → Spec.text v = some t) (hu : ∀ l, ref = some l → (py% "Units") <:+ k → ∃ r, l = [r]) :
    ∃ b, verifyValue aliases v ref k = .ok b := by
  cases ref with
  | none => exact ⟨true, rfl⟩
  | some l =>
    unfold verifyValue
    rw [asStr_text, ht (by simp)]
    simp only
    split
    · exact ⟨_, rfl⟩
    · split
      · exact ⟨_, rfl⟩
      · split
        · exact ⟨_, rfl⟩
        · split
          · rename_i hs
            obtain ⟨r, rfl⟩ := hu l rfl (by unfold Str.endsWith at hs; exact List.isSuffixOf_iff_suffix.1 hs)
            exact verifyUnit_total _ _ _
          · exact ⟨_, rfl⟩

/-- every value has the type of the convention -/
def Typed (o : Obj) : Prop :=
  ∀ k v, Dict.get? o.attrs k = some v → ∃ e, Dict.get? o.conv k = some e ∧ Spec.HasType e.typ v

theorem Typed.text {o : Obj} (h : Typed o) {k : Str} {v : Val} (hv : Dict.get? o.attrs k = some v)
    (ha : ∀ e, Dict.get? o.conv k = some e → e.typ = py% "attribute") : ∃ t, Spec.text v = some t := by
  obtain ⟨e, he, ht⟩ := h k v hv
  have := ha e he
  rcases ht with ⟨_, h1⟩ | ⟨h1, _⟩ | ⟨h1, _⟩
  · rcases h1 with ⟨s, rfl⟩ | ⟨s, rfl⟩ <;> exact ⟨s, rfl⟩
  · rw [this] at h1; exact absurd h1 (by decide)
  · rw [this] at h1; exact absurd h1 (by decide)

theorem specificRule_total {env : Env} {o : Obj} {s t : Str} {item : SpecItem} (htyped : Typed o)
    (hk : ∀ k ref, item = .dep k ref → Spec.OrdinaryName (Spec.sofarName k))
    (hd : ∀ l d sizes str, item = .dims l → (d, sizes, str) ∈ l → ∃ n, Dict.get? (o.api.getD []) d = some n)
    (hv : ∀ k l, item = .dep k (some l) →
      (∀ e, Dict.get? o.conv (Spec.sofarName k) = some e → e.typ = py% "attribute") ∧
      ((py% "Units") <:+ Spec.sofarName k → ∃ r, l = [r])) :
    ∃ r, specificRule env o s t item = .ok r := by
  cases item with
  | dims l =>
    simp only [specificRule]
    apply concatE_total
    rintro ⟨d, sizes, str⟩ hm
    obtain ⟨n, hn⟩ := hd l d sizes str rfl hm
    simp only [dimRule, hn]
    split <;> exact ⟨_, rfl⟩
  | dep k ref =>
    have hk' := hk k ref rfl
    simp only [specificRule, toSofar_eq]
    by_cases h : o.hasAttr (Spec.sofarName k) = true
    · obtain ⟨v, hv'⟩ := (hasAttr_data hk'.1 hk'.2).1 h
      simp only [h, Bool.not_true, Bool.false_eq_true, if_false]
      cases ref with
      | none => exact ⟨_, rfl⟩
      | some l =>
        obtain ⟨h1, h2⟩ := hv k l rfl
        obtain ⟨tv, htv⟩ := htyped.text hv' h1
        obtain ⟨b, hb⟩ := verifyValue_total (aliases := env.aliases) (v := v) (ref := some l) (k := Spec.sofarName k)
          (fun _ => htv) (by rintro l' hl'; cases hl'; exact h2)
        simp only [getAttr_of_get hv', hb]
        cases b <;> exact ⟨_, rfl⟩
    · simp only [h, Bool.not_false, if_true]
      exact ⟨_, rfl⟩

theorem phaseRules_total {env : Env} {o : Obj} (hr : Spec.RegularRules env o) (htyped : Typed o) {api : Dict Nat}
    (hapi : o.api = some api) (ha : ∀ c, Spec.Sized o c → ∃ n, Dict.get? api [c] = some n) (mode : Mode) :
    ∃ s, phaseRules env o mode = .ok s := by
  have h1 : ∃ s, concatE (ruleKey env o) env.rules = .ok s := by
    apply concatE_total
    rintro ⟨key, rule⟩ hp
    have hk := hr.ordinary _ hp
    unfold ruleKey
    simp only [toSofar_eq]
    by_cases h : o.hasAttr (Spec.sofarName key) = true
    · obtain ⟨v, hv⟩ := (hasAttr_data hk.name.1 hk.name.2).1 h
      simp only [h, Bool.not_true, Bool.false_eq_true, if_false, getAttr_of_get hv]
      have htext : rule.value ≠ none ∨ rule.specific ≠ none → ∃ t, Spec.text v = some t :=
        fun hn => htyped.text hv (hr.typed key rule hp hn)
      have hval : ∃ b, verifyValue env.aliases v rule.value (Spec.sofarName key) = .ok b := by
        by_cases hn : rule.value = none
        · exact ⟨true, by rw [hn]; rfl⟩
        · obtain ⟨t, ht⟩ := htext (Or.inl hn)
          exact verifyValue_total (fun _ => ht) (fun l hl hu => hr.unit key rule l hp hl hu)
      obtain ⟨b, hb⟩ := hval
      simp only [hb]
      have hitems : ∃ items t, specificItems rule v = .ok (items, t) ∧
          ∀ i ∈ items, ∃ r, specificRule env o (Spec.sofarName key) t i = .ok r := by
        unfold specificItems
        cases hs : rule.specific with
        | none => exact ⟨[], [], rfl, by simp⟩
        | some sp =>
          obtain ⟨t, ht⟩ := htext (Or.inr (by simp [hs]))
          simp only [asStr_text, ht, lowerTest_eq]
          refine ⟨_, _, rfl, ?_⟩
          intro i hi
          cases hg : Dict.get? sp (Spec.ruleValue t) with
          | none => simp [hg] at hi
          | some items =>
            simp only [hg, Option.getD_some] at hi
            obtain ⟨g1, g2⟩ := hr.items key rule v t sp items hp hv ht hs hg
            refine specificRule_total htyped ?_ ?_ ?_
            · rintro k ref rfl
              exact hk.specific sp _ items hs hg k ref hi
            · rintro l d sizes str rfl hm
              obtain ⟨c, rfl, hc⟩ := g2 l d sizes str hi hm
              rw [hapi]
              exact ha c hc
            · rintro k l rfl
              exact g1 k l hi
      obtain ⟨items, t, hi, hall⟩ := hitems
      simp only [hi]
      obtain ⟨s3, h3⟩ := concatE_total hall
      simp only [h3]
      exact ⟨_, rfl⟩
    · simp only [h, Bool.not_false, if_true]
      exact ⟨_, rfl⟩
  have h2 : ∃ s, phaseUnits env o mode = .ok s := by
    cases mode with
    | read => exact ⟨[], rfl⟩
    | write =>
      apply concatE_total
      intro k hk
      rw [List.mem_filter] at hk
      obtain ⟨hk, hu⟩ := hk
      obtain ⟨v, hv⟩ := get_of_mem_keys hk
      obtain ⟨t, ht⟩ := htyped.text hv (fun e he => hr.units k e hk he (by
        unfold Str.endsWith at hu; exact List.isSuffixOf_iff_suffix.1 hu))
      simp only [unitKey, getAttr_of_get hv, asStr_text, ht]
      split <;> exact ⟨_, rfl⟩
  obtain ⟨s1, e1⟩ := h1
  obtain ⟨s2, e2⟩ := h2
  simp only [phaseRules, e1, e2]
  exact ⟨_, rfl⟩

theorem RegularRules.same {env : Env} {o o' : Obj} (h : Spec.RegularRules env o) (h1 : o'.attrs = o.attrs)
    (h2 : o'.conv = o.conv) : Spec.RegularRules env o' := by
  refine ⟨h.ordinary, ?_, h.unit, ?_, ?_⟩
  · rw [h2]; exact h.typed
  · rw [h1, h2]
    simpa only [Sized.same h1 h2] using h.items
  · rw [h1, h2]; exact h.units

/-! ## Deprecations and the whole method -/

theorem phaseDeprecations_total {env : Env} {o : Obj} {mode : Mode} {cv : Val}
    (hc : Dict.get? o.attrs (py% "GLOBAL_SOFAConventions") = some cv)
    (hv : ∃ v t q, Dict.get? o.attrs (py% "GLOBAL_SOFAConventionsVersion") = some v ∧ Spec.text v = some t ∧
      pyFloat t = some q) : ∃ e w, phaseDeprecations env o mode = .ok (e, w) := by
  obtain ⟨v, t, q, h1, h2, h3⟩ := hv
  have hp : ∃ p, preliminaryText env v = .ok p := by
    have hf : valFloat v = .ok q := by
      cases v <;> simp_all [Spec.text, valFloat]
    simp only [preliminaryText, hf]
    split <;> exact ⟨_, rfl⟩
  obtain ⟨p, hp⟩ := hp
  simp only [phaseDeprecations, getAttr_of_get hc, getAttr_of_get h1, hp]
  cases mode <;> exact ⟨_, _, rfl⟩

/-- The outcome is a regular return, or a report is raised. -/
def Regular (ih : IH) (out : Except Exc (Option Str)) : Prop :=
  (∃ r, out = .ok r) ∨ (ih = .raise ∧ ∃ t, out = .error (.valueError (errorHeader ++ t)))

theorem handle_regular (w e : Str) (ih : IH) :
    (∃ x, (handleIssues w e ih).out = .ok x) ∨
      (ih = .raise ∧ ∃ t, (handleIssues w e ih).out = .error (.valueError (errorHeader ++ t))) := by
  by_cases he : e = []
  · obtain ⟨i, hi⟩ := handle_noerr w ih
    exact Or.inl ⟨_, he ▸ hi⟩
  · by_cases hr : ih = .raise
    · subst hr
      exact Or.inr ⟨rfl, e, handle_raise_err w e he⟩
    · exact Or.inl ⟨_, handle_err w e ih he hr⟩

theorem verifyEarly_regular (o : Obj) (ih : IH) (e : Str) : Regular ih (verifyEarly o ih e).out := by
  unfold verifyEarly
  simp only
  rcases handle_regular [] e ih with ⟨x, hx⟩ | ⟨hr, t, ht⟩
  · simp only [hx]
    exact Or.inl ⟨_, rfl⟩
  · simp only [ht]
    exact Or.inr ⟨hr, t, rfl⟩

/-- what is needed besides checkable data -/
structure Ready (inner : Inner) (env : Env) (o : Obj) : Prop where
  check : Spec.Checkable o
  rules : Spec.RegularRules env o
  conv : ∃ cv, Dict.get? o.attrs (py% "GLOBAL_SOFAConventions") = some cv
  inner : o.custom ≠ none → ∃ n, inner.out = .ok n

theorem keys_known {o : Obj} (hc : Spec.Checkable o) : ∀ k ∈ o.keys, ∃ e, Dict.get? o.conv k = some e := hc.known

theorem customNames_total {inner : Inner} {o : Obj} (h : o.custom ≠ none → ∃ n, inner.out = .ok n) :
    ∃ s, (phaseCustomNames inner o).1 = .ok s := by
  unfold phaseCustomNames
  cases hc : o.custom with
  | none => exact ⟨[], rfl⟩
  | some c =>
    obtain ⟨n, hn⟩ := h (by simp [hc])
    simp only [hn]
    exact ⟨_, rfl⟩

theorem verifyBody_regular {inner : Inner} {env : Env} {o : Obj} (h : Ready inner env o) (ht : Typed o) (ih : IH)
    (mode : Mode) (w e : Str) : Regular ih (verifyBody inner env o o.keys ih mode w e).out := by
  unfold verifyBody
  obtain ⟨e3, h3⟩ := phaseNames_total (keys_known h.check)
  obtain ⟨e3', h3'⟩ := customNames_total h.inner
  obtain ⟨h4, api, h5, h6, h7⟩ := phaseDims_total h.check
  simp only [h3, h3', h4]
  have a1 : (phaseDims o).2.attrs = o.attrs := by rw [h5]
  have a2 : (phaseDims o).2.conv = o.conv := by rw [h5]
  have a3 : (phaseDims o).2.custom = o.custom := by rw [h5]
  obtain ⟨e5, h8⟩ := phaseShapes_total (Checkable.same h.check a1 a2 a3) (api := api) (by rw [h5])
    (fun c hc => h7 c ((Sized.same a1 a2).1 hc))
  simp only [h8]
  obtain ⟨d, hd⟩ := phaseShapes_obj (phaseDims o).2
  have b1 : (phaseShapes (phaseDims o).2).2.attrs = o.attrs := by rw [hd, a1]
  have b2 : (phaseShapes (phaseDims o).2).2.conv = o.conv := by rw [hd, a2]
  have b3 : (phaseShapes (phaseDims o).2).2.api = some api := by rw [hd, h5]
  generalize (phaseShapes (phaseDims o).2).2 = o3 at b1 b2 b3
  obtain ⟨e6, h9⟩ := phaseRules_total (RegularRules.same h.rules b1 b2) (o := o3)
    (by unfold Typed; rw [b1, b2]; exact ht) b3 (fun c hc => h7 c ((Sized.same b1 b2).1 hc)) mode
  obtain ⟨cv, hcv⟩ := h.conv
  obtain ⟨e8, w8, h10⟩ := phaseDeprecations_total (env := env) (o := o3) (mode := mode) (cv := cv) (by rw [b1, hcv])
    (by rw [b1]; exact h.check.version)
  unfold verifyTail
  simp only [h9, h10]
  cases ih with
  | ignore => exact Or.inl ⟨_, rfl⟩
  | raise =>
    rcases handle_regular (w ++ w8) (e ++ e3 ++ e3' ++ e5 ++ e6 ++ e8) .raise with ⟨x, hx⟩ | ⟨_, t, hx⟩
    · simp only [hx]; exact Or.inl ⟨_, rfl⟩
    · simp only [hx]; exact Or.inr ⟨rfl, t, rfl⟩
  | print =>
    rcases handle_regular (w ++ w8) (e ++ e3 ++ e3' ++ e5 ++ e6 ++ e8) .print with ⟨x, hx⟩ | ⟨h0, _⟩
    · simp only [hx]; exact Or.inl ⟨_, rfl⟩
    · cases h0
  | ret =>
    rcases handle_regular (w ++ w8) (e ++ e3 ++ e3' ++ e5 ++ e6 ++ e8) .ret with ⟨x, hx⟩ | ⟨h0, _⟩
    · simp only [hx]; exact Or.inl ⟨_, rfl⟩
    · cases h0

theorem fillMissing_false_total (keys : List Str) (l : Dict Entry) (o : Obj) :
    ∃ s, (fillMissing false keys l o).1 = .ok s := by
  induction l with
  | nil => exact ⟨[], rfl⟩
  | cons p l ih =>
    obtain ⟨k, e⟩ := p
    obtain ⟨s, hs⟩ := ih
    simp only [fillMissing]
    split
    · simp only [Bool.false_eq_true, if_false, hs]
      exact ⟨_, rfl⟩
    · exact ⟨s, hs⟩

theorem typed_of_nil {env : Env} {o : Obj} (h : phaseTypes env o o.keys = .ok []) : Typed o := by
  intro k v hv
  obtain ⟨e, w, he, hw, ht⟩ := (phaseTypes_nil env o o.keys).1 h k (mem_keys_of_get hv)
  rw [getAttr_of_get hv] at hw
  cases hw
  exact ⟨e, he, ht⟩

/-- `verify` with `raise` -/
theorem verifyG_raise_regular {inner : Env → Obj → Inner} {env : Env} {o o1 : Obj} {mode : Mode}
    (hr : resetConvention env o = .ok o1) (h : Ready (inner env o1) env o1) :
    Regular .raise (verifyG inner env o .raise mode).out := by
  unfold verifyG
  rw [hr]
  have hf := fillMissing_raise o1.keys o1.conv o1
  obtain ⟨missing, hm⟩ := fillMissing_false_total o1.keys o1.conv o1
  simp only [ne_eq, not_true_eq_false, decide_false, if_true, hm, hf]
  obtain ⟨e2, h2⟩ := phaseTypes_total (env := env) (o := o1) (keys := o1.keys) (by
    intro k hk
    obtain ⟨e, he⟩ := h.check.known k hk
    obtain ⟨v, hv⟩ := get_of_mem_keys hk
    exact ⟨e, v, he, hv⟩)
  simp only [h2]
  split
  · exact verifyEarly_regular _ _ _
  · rename_i hc
    simp only [Bool.and_eq_true, Bool.not_eq_true', bne_iff_ne, ne_eq, reduceCtorEq, not_false_eq_true, and_true,
      Bool.not_eq_false, List.isEmpty_iff, List.append_eq_nil_iff] at hc
    have ht := typed_of_nil (hc.2 ▸ h2)
    exact verifyBody_regular h ht .raise mode _ _

/-- the other modes, if no mandatory data is missing -/
theorem verifyG_present_regular {inner : Env → Obj → Inner} {env : Env} {o o1 : Obj} {mode : Mode} {ih : IH}
    (hr : resetConvention env o = .ok o1) (h : Ready (inner env o1) env o1) (hm : Spec.HasMandatory o1)
    (hi : ih = .ignore → Typed o1) :
    Regular ih (verifyG inner env o ih mode).out := by
  rw [verifyG_present inner env o o1 ih mode hr ((isMandatory_iff o1).2 hm)]
  obtain ⟨e2, h2⟩ := phaseTypes_total (env := env) (o := o1) (keys := o1.keys) (by
    intro k hk
    obtain ⟨e, he⟩ := h.check.known k hk
    obtain ⟨v, hv⟩ := get_of_mem_keys hk
    exact ⟨e, v, he, hv⟩)
  simp only [h2]
  split
  · exact verifyEarly_regular _ _ _
  · rename_i hc
    apply verifyBody_regular h _ ih mode
    by_cases h1 : ih = .ignore
    · exact hi h1
    · apply typed_of_nil (env := env)
      have : e2 = [] := by
        simp only [Bool.and_eq_true, Bool.not_eq_true', bne_iff_ne, ne_eq, h1, not_false_eq_true, and_true,
          Bool.not_eq_false, List.isEmpty_iff] at hc
        exact hc
      rw [h2, this]

theorem reference_total {env : Env} {o : Obj} {c v : Str} {n : Obj} {cv vv : Val}
    (hc : Dict.get? o.attrs (py% "GLOBAL_SOFAConventions") = some cv) (hct : Spec.text cv = some c)
    (hv : Dict.get? o.attrs (py% "GLOBAL_SOFAConventionsVersion") = some vv) (hvt : Spec.text vv = some v)
    (hl : v ≠ py% "latest") (hi : (initSofa env c false (.exact v) .auto).out = .ok n) :
    (referenceNames env o).out = .ok (Dict.keys n.conv) := by
  unfold referenceNames
  simp only [getAttr_of_get hc, getAttr_of_get hv, asStr_text, hct, hvt]
  rw [if_neg hl]
  simp only [hi]

end Sofar
