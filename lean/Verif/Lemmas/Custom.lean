import Verif.Lemmas.Attr
/-! # Lemmas on custom data -/
namespace Sofar

theorem count_split (n : Str) : n.count '_' = 1 ↔ ∃ v a, n = v ++ '_' :: a ∧ '_' ∉ v ∧ '_' ∉ a := by
  constructor
  · intro h
    have hm : '_' ∈ n := List.count_pos_iff.1 (by omega)
    obtain ⟨v, a, rfl⟩ := List.append_of_mem hm
    rw [List.count_append, List.count_cons_self] at h
    exact ⟨v, a, rfl, List.count_eq_zero.1 (by omega), List.count_eq_zero.1 (by omega)⟩
  · rintro ⟨v, a, rfl, hv, ha⟩
    rw [List.count_append, List.count_cons_self, List.count_eq_zero.2 hv, List.count_eq_zero.2 ha]

theorem beforeLast_none {c : Char} {s : Str} (h : c ∉ s) : Str.beforeLast c s = none := by
  induction s with
  | nil => rfl
  | cons d t ih =>
    simp only [List.mem_cons, not_or] at h
    simp [Str.beforeLast, ih h.2, Ne.symm h.1]

theorem beforeLast_append {c : Char} (v a : Str) (ha : c ∉ a) :
    Str.beforeLast c (v ++ c :: a) = some v := by
  induction v with
  | nil => simp [Str.beforeLast, beforeLast_none ha]
  | cons d t ih => simp [Str.beforeLast, ih]

/-- Effect of registering an entry and storing its value, if the name is new and the value convertible. -/
theorem addCustomApiEntry_ok (o : Obj) (n : Str) (v : Inp) (w : Val) (f d : Option Str) (t : Str)
    (hw : normalise v = .ok w) (hp : n ≠ py% "protected") (hl : n ≠ py% "list_dimensions")
    (hpriv : isPrivate n = false) :
    addCustomApiEntry o n v f d t = ⟨.ok (),
      { registerCustom { o with prot := false } n (customEntry f (d.map customDims) t) with
        attrs := Dict.put o.attrs n w, prot := true }, []⟩ := by
  unfold addCustomApiEntry
  have hprot : (registerCustom { o with prot := false } n (customEntry f (d.map customDims) t)).prot = false := by
    unfold registerCustom; split <;> rfl
  have hattrs : (registerCustom { o with prot := false } n (customEntry f (d.map customDims) t)).attrs = o.attrs := by
    unfold registerCustom; split <;> rfl
  simp [setAttr, hprot, hp, hl, hw, hpriv, hattrs]

/-- The checks of `_add_entry` imply that the name is new. -/
theorem checkEntry_new {o : Obj} {n t : Str} {d : Option Str} (h : checkEntry o n t d = none) :
    o.hasAttr n = false := by
  unfold checkEntry at h
  by_cases h1 : o.hasAttr n = true
  · simp [h1] at h
  · simpa using h1

theorem new_ne_member {o : Obj} {n : Str} (h : o.hasAttr n = false) {m : Str} (hm : m ∈ publicMembers) :
    n ≠ m := by
  rintro rfl
  simp [Obj.hasAttr, hm] at h

theorem addEntry_ok (o : Obj) (n : Str) (v : Inp) (w : Val) (t : Str) (d : Option Str)
    (hc : checkEntry o n t d = none) (hw : normalise v = .ok w) (hpriv : isPrivate n = false) :
    addEntry o n v t d = ⟨.ok (),
      { registerCustom { o with prot := false } n (customEntry none ((d.map Str.upper).map customDims) t) with
        attrs := Dict.put o.attrs n w, prot := true }, dimWarnings d⟩ := by
  have hnew := checkEntry_new hc
  unfold addEntry
  rw [hc]
  simp only
  rw [addCustomApiEntry_ok o n v w none (d.map Str.upper) t hw (new_ne_member hnew (by decide))
    (new_ne_member hnew (by decide)) hpriv]
  simp

/-- If adding succeeds, the value was convertible, the checks passed and the name is public. -/
theorem addEntry_ok_inv {o : Obj} {n : Str} {v : Inp} {t : Str} {d : Option Str}
    (h : (addEntry o n v t d).out = .ok ()) :
    checkEntry o n t d = none ∧ isPrivate n = false ∧ ∃ w, normalise v = .ok w := by
  unfold addEntry at h
  cases hc : checkEntry o n t d with
  | some e => simp [hc] at h
  | none =>
    simp only [hc] at h
    have hnew := checkEntry_new hc
    have hp : n ≠ py% "protected" := new_ne_member hnew (by decide)
    unfold addCustomApiEntry at h
    simp only at h
    generalize registerCustom _ _ _ = o1 at h
    rcases setAttr_cases o1 n v with ⟨e, h1, _⟩ | ⟨b, _, h1, _⟩ | ⟨w, hw, _, hpr, _⟩
    · simp [h1] at h
    · exact absurd h1 hp
    · exact ⟨rfl, hpr, w, hw⟩

/-- How `_reset_convention` can succeed. -/
theorem resetConvention_inv {env : Env} {o o' : Obj} (h : resetConvention env o = .ok o') :
    ∃ cv c v conv, o.getAttr (py% "GLOBAL_SOFAConventions") = .ok cv ∧ cv.asStr = some c ∧
      o.getAttr (py% "GLOBAL_SOFAConventionsVersion") = .ok v ∧
      verifyConvention env (pyStr env v) c = .ok () ∧
      loadConvention env c (.exact (pyStr env v)) = .ok conv ∧
      o' = match o.custom with
        | none => { o with conv := conv }
        | some cust => { o with conv := (mergeCustom conv cust).1, custom := some (mergeCustom conv cust).2 } := by
  unfold resetConvention at h
  cases h1 : o.getAttr (py% "GLOBAL_SOFAConventions") with
  | error e => simp [h1] at h
  | ok cv =>
    simp only [h1] at h
    cases h2 : o.getAttr (py% "GLOBAL_SOFAConventionsVersion") with
    | error e => simp [h2] at h
    | ok v =>
      simp only [h2] at h
      cases h3 : cv.asStr with
      | none => simp [h3] at h
      | some c =>
        simp only [h3] at h
        cases h4 : verifyConvention env (pyStr env v) c with
        | error e => simp [h4] at h
        | ok u =>
          simp only [h4] at h
          cases h5 : loadConvention env c (.exact (pyStr env v)) with
          | error e => simp [h5] at h
          | ok conv =>
            simp only [h5] at h
            refine ⟨cv, c, v, conv, rfl, h3, rfl, h4, h5, ?_⟩
            cases h6 : o.custom with
            | none => simp only [h6, Except.ok.injEq] at h ⊢; exact h.symm
            | some cu => simp only [h6, Except.ok.injEq] at h ⊢; exact h.symm

/-- `_reset_convention` only changes `_convention` and `_custom`. -/
theorem resetConvention_frame {env : Env} {o o' : Obj} (h : resetConvention env o = .ok o') :
    ∃ c k, o' = { o with conv := c, custom := k } ∧ k.isSome = o.custom.isSome := by
  obtain ⟨_, _, _, conv, _, _, _, _, _, rfl⟩ := resetConvention_inv h
  cases hc : o.custom with
  | none => exact ⟨conv, none, by simp, rfl⟩
  | some cu => exact ⟨_, _, rfl, rfl⟩

theorem ofNat_toNat {n : Nat} (h : n < 55296) : (Char.ofNat n).toNat = n := by
  have hv : n.isValidChar := Or.inl h
  unfold Char.ofNat
  rw [dif_pos hv]
  simp [Char.ofNatAux, Char.toNat, UInt32.toNat]

theorem lowerC_upperC (c : Char) : Str.lowerC (Str.upperC c) = Str.lowerC c := by
  have ha : 'a'.toNat = 97 := rfl
  have hz : 'z'.toNat = 122 := rfl
  have hA : 'A'.toNat = 65 := rfl
  have hZ : 'Z'.toNat = 90 := rfl
  unfold Str.lowerC Str.upperC
  rw [ha, hz, hA, hZ]
  by_cases h : 97 ≤ c.toNat ∧ c.toNat ≤ 122
  · have h1 : (Char.ofNat (c.toNat - 32)).toNat = c.toNat - 32 := ofNat_toNat (by omega)
    rw [if_pos h, h1, if_pos (by omega), if_neg (by omega), Nat.sub_add_cancel (by omega), Char.ofNat_toNat]
  · rw [if_neg h]

theorem upperC_upperC (c : Char) : Str.upperC (Str.upperC c) = Str.upperC c := by
  have ha : 'a'.toNat = 97 := rfl
  have hz : 'z'.toNat = 122 := rfl
  unfold Str.upperC
  rw [ha, hz]
  by_cases h : 97 ≤ c.toNat ∧ c.toNat ≤ 122
  · have h1 : (Char.ofNat (c.toNat - 32)).toNat = c.toNat - 32 := ofNat_toNat (by omega)
    rw [if_pos h, h1, if_neg (by omega)]
  · rw [if_neg h, if_neg h]

theorem customDims_upper (d : Str) : customDims (Str.upper d) = customDims d := by
  simp [customDims, Str.upper, lowerC_upperC, upperC_upperC]

theorem has_filter_not (d e : Dict Entry) (k : Str) (h : Dict.has d k = false) :
    Dict.get? (e.filter (fun p => ! Dict.has d p.1)) k = Dict.get? e k :=
  Dict.get?_filter e _ k (by simp [h])

/-- lookup after merging the custom entries, if the custom entries have unique names -/
theorem get?_mergeCustom (conv cust : Dict Entry) (k : Str) (hn : (Dict.keys cust).Nodup) :
    Dict.get? (mergeCustom conv cust).1 k = (match Dict.get? conv k with
      | some e => some e
      | none => Dict.get? cust k) ∧
    Dict.get? (mergeCustom conv cust).2 k = (match Dict.get? conv k with
      | some _ => none
      | none => Dict.get? cust k) := by
  have hn' := Dict.nodup_filter (fun p => ! Dict.has conv p.1) hn
  have hfind : ∀ (l : Dict Entry), (Dict.keys l).Nodup →
      (match l.reverse.find? (fun p => p.1 = k) with | some p => some p.2 | none => (none : Option Entry))
        = Dict.get? l k := by
    intro l hl
    cases hg : Dict.get? l k with
    | none =>
      have : l.reverse.find? (fun p => decide (p.1 = k)) = none := by
        rw [List.find?_eq_none]
        intro p hp
        rw [Dict.get?_eq_none_iff] at hg
        simp only [decide_eq_true_eq]
        rintro rfl
        exact hg (List.mem_map.2 ⟨p, by simpa using hp, rfl⟩)
      simp [this]
    | some e =>
      cases hf : l.reverse.find? (fun p => decide (p.1 = k)) with
      | none =>
        rw [List.find?_eq_none] at hf
        have := hf (k, e) (by simpa using Dict.mem_of_get? hg)
        simp at this
      | some p =>
        have h1 := List.find?_some hf
        have h2 := List.mem_of_find?_eq_some hf
        simp only [decide_eq_true_eq] at h1
        have : Dict.get? l p.1 = some p.2 := Dict.get?_of_mem hl (by simpa using h2)
        rw [h1, hg] at this
        simpa using this.symm
  cases hc : Dict.get? conv k with
  | some e =>
    have hnone : Dict.get? (cust.filter (fun p => ! Dict.has conv p.1)) k = none := by
      rw [Dict.get?_eq_none_iff]
      intro hm
      obtain ⟨p, hp, rfl⟩ := List.mem_map.1 hm
      have := (List.mem_filter.1 hp).2
      simp [Dict.has, hc] at this
    refine ⟨?_, hnone⟩
    unfold mergeCustom
    simp only
    rw [Dict.get?_foldl_put]
    have := hfind _ hn'
    rw [hnone] at this
    split
    · rename_i hq; simp [hq] at this
    · exact hc
  | none =>
    have hh : Dict.has conv k = false := by simp [Dict.has, hc]
    have hg := has_filter_not conv cust k hh
    refine ⟨?_, hg⟩
    unfold mergeCustom
    simp only
    rw [Dict.get?_foldl_put]
    have := hfind _ hn'
    rw [hg] at this
    split
    · rename_i hq; simpa [hq] using this
    · rename_i hq; simp [hq] at this; rw [hc]; exact this

theorem nodup_mergeCustom (conv cust : Dict Entry) (hc : (Dict.keys conv).Nodup) (hn : (Dict.keys cust).Nodup) :
    (Dict.keys (mergeCustom conv cust).1).Nodup ∧ (Dict.keys (mergeCustom conv cust).2).Nodup :=
  ⟨Dict.nodup_foldl_put _ _ hc, Dict.nodup_filter _ hn⟩

end Sofar
