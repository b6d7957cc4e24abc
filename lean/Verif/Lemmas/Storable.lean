import Verif.Lemmas.Stored
/-!
# A check for objects that can be stored without loss

Only used for the examples: proves `Storable` for concrete objects by computation.
-/
namespace Sofar

/-- names of the variables of an object -/
def variableNames (o : Obj) : List Str :=
  (o.attrs.filter (fun p => match Dict.get? o.conv p.1 with
    | some e => decide (e.typ ≠ py% "attribute")
    | none => false)).map Prod.fst

/-- number or masked element -/
def isNumElem : Elem → Bool
  | .masked => true
  | .num _ => true
  | _ => false

/-- text element -/
def isStrElem : Elem → Bool
  | .str _ => true
  | _ => false

/-- computes `Spec.Proper` -/
def properCheck (v : Val) : Bool :=
  (match v with | .arr a => decide (a.data.length = a.shape.foldr (· * ·) 1) | _ => true) &&
  (decide (¬ (Spec.kindOf v = .i ∨ Spec.kindOf v = .u ∨ Spec.kindOf v = .f ∨ Spec.kindOf v = .b)) ||
    (Spec.elems v).all isNumElem) &&
  (decide (¬ (Spec.kindOf v = .U ∨ Spec.kindOf v = .S)) || (Spec.elems v).all isStrElem)

theorem proper_of_check {v : Val} (h : properCheck v = true) : Spec.Proper v := by
  simp only [properCheck, Bool.and_eq_true, Bool.or_eq_true, decide_eq_true_eq, List.all_eq_true] at h
  obtain ⟨⟨h1, h2⟩, h3⟩ := h
  refine ⟨?_, ?_, ?_⟩
  · cases v <;> simp_all [Spec.Rectangular]
  · intro hk e he
    rcases h2 with h2 | h2
    · exact absurd hk h2
    · have := h2 e he
      cases e with
      | masked => exact Or.inl rfl
      | num x => exact Or.inr ⟨x, rfl⟩
      | _ => simp [isNumElem] at this
  · intro hk e he
    rcases h3 with h3 | h3
    · exact absurd hk h3
    · have := h3 e he
      cases e with
      | str s => exact ⟨s, rfl⟩
      | _ => simp [isStrElem] at this

/-- numbers of a variable of type double -/
def numberCheck (rnd : Rat → Rat) (isFill : Kind → Num → Bool) (kind : Kind) : Elem → Bool
  | .num (.fin q) => if kind = .f then ! isFill .f (.fin q) else ! isFill .f (.fin (rnd q)) && decide (rnd q = q)
  | .num x => decide (kind = .f) && ! isFill .f x
  | _ => true

/-- one entry -/
def entryCheck (rnd : Rat → Rat) (isFill : Kind → Num → Bool) (o : Obj) (k : Str) (v : Val) : Bool :=
  ! Spec.methodNames.contains k && ! isPrivate k && ! k.contains '.' && ! List.isSuffixOf (py% "__Encoding") k &&
  (match Dict.get? o.conv k with
  | none => true
  | some e =>
    if e.typ = py% "attribute" then
      (List.isPrefixOf (py% "GLOBAL_") k || (variableNames o).any (fun x => List.isPrefixOf (x ++ py% "_") k)) &&
      ((Spec.text v).all (fun t => ! t.contains (Char.ofNat 0)))
    else
      ! List.isPrefixOf (py% "GLOBAL_") k && (variableNames o).all (fun x => ! List.isPrefixOf (x ++ py% "_") k) &&
      properCheck v && decide (Spec.elems v ≠ []) &&
      (match e.dims with
      | none => false
      | some d =>
        let alts := Str.splitCommaSpace d
        let n := (alts.headD []).length
        alts.all (fun a => decide (a.length = n) && ! a.contains ',') && decide (1 ≤ n) &&
        decide ((Spec.shapeOf v).length ≤ n) &&
        (if e.typ = py% "double" then
          alts.all (fun a => ! a.contains 'S') && (Spec.elems v).all (numberCheck rnd isFill (Spec.kindOf v))
        else if e.typ = py% "string" then
          alts.all (fun a => decide (a.getLast? = some 'S') && ! a.dropLast.contains 'S') &&
          (Spec.elems v).any (fun x => match x with | .str s => decide (s ≠ []) | _ => false)
        else true)))

/-- computes `Spec.Storable`; every string variable must contain a non-empty text -/
def storableCheck (rnd : Rat → Rat) (isFill : Kind → Num → Bool) (o : Obj) : Bool :=
  o.attrs.all (fun p => entryCheck rnd isFill o p.1 p.2)

theorem mem_variableNames {o : Obj} {k : Str} {v : Val} {e : Entry} (h : Spec.IsVariable o k v e) : k ∈ variableNames o := by
  unfold variableNames
  refine List.mem_map.2 ⟨(k, v), List.mem_filter.2 ⟨Dict.mem_of_get? h.1, ?_⟩, rfl⟩
  simp [h.2.1, h.2.2]

theorem of_mem_variableNames {o : Obj} {k : Str} (h : k ∈ variableNames o) : ∃ v e, Spec.IsVariable o k v e := by
  unfold variableNames at h
  obtain ⟨⟨k', v⟩, hp, rfl⟩ := List.mem_map.1 h
  obtain ⟨h1, h2⟩ := List.mem_filter.1 hp
  simp only at h2
  split at h2
  · rename_i e he
    obtain ⟨w, hw⟩ := get_of_mem_keys (o := o) (List.mem_map.2 ⟨_, h1, rfl⟩)
    exact ⟨w, e, hw, he, by simpa using h2⟩
  · simp at h2

theorem storable_of_check {rnd : Rat → Rat} {isFill : Kind → Num → Bool} {o : Obj}
    (h : storableCheck rnd isFill o = true) : Spec.Storable rnd isFill o := by
  unfold storableCheck at h
  rw [List.all_eq_true] at h
  have key : ∀ k v, Dict.get? o.attrs k = some v → entryCheck rnd isFill o k v = true :=
    fun k v hv => h (k, v) (Dict.mem_of_get? hv)
  have var : ∀ k v e, Spec.IsVariable o k v e → ¬ (py% "GLOBAL_") <+: k ∧
      (∀ x ∈ variableNames o, ¬ (x ++ py% "_") <+: k) ∧ properCheck v = true ∧ Spec.elems v ≠ [] ∧
      ∃ d, e.dims = some d ∧ (∀ a ∈ Str.splitCommaSpace d, a.length = ((Str.splitCommaSpace d).headD []).length ∧ ',' ∉ a) ∧
        1 ≤ ((Str.splitCommaSpace d).headD []).length ∧
        (Spec.shapeOf v).length ≤ ((Str.splitCommaSpace d).headD []).length ∧
        (e.typ = py% "double" → (∀ a ∈ Str.splitCommaSpace d, 'S' ∉ a) ∧
          ∀ x ∈ Spec.elems v, numberCheck rnd isFill (Spec.kindOf v) x = true) ∧
        (e.typ = py% "string" → (∀ a ∈ Str.splitCommaSpace d, a.getLast? = some 'S' ∧ 'S' ∉ a.dropLast) ∧
          ∃ s, .str s ∈ Spec.elems v ∧ s ≠ []) := by
    intro k v e hv
    have := key k v hv.1
    unfold entryCheck at this
    simp only [hv.2.1, if_neg hv.2.2, Bool.and_eq_true, Bool.not_eq_true', decide_eq_true_eq, List.all_eq_true] at this
    obtain ⟨_, ⟨⟨⟨h1, h2⟩, h3⟩, h4⟩, h5⟩ := this
    refine ⟨?_, ?_, h3, h4, ?_⟩
    · intro hp; rw [← List.isPrefixOf_iff_prefix, h1] at hp; simp at hp
    · intro x hx hp; rw [← List.isPrefixOf_iff_prefix, h2 x hx] at hp; simp at hp
    · cases hd : e.dims with
      | none => simp [hd] at h5
      | some d =>
        simp only [hd, Bool.and_eq_true, decide_eq_true_eq, List.all_eq_true, Bool.not_eq_true'] at h5
        obtain ⟨⟨⟨g1, g2⟩, g3⟩, g4⟩ := h5
        refine ⟨d, rfl, fun a ha => ⟨(g1 a ha).1, by simpa using (g1 a ha).2⟩, g2, g3, ?_, ?_⟩
        · intro ht
          rw [if_pos ht] at g4
          simp only [Bool.and_eq_true, List.all_eq_true] at g4
          exact ⟨fun a ha => by simpa using g4.1 a ha, g4.2⟩
        · intro ht
          rw [if_neg (by rw [ht]; decide), if_pos ht] at g4
          simp only [Bool.and_eq_true, List.all_eq_true, List.any_eq_true, decide_eq_true_eq] at g4
          refine ⟨fun a ha => by simpa using g4.1 a ha, ?_⟩
          obtain ⟨x, hx, hx'⟩ := g4.2
          cases x with
          | str s => exact ⟨s, hx, by simpa using hx'⟩
          | _ => simp at hx'
  refine ⟨?_, ?_, ?_, ?_, ?_, ?_⟩
  · intro k hk
    obtain ⟨v, hv⟩ := get_of_mem_keys hk
    have := key k v hv
    unfold entryCheck at this
    simp only [Bool.and_eq_true, Bool.not_eq_true'] at this
    obtain ⟨⟨⟨⟨h1, h2⟩, h3⟩, h4⟩, _⟩ := this
    refine ⟨⟨by simpa using h1, h2⟩, by simpa using h3, ?_⟩
    intro hp
    rw [← List.isSuffixOf_iff_suffix, h4] at hp
    simp at hp
  · intro k v e hv
    obtain ⟨h1, h2, _⟩ := var k v e hv
    exact ⟨h1, fun x w ex hx => h2 x (mem_variableNames hx)⟩
  · rintro k v ⟨hv, e, he, ht⟩
    have := key k v hv
    unfold entryCheck at this
    simp only [he, if_pos ht, Bool.and_eq_true, Bool.or_eq_true, List.any_eq_true] at this
    obtain ⟨_, h1, h2⟩ := this
    refine ⟨?_, ?_⟩
    · rcases h1 with h1 | ⟨x, hx, h1⟩
      · exact Or.inl (List.isPrefixOf_iff_prefix.1 h1)
      · obtain ⟨a, ha⟩ := List.isPrefixOf_iff_prefix.1 h1
        obtain ⟨w, ex, hw⟩ := of_mem_variableNames hx
        exact Or.inr ⟨x, a, w, ex, by rw [← ha]; simp, hw⟩
    · intro t ht hn
      rw [ht] at h2
      simp at h2
      exact h2 hn
  · intro k v e hv
    obtain ⟨_, _, h3, h4, d, h5, h6, h7, h8, _⟩ := var k v e hv
    exact ⟨proper_of_check h3, h4, d, _, h5, fun a ha => h6 a (isAlternative_iff.1 ha), h7, h8⟩
  · intro k v e hv ht
    obtain ⟨_, _, h3, h4, d, h5, h6, h7, h8, h9, _⟩ := var k v e hv
    obtain ⟨g1, g2⟩ := h9 ht
    refine ⟨?_, ?_, ?_⟩
    · intro d' alt hd ha
      rw [h5] at hd
      cases hd
      exact g1 alt (isAlternative_iff.1 ha)
    · intro x hk hx
      have := g2 _ hx
      cases x with
      | fin q => simpa [numberCheck, hk] using this
      | _ => simpa [numberCheck, hk] using this
    · intro x hk hx
      have := g2 _ hx
      cases x with
      | fin q =>
        simp only [numberCheck, if_neg hk, Bool.and_eq_true, Bool.not_eq_true', decide_eq_true_eq] at this
        exact ⟨q, rfl, this.1, by rw [this.2]; exact .special _⟩
      | _ => simp [numberCheck, hk] at this
  · intro k v e hv ht
    obtain ⟨_, _, h3, h4, d, h5, h6, h7, h8, _, h9⟩ := var k v e hv
    obtain ⟨g1, s, g2, g3⟩ := h9 ht
    refine ⟨?_, k, v, e, s, hv, ht, g2, g3⟩
    intro d' alt hd ha
    rw [h5] at hd
    cases hd
    obtain ⟨a1, a2⟩ := g1 alt (isAlternative_iff.1 ha)
    obtain ⟨ys, rfl⟩ := List.getLast?_eq_some_iff.1 a1
    exact ⟨ys, rfl, by simpa using a2⟩

end Sofar
