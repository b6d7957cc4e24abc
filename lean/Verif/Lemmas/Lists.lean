import Verif.Spec.Lists
import Verif.Lemmas.Attr
/-!
# Nested lists: proofs
-/
namespace Sofar

mutual

theorem rect_of_shapeOf : (v : PyVal) → (s : List Nat) → shapeOf v = some s → Spec.Rect v s
  | .bool _, s, h => by simp only [shapeOf, Option.some.injEq] at h; subst h; exact .item _ trivial
  | .int _, s, h => by simp only [shapeOf, Option.some.injEq] at h; subst h; exact .item _ trivial
  | .float _, s, h => by simp only [shapeOf, Option.some.injEq] at h; subst h; exact .item _ trivial
  | .str _, s, h => by simp only [shapeOf, Option.some.injEq] at h; subst h; exact .item _ trivial
  | .other _, s, h => by simp only [shapeOf, Option.some.injEq] at h; subst h; exact .item _ trivial
  | .list [], s, h => by simp only [shapeOf, Option.some.injEq] at h; subst h; exact .empty
  | .list (v :: l), s, h => by
    simp only [shapeOf] at h
    cases hv : shapeOf v with
    | none => simp [hv] at h
    | some t =>
      simp only [hv] at h
      split at h
      · rename_i hs
        simp only [Option.some.injEq] at h
        subst h
        have r1 := rect_of_shapeOf v t hv
        have r2 := rect_of_sameShape l t hs
        refine .list (v :: l) t (by simp) ?_
        intro w hw
        rcases List.mem_cons.1 hw with rfl | hw
        · exact r1
        · exact r2 w hw
      · simp at h

theorem rect_of_sameShape : (l : List PyVal) → (s : List Nat) → sameShape s l = true → ∀ w ∈ l, Spec.Rect w s
  | [], _, _ => by simp
  | v :: l, s, h => by
    simp only [sameShape, Bool.and_eq_true, decide_eq_true_eq] at h
    have r1 := rect_of_shapeOf v s h.1
    have r2 := rect_of_sameShape l s h.2
    intro w hw
    rcases List.mem_cons.1 hw with rfl | hw
    · exact r1
    · exact r2 w hw

end

theorem sameShape_of {s : List Nat} {l : List PyVal} (h : ∀ w ∈ l, shapeOf w = some s) : sameShape s l = true := by
  induction l with
  | nil => simp [sameShape]
  | cons v l ih =>
    simp only [sameShape, Bool.and_eq_true, decide_eq_true_eq]
    exact ⟨h v (by simp), ih (fun w hw => h w (by simp [hw]))⟩

theorem shapeOf_of_rect {v : PyVal} {s : List Nat} (h : Spec.Rect v s) : shapeOf v = some s := by
  induction h with
  | item v hv => cases v <;> first | rfl | exact absurd hv (by simp [Spec.IsItem])
  | empty => simp [shapeOf]
  | list l s hne _ ih =>
    cases l with
    | nil => exact absurd rfl hne
    | cons v l =>
      simp only [shapeOf, ih v (by simp)]
      rw [sameShape_of (fun w hw => ih w (by simp [hw]))]
      simp

theorem shapeOf_iff {v : PyVal} {s : List Nat} : shapeOf v = some s ↔ Spec.Rect v s :=
  ⟨rect_of_shapeOf v s, shapeOf_of_rect⟩

theorem leavesList_eq (l : List PyVal) : leavesList l = l.flatMap leaves := by
  induction l with
  | nil => simp [leavesList]
  | cons v l ih => simp [leavesList, ih]

theorem leaves_item {v : PyVal} (h : Spec.IsItem v) : leaves v = [v] := by
  cases v <;> first | rfl | exact absurd h (by simp [Spec.IsItem])

theorem flatMap_uniform {α β : Type} (f : α → List β) (m : Nat) (l : List α) (h : ∀ a ∈ l, (f a).length = m) :
    (l.flatMap f).length = l.length * m ∧
    ∀ i p, p < m → (l.flatMap f)[i * m + p]? = (l[i]?).bind (fun a => (f a)[p]?) := by
  induction l with
  | nil => simp
  | cons a l ih =>
    obtain ⟨h1, h2⟩ := ih (fun b hb => h b (by simp [hb]))
    have ha := h a (by simp)
    refine ⟨?_, ?_⟩
    · simp only [List.flatMap_cons, List.length_append, List.length_cons, ha, h1, Nat.succ_mul]
      omega
    · intro i p hp
      simp only [List.flatMap_cons]
      cases i with
      | zero => simp [List.getElem?_append_left (show p < (f a).length by omega)]
      | succ i =>
        have : (i + 1) * m + p = (f a).length + (i * m + p) := by rw [ha, Nat.succ_mul]; omega
        rw [this, List.getElem?_append_right (by omega)]
        simp only [Nat.add_sub_cancel_left, List.getElem?_cons_succ]
        exact h2 i p hp

theorem at_item {v x : PyVal} {ix : List Nat} (hv : Spec.IsItem v) (h : Spec.At v ix x) : ix = [] ∧ x = v := by
  cases h with
  | here => exact ⟨rfl, rfl⟩
  | inside l => exact absurd hv (by simp [Spec.IsItem])

theorem position_lt {s ix : List Nat} (h : Spec.Within s ix) : Spec.position s ix < Spec.prod s := by
  induction s generalizing ix with
  | nil => simp [Spec.position, Spec.prod]
  | cons n s ih =>
    obtain ⟨h1, h2⟩ := h
    cases ix with
    | nil => simp at h1
    | cons i ix =>
      have h3 := h2 0 (by simp)
      have h4 := ih (ix := ix) ⟨by simpa using h1, fun m hm => by simpa using h2 (m + 1) (by simpa using hm)⟩
      simp only [List.getD_cons_zero] at h3
      have h5 : (i + 1) * Spec.prod s ≤ n * Spec.prod s := Nat.mul_le_mul_right _ h3
      rw [Nat.succ_mul] at h5
      simp only [Spec.position, Spec.prod]
      omega

/-- the values of a rectangular list -/
theorem leaves_rect {v : PyVal} {s : List Nat} (h : Spec.Rect v s) :
    (leaves v).length = Spec.prod s ∧
    (∀ ix x, Spec.At v ix x → Spec.IsItem x → Spec.Within s ix ∧ (leaves v)[Spec.position s ix]? = some x) ∧
    ∀ ix, Spec.Within s ix → ∃ x, Spec.IsItem x ∧ Spec.At v ix x := by
  induction h with
  | item v hv =>
    refine ⟨by simp [leaves_item hv, Spec.prod], ?_, ?_⟩
    · intro ix x hat _
      obtain ⟨rfl, rfl⟩ := at_item hv hat
      exact ⟨⟨rfl, by simp⟩, by simp [leaves_item hv, Spec.position]⟩
    · intro ix hw
      obtain rfl : ix = [] := by simpa using hw.1
      exact ⟨v, hv, .here v⟩
  | empty =>
    refine ⟨by simp [leaves, leavesList, Spec.prod], ?_, ?_⟩
    · intro ix x hat hx
      cases hat with
      | here => exact absurd hx (by simp [Spec.IsItem])
      | inside l i w ix x hi => simp at hi
    · intro ix hw
      have := hw.2 0 (by simp)
      simp at this
  | list l s hne hl ih =>
    have hlen : ∀ w ∈ l, (leaves w).length = Spec.prod s := fun w hw => (ih w hw).1
    obtain ⟨h1, h2⟩ := flatMap_uniform leaves (Spec.prod s) l hlen
    simp only [leaves, leavesList_eq]
    refine ⟨by rw [h1]; simp [Spec.prod], ?_, ?_⟩
    · intro ix x hat hx
      cases hat with
      | here => exact absurd hx (by simp [Spec.IsItem])
      | inside _ i w ix _ hi hat =>
        have hw : w ∈ l := List.mem_of_getElem? hi
        obtain ⟨hwi, hg⟩ := (ih w hw).2.1 ix x hat hx
        have hil : i < l.length := (List.getElem?_eq_some_iff.1 hi).1
        refine ⟨⟨by simp [hwi.1], ?_⟩, ?_⟩
        · intro n hn
          cases n with
          | zero => simpa using hil
          | succ n => simpa using hwi.2 n (by simpa using hn)
        · simp only [Spec.position]
          rw [h2 i _ (position_lt hwi), hi]
          exact hg
    · intro ix hw
      cases ix with
      | nil => simp [Spec.Within] at hw
      | cons i ix =>
        have hil : i < l.length := by simpa using hw.2 0 (by simp)
        have hwi : Spec.Within s ix := ⟨by simpa using hw.1, fun m hm => by simpa using hw.2 (m + 1) (by simpa using hm)⟩
        obtain ⟨x, hx, hat⟩ := (ih l[i] (List.getElem_mem hil)).2.2 ix hwi
        exact ⟨x, hx, .inside l i l[i] ix x (List.getElem?_eq_getElem hil) hat⟩

mutual

theorem leaves_at : (v : PyVal) → ∀ x ∈ leaves v, ∃ ix, Spec.At v ix x ∧ Spec.IsItem x
  | .bool b => by simp only [leaves, List.mem_singleton]; rintro x rfl; exact ⟨[], .here _, trivial⟩
  | .int b => by simp only [leaves, List.mem_singleton]; rintro x rfl; exact ⟨[], .here _, trivial⟩
  | .float b => by simp only [leaves, List.mem_singleton]; rintro x rfl; exact ⟨[], .here _, trivial⟩
  | .str b => by simp only [leaves, List.mem_singleton]; rintro x rfl; exact ⟨[], .here _, trivial⟩
  | .other b => by simp only [leaves, List.mem_singleton]; rintro x rfl; exact ⟨[], .here _, trivial⟩
  | .list l => by
    intro x hx
    simp only [leaves] at hx
    obtain ⟨i, w, ix, h1, h2, h3⟩ := leavesList_at l x hx
    exact ⟨i :: ix, .inside l i w ix x h1 h2, h3⟩

theorem leavesList_at : (l : List PyVal) → ∀ x ∈ leavesList l, ∃ (i : Nat) (w : PyVal) (ix : List Nat), l[i]? = some w ∧ Spec.At w ix x ∧ Spec.IsItem x
  | [] => by simp [leavesList]
  | v :: l => by
    intro x hx
    simp only [leavesList, List.mem_append] at hx
    rcases hx with hx | hx
    · obtain ⟨ix, h1, h2⟩ := leaves_at v x hx
      exact ⟨0, v, ix, by simp, h1, h2⟩
    · obtain ⟨i, w, ix, h1, h2, h3⟩ := leavesList_at l x hx
      exact ⟨i + 1, w, ix, by simpa using h1, h2, h3⟩

end

theorem elemOf_number {text : PyVal → Str} {k : Kind} {x : PyVal} {q : Num} (hk : k ≠ .U) (h : Spec.NumberOf x q) :
    elemOf text k x = .num q := by
  cases x <;> simp_all [Spec.NumberOf, elemOf]

theorem kindOf_numbers {l : List PyVal} (h : ∀ x ∈ l, ∃ q, Spec.NumberOf x q) : kindOf l = .f ∨ kindOf l = .i ∨ kindOf l = .b := by
  have h1 : l.any PyVal.isOther = false := by
    rw [List.any_eq_false]
    intro x hx
    obtain ⟨q, hq⟩ := h x hx
    cases x <;> simp_all [Spec.NumberOf, PyVal.isOther]
  have h2 : l.any PyVal.isText = false := by
    rw [List.any_eq_false]
    intro x hx
    obtain ⟨q, hq⟩ := h x hx
    cases x <;> simp_all [Spec.NumberOf, PyVal.isText]
  unfold kindOf
  rw [h1, h2]
  simp only [Bool.false_eq_true, if_false]
  split
  · simp
  · split
    · simp
    · split <;> simp

theorem kindOf_texts {l : List PyVal} (h : ∀ x ∈ l, ∃ s, x = .str s) (hne : l ≠ []) : kindOf l = .U := by
  have h1 : l.any PyVal.isOther = false := by
    rw [List.any_eq_false]
    intro x hx
    obtain ⟨q, rfl⟩ := h x hx
    simp [PyVal.isOther]
  have h2 : l.any PyVal.isText = true := by
    cases l with
    | nil => exact absurd rfl hne
    | cons x l =>
      obtain ⟨q, rfl⟩ := h x (by simp)
      simp [PyVal.isText]
  unfold kindOf
  rw [h1, h2]
  simp

mutual

theorem at_leaves : (v : PyVal) → ∀ ix x, Spec.At v ix x → Spec.IsItem x → x ∈ leaves v
  | .bool b => by intro ix x h _; obtain ⟨_, rfl⟩ := at_item (by trivial) h; simp [leaves]
  | .int b => by intro ix x h _; obtain ⟨_, rfl⟩ := at_item (by trivial) h; simp [leaves]
  | .float b => by intro ix x h _; obtain ⟨_, rfl⟩ := at_item (by trivial) h; simp [leaves]
  | .str b => by intro ix x h _; obtain ⟨_, rfl⟩ := at_item (by trivial) h; simp [leaves]
  | .other b => by intro ix x h _; obtain ⟨_, rfl⟩ := at_item (by trivial) h; simp [leaves]
  | .list l => by
    have r := at_leavesList l
    intro ix x h hx
    cases h with
    | here => exact absurd hx (by simp [Spec.IsItem])
    | inside _ i w ix _ hi h =>
      simp only [leaves]
      exact r w (List.mem_of_getElem? hi) ix x h hx

theorem at_leavesList : (l : List PyVal) → ∀ w ∈ l, ∀ ix x, Spec.At w ix x → Spec.IsItem x → x ∈ leavesList l
  | [] => by simp
  | v :: l => by
    have r1 := at_leaves v
    have r2 := at_leavesList l
    intro w hw ix x h hx
    simp only [leavesList, List.mem_append]
    rcases List.mem_cons.1 hw with rfl | hw
    · exact Or.inl (r1 ix x h hx)
    · exact Or.inr (r2 w hw ix x h hx)

end

theorem mem_leaves_iff (v x : PyVal) : x ∈ leaves v ↔ ∃ ix, Spec.At v ix x ∧ Spec.IsItem x :=
  ⟨leaves_at v x, fun ⟨ix, h1, h2⟩ => at_leaves v ix x h1 h2⟩

theorem kindOf_number {v : PyVal} (h : Spec.AllNumbers v) : Spec.NumberKind v (kindOf (leaves v)) := by
  have hn : ∀ x ∈ leaves v, ∃ q, Spec.NumberOf x q := fun x hx => by
    obtain ⟨ix, h1, h2⟩ := leaves_at v x hx
    exact h ix x h1 h2
  have h1 : (leaves v).any PyVal.isOther = false := by
    rw [List.any_eq_false]
    intro x hx
    obtain ⟨q, hq⟩ := hn x hx
    cases x <;> simp_all [Spec.NumberOf, PyVal.isOther]
  have h2 : (leaves v).any PyVal.isText = false := by
    rw [List.any_eq_false]
    intro x hx
    obtain ⟨q, hq⟩ := hn x hx
    cases x <;> simp_all [Spec.NumberOf, PyVal.isText]
  have h3 : (leaves v).any PyVal.isFloat = true ↔ Spec.HasFloat v := by
    rw [List.any_eq_true]
    constructor
    · rintro ⟨x, hx, hf⟩
      obtain ⟨ix, ha, _⟩ := leaves_at v x hx
      cases x <;> simp [PyVal.isFloat] at hf
      exact ⟨ix, _, ha⟩
    · rintro ⟨ix, q, ha⟩
      exact ⟨_, at_leaves v ix _ ha trivial, rfl⟩
  have h4 : (leaves v).any PyVal.isInt = true ↔ Spec.HasInt v := by
    rw [List.any_eq_true]
    constructor
    · rintro ⟨x, hx, hf⟩
      obtain ⟨ix, ha, _⟩ := leaves_at v x hx
      cases x <;> simp [PyVal.isInt] at hf
      exact ⟨ix, _, ha⟩
    · rintro ⟨ix, q, ha⟩
      exact ⟨_, at_leaves v ix _ ha trivial, rfl⟩
  unfold kindOf
  rw [h1, h2]
  simp only [Bool.false_eq_true, if_false]
  refine ⟨fun h => by simp [h3.2 h], fun hf hi => ?_, fun hf hi hb => ?_, fun hnone => ?_⟩
  · simp [h4.2 hi, Bool.eq_false_iff.2 (mt h3.1 hf)]
  · obtain ⟨ix, b, ha⟩ := hb
    have : (leaves v).isEmpty = false := by
      cases hl : leaves v with
      | nil => have := at_leaves v ix _ ha trivial; simp [hl] at this
      | cons => rfl
    simp [Bool.eq_false_iff.2 (mt h3.1 hf), Bool.eq_false_iff.2 (mt h4.1 hi), this]
  · have : leaves v = [] := by
      cases hl : leaves v with
      | nil => rfl
      | cons x r =>
        obtain ⟨ix, h5, h6⟩ := leaves_at v x (by simp [hl])
        exact absurd h6 (hnone ix x h5)
    simp [this]

theorem prod_eq_foldr (s : List Nat) : Spec.prod s = s.foldr (· * ·) 1 := by
  induction s with
  | nil => rfl
  | cons n s ih => simp [Spec.prod, ih]

theorem prod_atleast2 (s : List Nat) : Spec.prod (Arr.atleast2 s) = Spec.prod s := by
  match s with
  | [] => rfl
  | [n] => simp [Arr.atleast2, Spec.prod]
  | _ :: _ :: _ => rfl

theorem element_twoIndex (k : Kind) (s ix : List Nat) (d : List Elem) (hs : s ≠ []) (hw : Spec.Within s ix) :
    Spec.element ⟨k, Arr.atleast2 s, d⟩ (Spec.twoIndex ix) = d[Spec.position s ix]? := by
  have hl := hw.1
  match s, ix with
  | [], _ => exact absurd rfl hs
  | [n], [i] => simp [Spec.element, Arr.atleast2, Spec.twoIndex, Spec.position]
  | [n], [] => simp at hl
  | [n], _ :: _ :: _ => simp at hl
  | _ :: _ :: _, ix =>
    have : ix.length ≠ 1 := by simp at hl; omega
    simp [Spec.element, Arr.atleast2, Spec.twoIndex, this]

/-- what is stored for a rectangular list -/
theorem normalise_list (text : PyVal → Str) {l : List PyVal} {s : List Nat} (hr : Spec.Rect (.list l) s) {w : Val}
    (hw : normalise ((PyVal.list l).toInp text) = .ok w) :
    (Spec.prod s = 1 → ∃ x, leaves (.list l) = [x] ∧ w = scalarOf (kindOf (leaves (.list l))) (elemOf text (kindOf (leaves (.list l))) x)) ∧
    (Spec.prod s ≠ 1 → w = .arr ⟨kindOf (leaves (.list l)), Arr.atleast2 s,
      (leaves (.list l)).map (elemOf text (kindOf (leaves (.list l))))⟩) := by
  have hlen := (leaves_rect hr).1
  simp only [PyVal.toInp, shapeOf_of_rect hr, normalise, arrayOf, Arr.withShape] at hw
  have hsz : ∀ k d, (⟨k, Arr.atleast2 s, d⟩ : Arr).size = Spec.prod s := by
    intro k d
    rw [← prod_atleast2, prod_eq_foldr]
    rfl
  simp only [hsz] at hw
  constructor
  · intro h1
    rw [if_pos h1] at hw
    rw [h1] at hlen
    match hl : leaves (.list l), hlen with
    | [x], _ =>
      refine ⟨x, rfl, ?_⟩
      rw [hl] at hw
      simpa using hw.symm
  · intro h1
    rw [if_neg h1] at hw
    simpa using hw.symm

end Sofar
