import Verif.Lemmas.Lists
import Verif.Props.Attr
/-!
# Nested lists that are assigned to attributes (C91)
-/
namespace Sofar

theorem rect_list_ne {l : List PyVal} {s : List Nat} (h : Spec.Rect (.list l) s) : s ≠ [] := by
  cases h with
  | item _ hv => exact absurd hv (by simp [Spec.IsItem])
  | empty => simp
  | list => simp

theorem atleast2_twoLevels {s : List Nat} (h : s ≠ []) : Arr.atleast2 s = Spec.twoLevels s := by
  match s with
  | [] => exact absurd rfl h
  | [n] => rfl
  | _ :: _ :: _ => simp [Arr.atleast2, Spec.twoLevels]

/-- C91, numbers: a rectangular nested list of numbers is stored index by index. A list with a single number becomes this number.
Otherwise the stored array has the numbers of elements on the levels of the list as shape, with a leading 1 for lists with one
level, every index of the array belongs to an item of the list, and all items are stored at their index. -/
theorem C91_numbers (text : PyVal → Str) (o : Obj) (n : Str) (l : List PyVal) (shape : List Nat)
    (hr : Spec.Rect (.list l) shape) (hn : Spec.AllNumbers (.list l))
    (h : (setAttr o n ((PyVal.list l).toInp text)).out = .ok ()) :
    ∃ v, Dict.get? (setAttr o n ((PyVal.list l).toInp text)).obj.attrs n = some v ∧
      (Spec.prod shape = 1 → ∃ k ix x q, v = .num k (.num q) ∧ Spec.NumberKind (.list l) k ∧
        Spec.At (.list l) ix x ∧ Spec.NumberOf x q) ∧
      (Spec.prod shape ≠ 1 → ∃ a, v = .arr a ∧ a.WF ∧ Spec.NumberKind (.list l) a.kind ∧ a.shape = Spec.twoLevels shape ∧
        (∀ ix, Spec.Within shape ix → ∃ x, Spec.IsItem x ∧ Spec.At (.list l) ix x) ∧
        ∀ ix x q, Spec.At (.list l) ix x → Spec.NumberOf x q →
          Spec.Within shape ix ∧ Spec.element a (Spec.twoIndex ix) = some (.num q)) := by
  rcases setAttr_cases o n ((PyVal.list l).toInp text) with ⟨e, h1, _⟩ | ⟨b, h1, _⟩ | ⟨w, hw, _, _, _, h2, _⟩
  · simp [h] at h1
  · simp only [PyVal.toInp] at h1
    split at h1 <;> simp at h1
  · refine ⟨w, by simp [h2], ?_⟩
    obtain ⟨g1, g2⟩ := normalise_list text hr hw
    have hall : ∀ x ∈ leaves (.list l), ∃ q, Spec.NumberOf x q := fun x hx => by
      obtain ⟨ix, h1, h2⟩ := leaves_at _ x hx
      exact hn ix x h1 h2
    have hk := kindOf_numbers hall
    have hkn := kindOf_number hn
    have hU : kindOf (leaves (.list l)) ≠ .U := by rcases hk with h | h | h <;> simp [h]
    obtain ⟨r1, r2, r3⟩ := leaves_rect hr
    constructor
    · intro hp
      obtain ⟨x, hx, rfl⟩ := g1 hp
      obtain ⟨ix, ha, hi⟩ := leaves_at (.list l) x (by simp [hx])
      obtain ⟨q, hq⟩ := hn ix x ha hi
      refine ⟨_, ix, x, q, ?_, hkn, ha, hq⟩
      rw [elemOf_number hU hq]
      rcases hk with h | h | h <;> rw [h] <;> rfl
    · intro hp
      refine ⟨_, g2 hp, ?_, hkn, atleast2_twoLevels (rect_list_ne hr), r3, ?_⟩
      · simp only [Arr.WF, List.length_map, r1, Arr.size]
        rw [← prod_eq_foldr, prod_atleast2]
      · intro ix x q ha hq
        have hi : Spec.IsItem x := by cases x <;> simp_all [Spec.NumberOf, Spec.IsItem]
        obtain ⟨hwi, hg⟩ := r2 ix x ha hi
        refine ⟨hwi, ?_⟩
        rw [element_twoIndex _ _ _ _ (rect_list_ne hr) hwi, List.getElem?_map, hg]
        simp [elemOf_number hU hq]

/-- `[[1, 2.5, True], [4, 5, 6]]` -/
def exNested : List PyVal :=
  [.list [.int 1, .float (.fin (5/2)), .bool true], .list [.int 4, .int 5, .int 6]]

/-- any conversion of numbers to text -/
def exNumText : PyVal → Str := fun _ => py% "1"

theorem exNested_rect : Spec.Rect (.list exNested) [2, 3] := rect_of_shapeOf _ _ (by decide +kernel)

theorem exNested_numbers : Spec.AllNumbers (.list exNested) := by
  intro ix x h hi
  have := at_leaves _ ix x h hi
  simp only [leaves, exNested, leavesList, List.append_nil, List.cons_append, List.nil_append, List.mem_cons,
    List.not_mem_nil, or_false] at this
  rcases this with rfl | rfl | rfl | rfl | rfl | rfl <;> exact ⟨_, rfl⟩

example : (setAttr exObj (py% "Note") ((PyVal.list exNested).toInp exNumText)).out = .ok () ∧
    Dict.get? (setAttr exObj (py% "Note") ((PyVal.list exNested).toInp exNumText)).obj.attrs (py% "Note") =
      some (.arr ⟨.f, [2, 3], [.num (.fin 1), .num (.fin (5/2)), .num (.fin 1), .num (.fin 4), .num (.fin 5), .num (.fin 6)]⟩) := by
  decide +kernel

/-- C91, texts: likewise for rectangular nested lists of texts. -/
theorem C91_texts (text : PyVal → Str) (o : Obj) (n : Str) (l : List PyVal) (shape : List Nat)
    (hr : Spec.Rect (.list l) shape) (ht : Spec.AllTexts (.list l)) (hne : Spec.prod shape ≠ 0)
    (h : (setAttr o n ((PyVal.list l).toInp text)).out = .ok ()) :
    ∃ v, Dict.get? (setAttr o n ((PyVal.list l).toInp text)).obj.attrs n = some v ∧
      (Spec.prod shape = 1 → ∃ ix s, v = .npstr s ∧ Spec.At (.list l) ix (.str s)) ∧
      (Spec.prod shape ≠ 1 → ∃ a, v = .arr a ∧ a.WF ∧ a.kind = .U ∧ a.shape = Spec.twoLevels shape ∧
        (∀ ix, Spec.Within shape ix → ∃ s, Spec.At (.list l) ix (.str s)) ∧
        ∀ ix s, Spec.At (.list l) ix (.str s) →
          Spec.Within shape ix ∧ Spec.element a (Spec.twoIndex ix) = some (.str s)) := by
  rcases setAttr_cases o n ((PyVal.list l).toInp text) with ⟨e, h1, _⟩ | ⟨b, h1, _⟩ | ⟨w, hw, _, _, _, h2, _⟩
  · simp [h] at h1
  · simp only [PyVal.toInp] at h1
    split at h1 <;> simp at h1
  · refine ⟨w, by simp [h2], ?_⟩
    obtain ⟨g1, g2⟩ := normalise_list text hr hw
    obtain ⟨r1, r2, r3⟩ := leaves_rect hr
    have hall : ∀ x ∈ leaves (.list l), ∃ s, x = .str s := fun x hx => by
      obtain ⟨ix, h1, h2⟩ := leaves_at _ x hx
      exact ht ix x h1 h2
    have hk : kindOf (leaves (.list l)) = .U := kindOf_texts hall (fun h0 => hne (by simpa [h0] using r1.symm))
    rw [hk] at g1 g2
    constructor
    · intro hp
      obtain ⟨x, hx, rfl⟩ := g1 hp
      obtain ⟨ix, ha, hi⟩ := leaves_at (.list l) x (by simp [hx])
      obtain ⟨s, rfl⟩ := ht ix x ha hi
      exact ⟨ix, s, rfl, ha⟩
    · intro hp
      refine ⟨_, g2 hp, ?_, rfl, atleast2_twoLevels (rect_list_ne hr), ?_, ?_⟩
      · simp only [Arr.WF, List.length_map, r1, Arr.size]
        rw [← prod_eq_foldr, prod_atleast2]
      · intro ix hwi
        obtain ⟨x, hi, ha⟩ := r3 ix hwi
        obtain ⟨s, rfl⟩ := ht ix x ha hi
        exact ⟨s, ha⟩
      · intro ix s ha
        obtain ⟨hwi, hg⟩ := r2 ix _ ha trivial
        refine ⟨hwi, ?_⟩
        rw [element_twoIndex _ _ _ _ (rect_list_ne hr) hwi, List.getElem?_map, hg]
        rfl

example : (setAttr exObj (py% "Note") ((PyVal.list [.str (py% "a"), .str (py% "bc")]).toInp exNumText)).out = .ok () ∧
    Dict.get? (setAttr exObj (py% "Note") ((PyVal.list [.str (py% "a"), .str (py% "bc")]).toInp exNumText)).obj.attrs (py% "Note") =
      some (.arr ⟨.U, [1, 2], [.str (py% "a"), .str (py% "bc")]⟩) := by
  decide +kernel

example : Spec.Rect (.list [.str (py% "a"), .str (py% "bc")]) [2] := rect_of_shapeOf _ _ (by decide +kernel)

/-- C91, ragged lists: an assignment of a list succeeds exactly if the list is rectangular and the same assignment with some
text succeeds. Otherwise it raises and the object is unchanged. -/
theorem C91_raises (text : PyVal → Str) (o : Obj) (n : Str) (l : List PyVal) :
    ((setAttr o n ((PyVal.list l).toInp text)).out = .ok () ↔
      (∃ shape, Spec.Rect (.list l) shape) ∧ (setAttr o n (.val (.str []))).out = .ok ()) ∧
    ((¬ ∃ shape, Spec.Rect (.list l) shape) →
      (∃ e, (setAttr o n ((PyVal.list l).toInp text)).out = .error e ∧ (setAttr o n ((PyVal.list l).toInp text)).obj = o) ∧
      ((setAttr o n (.val (.str []))).out = .ok () →
        ∃ m, (setAttr o n ((PyVal.list l).toInp text)).out = .error (.valueError m))) := by
  have key : ∀ v : Inp, (∀ b, v ≠ .pybool b) → ((setAttr o n v).out = .ok () ↔
      (∃ w, normalise v = .ok w) ∧ (setAttr o n (.val (.str []))).out = .ok ()) := by
    intro v hv
    unfold setAttr
    split
    · simp
    · split
      · simp
      · split
        · cases v <;> simp_all
        · cases hn : normalise v <;> simp only [normalise]
          · simp
          · split
            · simp
            · split <;> simp
  have hb : ∀ b, (PyVal.list l).toInp text ≠ .pybool b := by
    intro b
    simp only [PyVal.toInp]
    split <;> simp
  have hrag : (¬ ∃ shape, Spec.Rect (.list l) shape) → (PyVal.list l).toInp text = .ragged := by
    intro h
    cases hs : shapeOf (.list l) with
    | none => simp [PyVal.toInp, hs]
    | some s => exact absurd ⟨s, rect_of_shapeOf _ _ hs⟩ h
  refine ⟨?_, ?_⟩
  · rw [key _ hb]
    refine and_congr_left (fun _ => ?_)
    constructor
    · rintro ⟨w, hw⟩
      refine Classical.byContradiction (fun hno => ?_)
      rw [hrag hno] at hw
      simp [normalise] at hw
    · rintro ⟨s, hs⟩
      simp only [PyVal.toInp, shapeOf_of_rect hs, normalise]
      split
      · split <;> exact ⟨_, rfl⟩
      · exact ⟨_, rfl⟩
  · intro hno
    rw [hrag hno]
    refine ⟨?_, ?_⟩
    · rcases setAttr_cases o n .ragged with ⟨e, h1, h2, _⟩ | ⟨b, h1, _⟩ | ⟨w, hw, _⟩
      · exact ⟨e, h1, h2⟩
      · simp at h1
      · simp [normalise] at hw
    · intro hok
      unfold setAttr at hok ⊢
      split
      · rename_i h1; simp [h1] at hok
      · rename_i h1
        rw [if_neg h1] at hok
        split
        · rename_i h2; simp [h2] at hok
        · rename_i h2
          rw [if_neg h2] at hok
          split
          · exact ⟨_, rfl⟩
          · exact ⟨_, rfl⟩

example : shapeOf (.list [.list [.int 1, .int 2], .list [.int 3]]) = none := by decide +kernel

example : ¬ ∃ shape, Spec.Rect (.list [.list [.int 1, .int 2], .list [.int 3]]) shape := by
  rintro ⟨s, hs⟩
  have := shapeOf_of_rect hs
  rw [show shapeOf (.list [.list [.int 1, .int 2], .list [.int 3]]) = none by decide +kernel] at this
  cases this

/-- C91 is false for lists of numbers and texts: `[1, 'a']` is rectangular, but the number is replaced by a text. -/
theorem C91_refuted (text : PyVal → Str) : ∃ (o : Obj) (n : Str) (l : List PyVal) (a : Arr),
    (∃ shape, Spec.Rect (.list l) shape) ∧ Spec.At (.list l) [0] (.int 1) ∧
    (setAttr o n ((PyVal.list l).toInp text)).out = .ok () ∧
    Dict.get? (setAttr o n ((PyVal.list l).toInp text)).obj.attrs n = some (.arr a) ∧
    Spec.element a [0, 0] = some (.str (text (.int 1))) :=
  ⟨exObj, py% "Note", [.int 1, .str (py% "a")], ⟨.U, [1, 2], [.str (text (.int 1)), .str (py% "a")]⟩,
    ⟨_, rect_of_shapeOf _ [2] (by decide +kernel)⟩, .inside _ 0 _ _ _ rfl (.here _), rfl, rfl, rfl⟩

end Sofar
