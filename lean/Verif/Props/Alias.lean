import Verif.Lemmas.Alias
import Verif.Props.Attr
/-!
# C87: objects and the memory of the program (sofar/sofa.py:133-158)

`conv` is what numpy makes of a list (`np.atleast_2d`); all theorems hold for any such function.
-/
namespace Sofar

/-! ## Examples -/

/-- memory of a program with an array (1), a list (2), a Sofa object (3), another Sofa object that uses the same array (4),
and the convention of the object (5) -/
def exMemory : Heap :=
  [.buf [.num (.fin 1), .num (.fin 2)],
   .arr .f [1, 2] 0 [0, 1],
   .list [.imm (.num .i (.num (.fin 3))), .imm (.num .i (.num (.fin 4)))],
   .inst [(py% "Data_Delay", .imm (.num .i (.num (.fin 0)))), (py% "SourceUp", .ref 6), (py% "_convention", .ref 5)],
   .inst [(py% "Data_IR", .ref 1)],
   .dict [],
   .arr .f [1, 1] 7 [0],
   .buf [.num (.fin 9)]]

/-- the data of the Sofa object at address 3; `SourceUp` is read only -/
def exInMemory : Obj where
  attrs := [(py% "Data_Delay", .num .i (.num (.fin 0))), (py% "SourceUp", .arr ⟨.f, [1, 1], [.num (.fin 9)]⟩)]
  conv := []
  custom := none
  dims := none
  api := none
  readOnly := .names [py% "SourceUp"]
  prot := true

/-- numpy makes an array of the list of exMemory -/
def exConv : Heap → Ref → Inp := fun h r =>
  match h[r]? with
  | some (.list l) => .list ⟨.i, [l.length], l.map (fun v => match v with | .imm (.num _ e) => e | _ => .obj 0)⟩
  | _ => .ragged

theorem exMemory_sound : Spec.Sound exMemory := by
  intro c hc
  simp only [exMemory, List.mem_cons, List.not_mem_nil, or_false] at hc
  rcases hc with rfl | rfl | rfl | rfl | rfl | rfl | rfl | rfl
  all_goals refine ⟨by decide +kernel, ?_⟩
  all_goals intro k s b idx e
  all_goals first
    | (cases e; exact ⟨_, rfl, by decide +kernel⟩)
    | cases e

theorem exMemory_shows : Spec.Shows exMemory 3 exInMemory.attrs := ⟨_, rfl, by decide +kernel⟩

theorem exMemory_separate : Spec.Separate exMemory [1, 2, 4] [3] := by
  have ha : ∀ r, Spec.Reach exMemory [1, 2, 4] r → r ∈ [0, 1, 2, 4] := by
    intro r hr
    induction hr with
    | start hr =>
      simp only [List.mem_cons, List.not_mem_nil, or_false] at hr
      rcases hr with rfl | rfl | rfl <;> decide
    | step hr hc hq ih =>
      rename_i r c q
      simp only [List.mem_cons, List.not_mem_nil, or_false] at ih
      rcases ih with rfl | rfl | rfl | rfl <;> (simp [exMemory] at hc; subst hc; revert hq; simp [Spec.refs]) <;> (rintro rfl; decide)
  have hb : ∀ r, Spec.Reach exMemory [3] r → r ∈ [3, 5, 6, 7] := by
    intro r hr
    induction hr with
    | start hr =>
      simp only [List.mem_cons, List.not_mem_nil, or_false] at hr
      subst hr; decide
    | step hr hc hq ih =>
      rename_i r c q
      simp only [List.mem_cons, List.not_mem_nil, or_false] at ih
      rcases ih with rfl | rfl | rfl | rfl <;> (simp [exMemory] at hc; subst hc; revert hq; simp [Spec.refs])
      · rintro (rfl | rfl) <;> decide
      · rintro rfl; decide
  intro r h1 h2
  have e1 := ha r h1
  have e2 := hb r h2
  simp only [List.mem_cons, List.not_mem_nil, or_false] at e1
  rcases e1 with rfl | rfl | rfl | rfl <;> exact absurd e2 (by decide)

theorem heapInp_look {conv : Heap → Ref → Inp} {h : Heap} {v : HVal} {w : Val} (hl : ∀ r l, v = .ref r → h[r]? ≠ some (.list l))
    (hv : heapInp conv h v = some (.val w)) : Spec.look h v = some w := by
  cases v with
  | imm v => simpa [heapInp, Spec.look] using hv
  | ref r =>
    simp only [heapInp] at hv
    simp only [Spec.look]
    cases hc : h[r]? with
    | none => simp [hc] at hv
    | some c =>
      rw [hc] at hv
      cases c with
      | arr k s b idx =>
        simp only [Option.map_eq_some_iff] at hv
        obtain ⟨es, h1, h2⟩ := hv
        simp only [mapM_bufElem h1, Option.map_some]
        simpa using h2
      | dict d => simpa using hv
      | list l => exact absurd hc (hl r l rfl)
      | inst d => simp at hv
      | buf d => simp at hv

theorem shows_putNew {h : Heap} {s : Ref} {attrs : Dict Val} (hs : Spec.Shows h s attrs) {name : Str} (w : Val)
    (hn : isPrivate name = false) : Spec.Shows (heapPutNew h s name w) s (Dict.put attrs name w) := by
  cases w with
  | arr a => exact shows_put (shows_append hs _) hn (look_new h a)
  | _ => exact shows_put hs hn rfl

/-- Assignments in memory do what assignments of values do: the call has the same outcome, and afterwards the object has
the same data. -/
theorem C87_assignment (conv : Heap → Ref → Inp) (h : Heap) (s : Ref) (o : Obj) (name : Str) (v : HVal) (value : Inp)
    (hs : Spec.Shows h s o.attrs) (hv : heapInp conv h v = some value) (hn : name ≠ py% "protected") :
    (heapSetAttr conv h s o name v).1 = (setAttr o name value).out ∧
      Spec.Shows (heapSetAttr conv h s o name v).2 s (setAttr o name value).obj.attrs := by
  unfold heapSetAttr setAttr
  by_cases h1 : (o.prot && ! o.hasAttr name) = true
  · rw [if_pos h1, if_pos h1]; exact ⟨rfl, hs⟩
  by_cases h2 : (o.readOnly.has name && o.prot) = true
  · rw [if_neg h1, if_neg h1, if_pos h2, if_pos h2]; exact ⟨rfl, hs⟩
  rw [if_neg h1, if_neg h1, if_neg h2, if_neg h2, if_neg hn, if_neg hn]
  simp only [hv, Option.map_some]
  have plain : ∀ w, value = .val w → (∀ r l, v = .ref r → h[r]? ≠ some (.list l)) → Spec.look h v = some w := by
    rintro w rfl hl; exact heapInp_look hl hv
  by_cases h3 : name = py% "list_dimensions"
  · simp only [h3, if_true]
    cases normalise value with
    | error e => exact ⟨rfl, hs⟩
    | ok w => exact ⟨rfl, hs⟩
  by_cases h4 : isPrivate name = true
  · simp only [h3, h4, if_true, if_false]
    cases normalise value with
    | error e => exact ⟨rfl, hs⟩
    | ok w => exact ⟨rfl, hs⟩
  simp only [h3, h4, if_false]
  have hp : isPrivate name = false := by simpa using h4
  cases v with
  | imm w =>
    simp only [heapInp, Option.some.injEq] at hv
    subst hv
    exact ⟨rfl, shows_put hs hp rfl⟩
  | ref r =>
    simp only [heapInp] at hv
    simp only [heapStore]
    cases hc : h[r]? with
    | none => simp [hc] at hv
    | some c =>
      rw [hc] at hv
      have nl : (∀ l, c ≠ .list l) → ∀ r' l, HVal.ref r = .ref r' → h[r']? ≠ some (.list l) := by
        rintro hx r' l e e2
        cases e
        rw [hc] at e2
        cases e2
        exact hx l rfl
      cases c with
      | arr k sh b idx =>
        simp only [Option.map_eq_some_iff] at hv
        obtain ⟨es, h5, rfl⟩ := hv
        exact ⟨rfl, shows_put hs hp (plain _ rfl (nl (by rintro l e; cases e)))⟩
      | dict d =>
        simp only [Option.some.injEq] at hv
        subst hv
        exact ⟨rfl, shows_put hs hp (plain _ rfl (nl (by rintro l e; cases e)))⟩
      | list l =>
        simp only [Option.some.injEq] at hv
        subst hv
        simp only
        cases normalise (conv h r) with
        | error e => exact ⟨rfl, hs⟩
        | ok w => exact ⟨rfl, shows_putNew hs w hp⟩
      | inst d => simp at hv
      | buf d => simp at hv

/-- the assignment `sofa.Data_Delay = [3, 4]` -/
example : Spec.Shows exMemory 3 exInMemory.attrs ∧
    heapInp exConv exMemory (.ref 2) = some (.list ⟨.i, [2], [.num (.fin 3), .num (.fin 4)]⟩) ∧
    (heapSetAttr exConv exMemory 3 exInMemory (py% "Data_Delay") (.ref 2)).1 = .ok () ∧
    (heapSetAttr exConv exMemory 3 exInMemory (py% "Data_Delay") (.ref 2)).2[3]? =
      some (.inst [(py% "Data_Delay", .ref 9), (py% "SourceUp", .ref 6), (py% "_convention", .ref 5)]) ∧
    Spec.Shows exMemory 4 [(py% "Data_IR", .arr ⟨.f, [1, 2], [.num (.fin 1), .num (.fin 2)]⟩)] :=
  ⟨exMemory_shows, by decide +kernel, by decide +kernel, by decide +kernel, ⟨_, rfl, by decide +kernel⟩⟩

theorem shows_putNew_other {h : Heap} {s t : Ref} {attrs : Dict Val} (ht : Spec.Shows h t attrs) (hne : t ≠ s) (name : Str)
    (w : Val) : Spec.Shows (heapPutNew h s name w) t attrs := by
  cases w with
  | arr a => exact shows_put_other (shows_append ht _) hne _ _
  | _ => exact shows_put_other ht hne _ _

/-- An assignment to one object leaves the data of all other objects as it is, also if they share arrays. -/
theorem C87_others (conv : Heap → Ref → Inp) (h : Heap) (s t : Ref) (o : Obj) (name : Str) (v : HVal) (attrs : Dict Val)
    (ht : Spec.Shows h t attrs) (hne : t ≠ s) : Spec.Shows (heapSetAttr conv h s o name v).2 t attrs := by
  unfold heapSetAttr
  split
  · exact ht
  split
  · exact ht
  split
  · exact ht
  split
  · split <;> exact ht
  split
  · split <;> exact ht
  unfold heapStore
  split
  · exact shows_put_other ht hne _ _
  · split
    · exact shows_put_other ht hne _ _
    · exact shows_put_other ht hne _ _
    · split
      · exact ht
      · exact shows_putNew_other ht hne _ _
    · exact ht

/-- the assignment `sofa.Data_Delay = [3, 4]` and the object at address 4 -/
example : Spec.Shows exMemory 4 [(py% "Data_IR", .arr ⟨.f, [1, 2], [.num (.fin 1), .num (.fin 2)]⟩)] ∧ 4 ≠ 3 ∧
    (heapSetAttr exConv exMemory 3 exInMemory (py% "Data_Delay") (.ref 2)).2 ≠ exMemory :=
  ⟨⟨_, rfl, by decide +kernel⟩, by decide, fun h => absurd (congrArg List.length h) (by decide +kernel)⟩

/-! ## Lists are copied -/

theorem reach_world {h : Heap} (hS : Spec.Sound h) {start : List Ref} (hst : ∀ r ∈ start, r < h.length) :
    World h (Spec.Reach h start) where
  valid := fun a ha => by
    induction ha with
    | start hr => exact hst _ hr
    | step hr hc hq ih => exact Sound_inRange hS _ _ hc _ hq
  closed := fun a c ha hc r hr => .step ha hc hr

/-- a world that is not touched by the assignment, next to the world of the object -/
theorem heapPut_apart {h : Heap} {s : Ref} {P Q : Ref → Prop} {held : List Ref} (hA : Apart ⟨h, held, [s]⟩ P Q) {name : Str}
    {v : HVal} (hv : ∀ r, v = .ref r → Q r) : Apart ⟨heapPut h s name v, held, [s]⟩ P Q := by
  unfold heapPut
  split
  · rename_i d hd
    have hs : Q s := hA.heldB s (by simp)
    have hkeep : ∀ a, P a → (h.set s (.inst (Dict.put d name v)))[a]? = h[a]? := fun a ha => by
      rw [List.getElem?_set_ne]
      rintro rfl
      exact hA.disjoint _ ha hs
    refine ⟨hA.a.same (by simp) hkeep, ⟨fun a ha => by simpa using hA.b.valid a ha, ?_⟩, hA.disjoint, hA.heldA, hA.heldB⟩
    intro a c ha hc r hr
    simp only at hc
    by_cases e : s = a
    · subst e
      rw [List.getElem?_set_self (hA.b.valid s hs)] at hc
      cases hc
      simp only [Spec.refs] at hr
      obtain ⟨k', hk⟩ := mem_refs_dict hr
      rcases mem_put_heap hk with hk | hk
      · exact hA.b.closed s _ hs hd r (by
          simp only [Spec.refs, List.mem_filterMap]
          exact ⟨_, hk, rfl⟩)
      · exact hv r hk.symm
    · rw [List.getElem?_set_ne e] at hc
      exact hA.b.closed a c ha hc r hr
  · exact hA

theorem heapPutNew_apart {h : Heap} {s : Ref} {P Q : Ref → Prop} {held : List Ref} (hA : Apart ⟨h, held, [s]⟩ P Q) (name : Str)
    (w : Val) : ∃ Q', Apart ⟨heapPutNew h s name w, held, [s]⟩ P Q' := by
  cases w with
  | arr a =>
    have hlen : (h ++ [HCell.buf a.data, .arr a.kind a.shape h.length (List.range a.data.length)]).length = h.length + 2 := by
      simp
    refine ⟨fun r => Q r ∨ r = h.length ∨ r = h.length + 1, ?_⟩
    show Apart ⟨heapPut _ s name (.ref (h.length + 1)), held, [s]⟩ P _
    refine heapPut_apart (h := h ++ [.buf a.data, .arr a.kind a.shape h.length (List.range a.data.length)]) (Q := fun r => Q r ∨ r = h.length ∨ r = h.length + 1)
      ⟨?_, ⟨?_, ?_⟩, ?_, hA.heldA, fun r hr => Or.inl (hA.heldB r hr)⟩ ?_
    · exact hA.a.same (by simp) (fun x hx => List.getElem?_append_left (hA.a.valid x hx))
    · rintro x (hx | rfl | rfl)
      · have := hA.b.valid x hx
        simp only [hlen]
        exact Nat.lt_add_right 2 this
      · simp
      · simp
    · rintro x c hx hc r hr
      simp only at hc
      rcases hx with hx | rfl | rfl
      · rw [List.getElem?_append_left (hA.b.valid x hx)] at hc
        exact Or.inl (hA.b.closed x c hx hc r hr)
      · rw [List.getElem?_append_right (Nat.le_refl _)] at hc
        simp at hc
        subst hc
        simp [Spec.refs] at hr
      · rw [List.getElem?_append_right (by omega)] at hc
        simp at hc
        subst hc
        simp [Spec.refs] at hr
        exact Or.inr (Or.inl hr)
    · rintro x hx (hq | rfl | rfl)
      · exact hA.disjoint x hx hq
      · exact absurd (hA.a.valid _ hx) (Nat.lt_irrefl _)
      · exact absurd (hA.a.valid _ hx) (by simp)
    · rintro r e
      cases e
      exact Or.inr (Or.inr rfl)
  | _ => exact ⟨Q, heapPut_apart hA (by rintro r e; cases e)⟩

theorem runAlone_keeps {h : Heap} {s : Ref} {P Q : Ref → Prop} {held : List Ref} (hA : Apart ⟨h, held, [s]⟩ P Q)
    (ops : List Spec.Op) (p : List Spec.Key) :
    Spec.see (Spec.runAlone h held ops).1 (.ref s) p = Spec.see h (.ref s) p := by
  induction ops generalizing h held P with
  | nil => rfl
  | cons op ops ih =>
    obtain ⟨⟨P', h1⟩, h2⟩ := apart_step_true hA op
    rw [Spec.runAlone, ih h1]
    exact see_congr hA.b h2 p _ (by rintro x e; cases e; exact hA.heldB s (by simp))

/-- Lists are copied when they are assigned (and immutable values can not change): Let a program hold anything that has
nothing in common with the object, for example the list. After the assignment of the list, nothing that this program does
changes the object. -/
theorem C87_lists (conv : Heap → Ref → Inp) (h : Heap) (s r : Ref) (o : Obj) (name : Str) (l : List HVal) (held : List Ref)
    (hS : Spec.Sound h) (hs : s < h.length) (hr : h[r]? = some (.list l)) (hh : ∀ x ∈ held, x < h.length)
    (hsep : Spec.Separate h held [s]) (ops : List Spec.Op) (p : List Spec.Key) :
    Spec.see (Spec.runAlone (heapSetAttr conv h s o name (.ref r)).2 held ops).1 (.ref s) p =
      Spec.see (heapSetAttr conv h s o name (.ref r)).2 (.ref s) p := by
  have hA : Apart ⟨h, held, [s]⟩ (Spec.Reach h held) (Spec.Reach h [s]) :=
    ⟨reach_world hS hh, reach_world hS (by simpa using hs), hsep, fun x hx => .start hx, fun x hx => .start hx⟩
  have key : ∃ Q, Apart ⟨(heapSetAttr conv h s o name (.ref r)).2, held, [s]⟩ (Spec.Reach h held) Q := by
    unfold heapSetAttr
    split
    · exact ⟨_, hA⟩
    split
    · exact ⟨_, hA⟩
    split
    · exact ⟨_, hA⟩
    split
    · split <;> exact ⟨_, hA⟩
    split
    · split <;> exact ⟨_, hA⟩
    simp only [heapStore, hr]
    split
    · exact ⟨_, hA⟩
    · exact heapPutNew_apart hA _ _
  obtain ⟨Q, hQ⟩ := key
  exact runAlone_keeps hQ ops p

/-- a program that holds the array, the list and the other object, and changes the list after the assignment -/
example : Spec.Sound exMemory ∧ Spec.Separate exMemory [1, 2, 4] [3] ∧
    (let t := Spec.runAlone (heapSetAttr exConv exMemory 3 exInMemory (py% "Data_Delay") (.ref 2)).2 [1, 2, 4] [.items 2 []]
     Spec.see t.1 (.ref 2) [] = .list 0 ∧
     Spec.see t.1 (.ref 3) [.name (py% "Data_Delay")] = .array .i [1, 2] [some (.num (.fin 3)), some (.num (.fin 4))]) :=
  ⟨exMemory_sound, exMemory_separate, by decide +kernel⟩

/-! ## Arrays are shared -/

theorem exec_bound {h : Heap} {held : List Ref} {s : Ref} {name : Str} {v : HVal} {d : Dict HVal} (op : Spec.Op)
    (hd : h[s]? = some (.inst d)) (hv : Dict.get? d name = some v) (hop : ¬ Spec.Rebinds s name op) :
    ∃ d', (Spec.exec h held op).1[s]? = some (.inst d') ∧ Dict.get? d' name = some v := by
  have hlt : s < h.length := by rcases List.getElem?_eq_some_iff.1 hd with ⟨x, _⟩; exact x
  have same : ∃ d', h[s]? = some (.inst d') ∧ Dict.get? d' name = some v := ⟨d, hd, hv⟩
  have app : ∀ l, ∃ d', (h ++ l)[s]? = some (.inst d') ∧ Dict.get? d' name = some v := fun l =>
    ⟨d, by rw [List.getElem?_append_left hlt]; exact hd, hv⟩
  have other : ∀ x c, x ≠ s → ∃ d', (h.set x c)[s]? = some (.inst d') ∧ Dict.get? d' name = some v := fun x c hx =>
    ⟨d, by rw [List.getElem?_set_ne hx]; exact hd, hv⟩
  cases op with
  | get x k =>
    simp only [Spec.exec]
    split
    · split <;> exact same
    · exact same
  | view x sh idx =>
    simp only [Spec.exec]
    split
    · split
      · exact app _
      · exact same
    · exact same
  | put x k w =>
    simp only [Spec.exec]
    split
    · split
      · rename_i d1 h1
        by_cases e : x = s
        · subst e
          have hk : name ≠ k := fun e2 => hop ⟨rfl, e2.symm⟩
          refine ⟨Dict.put d1 k w, List.getElem?_set_self hlt, ?_⟩
          rw [hd] at h1
          cases h1
          rw [Dict.get?_put_ne d w hk]
          exact hv
        · exact other _ _ e
      · rename_i d1 h1
        refine other _ _ ?_
        rintro rfl
        rw [hd] at h1; cases h1
      · exact same
    · exact same
  | del x k =>
    simp only [Spec.exec]
    split
    · split
      · rename_i d1 h1
        by_cases e : x = s
        · subst e
          have hk : name ≠ k := fun e2 => hop ⟨rfl, e2.symm⟩
          refine ⟨Dict.del d1 k, List.getElem?_set_self hlt, ?_⟩
          rw [hd] at h1
          cases h1
          rw [Dict.get?_del_ne _ hk]
          exact hv
        · exact other _ _ e
      · rename_i d1 h1
        refine other _ _ ?_
        rintro rfl
        rw [hd] at h1; cases h1
      · exact same
    · exact same
  | items x l =>
    simp only [Spec.exec]
    split
    · split
      · rename_i d1 h1
        refine other _ _ ?_
        rintro rfl
        rw [hd] at h1; cases h1
      · exact same
    · exact same
  | fill x data =>
    simp only [Spec.exec]
    split
    · split
      · split
        · rename_i b _ _ _ h1
          refine other _ _ ?_
          rintro rfl
          rw [hd] at h1; cases h1
        · exact same
      · exact same
    · exact same
  | shape x sh =>
    simp only [Spec.exec]
    split
    · split
      · rename_i h1
        refine other _ _ ?_
        rintro rfl
        rw [hd] at h1; cases h1
      · exact same
    · exact same
  | newDict d1 => simp only [Spec.exec]; split; exacts [app _, same]
  | newList d1 => simp only [Spec.exec]; split; exacts [app _, same]
  | newInst d1 => simp only [Spec.exec]; split; exacts [app _, same]
  | newArr k sh data => exact app _

theorem runAlone_bound {h : Heap} {held : List Ref} {s : Ref} {name : Str} {v : HVal} {d : Dict HVal} (ops : List Spec.Op)
    (hd : h[s]? = some (.inst d)) (hv : Dict.get? d name = some v) (hop : ∀ op ∈ ops, ¬ Spec.Rebinds s name op) :
    ∃ d', (Spec.runAlone h held ops).1[s]? = some (.inst d') ∧ Dict.get? d' name = some v := by
  induction ops generalizing h held d with
  | nil => exact ⟨d, hd, hv⟩
  | cons op ops ih =>
    obtain ⟨d1, h1, h2⟩ := exec_bound (held := held) op hd hv (hop op (by simp))
    exact ih h1 h2 (fun x hx => hop x (by simp [hx]))

/-- Arrays are not copied when they are assigned: the object and everybody else who holds the array see the same array,
whatever happens to it, until another value is assigned to the name. -/
theorem C87_arrays (conv : Heap → Ref → Inp) (h : Heap) (s r b : Ref) (o : Obj) (name : Str) (d : Dict HVal) (k : Kind)
    (sh idx : List Nat) (held : List Ref) (hs : h[s]? = some (.inst d)) (hr : h[r]? = some (.arr k sh b idx))
    (hok : (heapSetAttr conv h s o name (.ref r)).1 = .ok ()) (ops : List Spec.Op)
    (hops : ∀ op ∈ ops, ¬ Spec.Rebinds s name op) (p : List Spec.Key) :
    Spec.see (Spec.runAlone (heapSetAttr conv h s o name (.ref r)).2 held ops).1 (.ref s) (.name name :: p) =
      Spec.see (Spec.runAlone (heapSetAttr conv h s o name (.ref r)).2 held ops).1 (.ref r) p := by
  have hlt : s < h.length := by rcases List.getElem?_eq_some_iff.1 hs with ⟨x, _⟩; exact x
  have key : (heapSetAttr conv h s o name (.ref r)).2 = h.set s (.inst (Dict.put d name (.ref r))) := by
    unfold heapSetAttr at hok ⊢
    split at hok
    · cases hok
    split at hok
    · cases hok
    split at hok
    · cases hok
    split at hok
    · split at hok <;> cases hok
    split at hok
    · split at hok <;> cases hok
    rename_i h1 h2 h3 h4 h5
    rw [if_neg h1, if_neg h2, if_neg h3, if_neg h4, if_neg h5]
    simp only [heapStore, hr, heapPut, hs]
  rw [key]
  obtain ⟨d', h1, h2⟩ := runAlone_bound (held := held) (h := h.set s (.inst (Dict.put d name (.ref r)))) (v := .ref r) ops
    (List.getElem?_set_self hlt) (by simp) hops
  simp only [Spec.see, Spec.item, h1, h2]

/-- the hypotheses of `C87_arrays` -/
example : exMemory[1]? = some (.arr .f [1, 2] 0 [0, 1]) ∧
    (heapSetAttr exConv exMemory 3 exInMemory (py% "Data_Delay") (.ref 1)).1 = .ok () ∧
    ¬ Spec.Rebinds 3 (py% "Data_Delay") (.fill 1 [.num .nan, .num .nan]) :=
  ⟨by decide +kernel, by decide +kernel, fun h => h⟩

/-- Objects do not own arrays: after `sofa.Data_Delay = a` and `a[:] = nan`, the object has other data, although nothing was
assigned to it. -/
theorem C87_refuted : ¬ ∀ (conv : Heap → Ref → Inp) (h : Heap) (s r : Ref) (o : Obj) (name : Str) (held : List Ref)
    (op : Spec.Op), Spec.Sound h → Spec.Shows h s o.attrs → Spec.Separate h held [s] →
    Spec.see (Spec.exec (heapSetAttr conv h s o name (.ref r)).2 held op).1 (.ref s) [.name name] =
      Spec.see (heapSetAttr conv h s o name (.ref r)).2 (.ref s) [.name name] := by
  intro h
  have := h exConv exMemory 3 1 exInMemory (py% "Data_Delay") [1, 2, 4] (.fill 1 [.num .nan, .num .nan]) exMemory_sound
    exMemory_shows exMemory_separate
  revert this
  decide +kernel

/-- Read only data of a protected object can be changed in place, `sofa.SourceUp[:] = 5`, although it can not be
assigned. -/
theorem C87_read_only_refuted : ¬ ∀ (conv : Heap → Ref → Inp) (h : Heap) (s : Ref) (o : Obj) (name : Str)
    (ops : List Spec.Op), Spec.Sound h → Spec.Shows h s o.attrs → o.prot = true → o.readOnly.has name = true →
    (∀ v, (heapSetAttr conv h s o name v).2 = h) → (∀ op ∈ ops, ¬ Spec.Rebinds s name op) →
    Spec.see (Spec.runAlone h [s] ops).1 (.ref s) [.name name] = Spec.see h (.ref s) [.name name] := by
  intro h
  have := h exConv exMemory 3 exInMemory (py% "SourceUp") [.get 3 (.name (py% "SourceUp")), .fill 6 [.num (.fin 5)]]
    exMemory_sound exMemory_shows rfl (by decide +kernel) (fun v => by
      unfold heapSetAttr
      rw [if_neg (by decide +kernel), if_pos (by decide +kernel)])
    (by intro op hop; simp only [List.mem_cons, List.not_mem_nil, or_false] at hop; rcases hop with rfl | rfl <;> exact fun h => h)
  revert this
  decide +kernel

end Sofar
