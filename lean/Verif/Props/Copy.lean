import Verif.Lemmas.Heap
/-!
# C11: copies (sofar/sofa.py:1623-1625)

Programs (`Spec.exec`) hold addresses of objects, follow references, create objects, and modify whatever they can
reach: attributes, dictionaries, lists, and elements of arrays, also through views that share memory.
-/
namespace Sofar

/-- A copy of a Sofa object (of any object) can always be made; it is a new object. -/
theorem C11_total (h : Heap) (s : Ref) (hS : Spec.Sound h) (hs : s < h.length) :
    ∃ c h', copySofa h s = some (.ref c, h') ∧ h.length ≤ c ∧ c < h'.length := by
  have hok : MemoOk h ⟨h, []⟩ := ⟨Nat.le_refl _, fun _ _ => rfl, fun r x hx => by simp [seen] at hx⟩
  have hr : ∀ r, HVal.ref s = .ref r → r < h.length := by rintro r e; cases e; exact hs
  have hu : unseen h ([] : List (Ref × Ref)) < h.length + 1 := by
    unfold unseen
    have := List.length_filter_le (fun r => (seen [] r).isNone) (List.range h.length)
    rw [List.length_range] at this
    omega
  obtain ⟨⟨w, st⟩, hd⟩ := deepcopy_total hS (h.length + 1) (.ref s) ⟨h, []⟩ hok hr hu
  obtain ⟨g, im⟩ := deepcopy_spec (Sound_inRange hS) _ _ _ _ _ hok hr hd
  cases w with
  | imm w => simp [Img] at im
  | ref c =>
    refine ⟨c, st.heap, ?_, (hok.grows g).memo s c im⟩
    unfold copySofa
    rw [hd]

/-- what `copySofa` returns -/
theorem copySofa_spec {h h' : Heap} {s : Ref} {c : HVal} (hS : Spec.Sound h) (hs : s < h.length)
    (hc : copySofa h s = some (c, h')) :
    ∃ m, Grows h ⟨h, []⟩ ⟨h', m⟩ ∧ Img m (.ref s) c := by
  have hok : MemoOk h ⟨h, []⟩ := ⟨Nat.le_refl _, fun _ _ => rfl, fun r x hx => by simp [seen] at hx⟩
  have hr : ∀ r, HVal.ref s = .ref r → r < h.length := by rintro r e; cases e; exact hs
  unfold copySofa at hc
  cases hd : deepcopy (h.length + 1) (.ref s) ⟨h, []⟩ with
  | none => simp [hd] at hc
  | some q =>
    obtain ⟨w, st⟩ := q
    simp only [hd, Option.some.injEq, Prod.mk.injEq] at hc
    obtain ⟨rfl, rfl⟩ := hc
    obtain ⟨g, im⟩ := deepcopy_spec (Sound_inRange hS) _ _ _ _ _ hok hr hd
    exact ⟨st.memo, g, im⟩

/-- The copy has the same data as the original, and making the copy changes nothing: whatever path of attributes,
keys and indices is followed from the copy, the same is seen as from the original. -/
theorem C11_same_data (h h' : Heap) (s : Ref) (c : HVal) (hS : Spec.Sound h) (hs : s < h.length)
    (hc : copySofa h s = some (c, h')) :
    (∀ p, Spec.see h' c p = Spec.see h (.ref s) p) ∧
    ∀ r p, r < h.length → Spec.see h' (.ref r) p = Spec.see h (.ref r) p := by
  obtain ⟨m, g, im⟩ := copySofa_spec hS hs hc
  refine ⟨fun p => copied_see (fun r r' hr => g.copied r r' (by simp [seen]) hr) p _ _ im, fun r p hr => ?_⟩
  have hw : World h (fun a => a < h.length) := ⟨fun a ha => ha, fun a c _ hc r hr => Sound_inRange hS a c hc r hr⟩
  exact see_congr hw (fun a ha => g.old a ha) p _ (by rintro x e; cases e; exact hr)

/-- what a copy and everything else have in common: nothing -/
theorem copy_apart {h h' : Heap} {s c : Ref} (hS : Spec.Sound h) (hs : s < h.length)
    (hc : copySofa h s = some (.ref c, h')) (old : List Ref) (ho : ∀ r ∈ old, r < h.length) :
    Apart ⟨h', old, [c]⟩ (fun a => a < h.length) (fun a => h.length ≤ a ∧ a < h'.length) := by
  obtain ⟨m, g, im⟩ := copySofa_spec hS hs hc
  have hok : MemoOk h ⟨h', m⟩ :=
    MemoOk.grows ⟨Nat.le_refl _, fun _ _ => rfl, fun r x hx => by simp [seen] at hx⟩ g
  refine ⟨⟨fun a ha => Nat.lt_of_lt_of_le ha g.len, ?_⟩, ⟨fun a ha => ha.2, ?_⟩, fun x hx hy => Nat.not_lt.mpr hy.1 hx, ho, ?_⟩
  · intro a cl ha hcl r hr
    simp only at hcl
    rw [g.old a ha] at hcl
    exact Sound_inRange hS a cl hcl r hr
  · intro a cl ha hcl r hr
    exact g.closed a cl ha.1 hcl r hr
  · intro r hr
    simp only [List.mem_singleton] at hr
    subst hr
    exact hok.memo s _ im

/-- Independence for every interleaving of two programs. One program starts with any objects that existed before
the copy was made (among them the original and everything that shares arrays with it), the other one starts with
the copy. After any history of both programs, an operation of one program changes nothing the other one can see. -/
theorem C11_independent (h h' : Heap) (s c : Ref) (hS : Spec.Sound h) (hs : s < h.length)
    (hc : copySofa h s = some (.ref c, h')) (old : List Ref) (ho : ∀ r ∈ old, r < h.length)
    (history : List (Bool × Spec.Op)) (op : Spec.Op) (p : List Spec.Key) (r : Ref) :
    (r ∈ (Spec.run2 ⟨h', old, [c]⟩ history).b →
      Spec.see (Spec.step2 (Spec.run2 ⟨h', old, [c]⟩ history) true op).heap (.ref r) p =
        Spec.see (Spec.run2 ⟨h', old, [c]⟩ history).heap (.ref r) p) ∧
    (r ∈ (Spec.run2 ⟨h', old, [c]⟩ history).a →
      Spec.see (Spec.step2 (Spec.run2 ⟨h', old, [c]⟩ history) false op).heap (.ref r) p =
        Spec.see (Spec.run2 ⟨h', old, [c]⟩ history).heap (.ref r) p) := by
  obtain ⟨P, Q, hA⟩ := apart_run (copy_apart hS hs hc old ho) history
  constructor
  · intro hr
    exact see_congr hA.b (apart_step_true hA op).2 p _ (by rintro x e; cases e; exact hA.heldB r hr)
  · intro hr
    exact see_congr hA.a (apart_step_false hA op).2 p _ (by rintro x e; cases e; exact hA.heldA r hr)

/-- No sequence of operations through the copy changes the original, or anything else that existed before. -/
theorem C11_original_kept (h h' : Heap) (s c : Ref) (hS : Spec.Sound h) (hs : s < h.length)
    (hc : copySofa h s = some (.ref c, h')) (ops : List Spec.Op) (r : Ref) (hr : r < h.length) (p : List Spec.Key) :
    Spec.see (Spec.run2 ⟨h', [], [c]⟩ (ops.map (fun op => (false, op)))).heap (.ref r) p = Spec.see h (.ref r) p := by
  have key : ∀ (ops : List Spec.Op) (t : Spec.Two) (P Q : Ref → Prop), Apart t P Q → P r →
      Spec.see (Spec.run2 t (ops.map (fun op => (false, op)))).heap (.ref r) p = Spec.see t.heap (.ref r) p := by
    intro ops
    induction ops with
    | nil => intro t P Q _ _; rfl
    | cons op ops ih =>
      intro t P Q hA hP
      obtain ⟨⟨Q', h1⟩, h2⟩ := apart_step_false hA op
      rw [List.map_cons, Spec.run2, ih _ P Q' h1 hP]
      exact see_congr hA.a h2 p _ (by rintro x e; cases e; exact hP)
  rw [key ops _ _ _ (copy_apart hS hs hc [] (by simp)) hr]
  exact (C11_same_data h h' s (.ref c) hS hs hc).2 r p hr

/-- No sequence of operations through the original, or through anything else that existed before, changes the
copy. -/
theorem C11_copy_kept (h h' : Heap) (s c : Ref) (hS : Spec.Sound h) (hs : s < h.length)
    (hc : copySofa h s = some (.ref c, h')) (old : List Ref) (ho : ∀ r ∈ old, r < h.length) (ops : List Spec.Op)
    (p : List Spec.Key) :
    Spec.see (Spec.run2 ⟨h', old, [c]⟩ (ops.map (fun op => (true, op)))).heap (.ref c) p = Spec.see h (.ref s) p := by
  have key : ∀ (ops : List Spec.Op) (t : Spec.Two) (P Q : Ref → Prop), Apart t P Q → Q c →
      Spec.see (Spec.run2 t (ops.map (fun op => (true, op)))).heap (.ref c) p = Spec.see t.heap (.ref c) p := by
    intro ops
    induction ops with
    | nil => intro t P Q _ _; rfl
    | cons op ops ih =>
      intro t P Q hA hQ
      obtain ⟨⟨P', h1⟩, h2⟩ := apart_step_true hA op
      rw [List.map_cons, Spec.run2, ih _ P' Q h1 hQ]
      exact see_congr hA.b h2 p _ (by rintro x e; cases e; exact hQ)
  have hA := copy_apart hS hs hc old ho
  rw [key ops _ _ _ hA (hA.heldB c (by simp))]
  exact (C11_same_data h h' s (.ref c) hS hs hc).1 p

/-- memory with a Sofa object (4) that contains an array (1), a view of its second column (2) and its convention
(3, shared with `_custom`), and another Sofa object (5) that contains the same array -/
def exHeap : Heap :=
  [.buf [.num (.fin 1), .num (.fin 2), .num (.fin 3), .num (.fin 4)],
   .arr .f [2, 2] 0 [0, 1, 2, 3],
   .arr .f [2] 0 [1, 3],
   .dict [(py% "flags", .imm (.str (py% "m"))), (py% "self", .ref 3)],
   .inst [(py% "Data_IR", .ref 1), (py% "Data_Delay", .ref 2), (py% "GLOBAL_Title", .imm (.str (py% "t"))),
     (py% "_convention", .ref 3), (py% "_custom", .ref 3)],
   .inst [(py% "Data_IR", .ref 1)]]

/-- the copy of the Sofa object -/
def exCopied : Heap := (copySofa exHeap 4).elim [] Prod.snd

theorem exHeap_sound : Spec.Sound exHeap := by
  intro c hc
  simp only [exHeap, List.mem_cons, List.not_mem_nil, or_false] at hc
  rcases hc with rfl | rfl | rfl | rfl | rfl | rfl
  all_goals refine ⟨by decide +kernel, ?_⟩
  all_goals intro k s b idx e
  all_goals first
    | (cases e; exact ⟨_, rfl, by decide +kernel⟩)
    | cases e

/-- the theorems apply to this object (with shared arrays and a cycle), the copy is at address 6 -/
example : Spec.Sound exHeap ∧ 4 < exHeap.length ∧ copySofa exHeap 4 = some (.ref 6, exCopied) :=
  ⟨exHeap_sound, by decide +kernel, by decide +kernel⟩

/-- in the original, changing the array changes the view and the other Sofa object, but not the copy -/
example :
    let t := Spec.run2 ⟨exCopied, [4, 5], [6]⟩
      [(true, .get 4 (.name (py% "Data_IR"))), (true, .fill 1 [.num .nan, .num .nan, .num .nan, .num .nan])]
    Spec.see t.heap (.ref 4) [.name (py% "Data_Delay")] = .array .f [2] [some (.num .nan), some (.num .nan)] ∧
    Spec.see t.heap (.ref 5) [.name (py% "Data_IR")] =
      .array .f [2, 2] [some (.num .nan), some (.num .nan), some (.num .nan), some (.num .nan)] ∧
    Spec.see t.heap (.ref 6) [.name (py% "Data_Delay")] = .array .f [2] [some (.num (.fin 2)), some (.num (.fin 4))] := by
  decide +kernel

/-- a program that holds the copy can change the copy -/
example :
    let t := Spec.run2 ⟨exCopied, [], [6]⟩
      [(false, .get 6 (.name (py% "Data_IR"))), (false, .fill 7 [.num .nan, .num .nan, .num .nan, .num .nan]),
       (false, .put 6 (py% "GLOBAL_Title") (.imm (.str (py% "new"))))]
    Spec.see t.heap (.ref 6) [.name (py% "Data_IR")] =
      .array .f [2, 2] [some (.num .nan), some (.num .nan), some (.num .nan), some (.num .nan)] ∧
    Spec.see t.heap (.ref 6) [.name (py% "GLOBAL_Title")] = .value (.str (py% "new")) ∧
    Spec.see t.heap (.ref 4) [.name (py% "GLOBAL_Title")] = .value (.str (py% "t")) ∧
    Spec.see t.heap (.ref 6) [.name (py% "_convention"), .name (py% "self"), .name (py% "flags")] =
      .value (.str (py% "m")) := by
  decide +kernel

end Sofar
