import Verif.Lemmas.Assign
import Verif.Props.Attr
import Verif.Props.Order
/-!
# C99: laws of assignments
-/
namespace Sofar

/-- C99: After a sequence of accepted assignments every name holds the value that was assigned last, and all other names hold the
values from before. Nothing else of the object changes. -/
theorem C99_last_wins (o o' : Obj) (l : List (Str × Inp)) (hp : py% "protected" ∉ l.map Prod.fst) (h : Spec.Assigned o l o') :
    (∀ k, k ∉ l.map Prod.fst → Dict.get? o'.attrs k = Dict.get? o.attrs k) ∧
    (∀ l1 k v l2, l = l1 ++ (k, v) :: l2 → k ∉ l2.map Prod.fst →
      ∃ w, (setAttr o k v).out = .ok () ∧ Dict.get? (setAttr o k v).obj.attrs k = some w ∧ Dict.get? o'.attrs k = some w) ∧
    o' = { o with attrs := o'.attrs } := by
  obtain ⟨h1, h2⟩ := (assigned_iff hp).1 h
  subst h2
  refine ⟨fun k hk => ?_, ?_, rfl⟩
  · simp only
    rw [Dict.get?_foldl_put]
    have : (storedAll l).reverse.find? (fun p => decide (p.1 = k)) = none := by
      rw [List.find?_eq_none]
      intro p hp' e
      apply hk
      rw [← storedAll_names]
      exact List.mem_map.2 ⟨p, List.mem_reverse.1 hp', by simpa using e⟩
    rw [this]
  · rintro l1 k v l2 rfl hk
    have hne : k ≠ py% "protected" := fun e => hp (by simp [e])
    have hok := h1 (k, v) (by simp)
    obtain ⟨w, hw, hs⟩ := setAttr_done hne hok
    have hst : storedOf v = w := by simp [storedOf, hw, Except.toOption]
    refine ⟨w, hok, by rw [hs]; simp, ?_⟩
    simp only
    rw [Dict.get?_foldl_put]
    have e0 : (storedAll l2).reverse.find? (fun p => decide (p.1 = k)) = none := by
      rw [List.find?_eq_none]
      intro p hp' e
      apply hk
      rw [← storedAll_names]
      exact List.mem_map.2 ⟨p, List.mem_reverse.1 hp', by simpa using e⟩
    have e1 : storedAll (l1 ++ (k, v) :: l2) = storedAll l1 ++ (k, w) :: storedAll l2 := by simp [storedAll, hst]
    rw [e1]
    simp only [List.reverse_append, List.reverse_cons, List.append_assoc, List.find?_append, e0]
    simp

/-- three assignments, two of them to the same name -/
def exAssign : List (Str × Inp) := [(py% "GLOBAL_Comment", .val (.str (py% "one"))),
  (py% "SourcePosition_Units", .val (.str (py% "metre"))), (py% "GLOBAL_Comment", .val (.str (py% "two")))]

/-- the object after the assignments -/
def exAssigned : Obj :=
  (setAttr (setAttr (setAttr exSofa (py% "GLOBAL_Comment") (.val (.str (py% "one")))).obj (py% "SourcePosition_Units")
    (.val (.str (py% "metre")))).obj (py% "GLOBAL_Comment") (.val (.str (py% "two")))).obj

theorem exAssign_done : Spec.Assigned exSofa exAssign exAssigned :=
  .cons (by decide +kernel) (.cons (by decide +kernel) (.cons (by decide +kernel) (.nil _)))

example : Dict.get? exAssigned.attrs (py% "GLOBAL_Comment") = some (.str (py% "two")) := by
  obtain ⟨w, _, h2, h3⟩ := (C99_last_wins exSofa exAssigned exAssign (by decide) exAssign_done).2.1
    [(py% "GLOBAL_Comment", .val (.str (py% "one"))), (py% "SourcePosition_Units", .val (.str (py% "metre")))]
    (py% "GLOBAL_Comment") (.val (.str (py% "two"))) [] rfl (by simp)
  rw [h3, ← h2]
  decide +kernel

/-- C99: Assignments to different names can be done in any order: they are accepted in every order or in none, and the object
holds the same data. If the names exist the objects are equal. -/
theorem C99_order (o o' : Obj) (l l' : List (Str × Inp)) (ho : (o.attrs.map Prod.fst).Nodup) (hl : l'.Perm l)
    (hn : (l.map Prod.fst).Nodup) (hp : py% "protected" ∉ l.map Prod.fst) (h : Spec.Assigned o l o') :
    ∃ o'', Spec.Assigned o l' o'' ∧ o''.attrs.Perm o'.attrs ∧ o'' = { o' with attrs := o''.attrs } ∧
      ((∀ p ∈ l, p.1 ∈ o.attrs.map Prod.fst) → o'' = o') :=
  assigned_order ho hl hn hp h

/-- two assignments in both orders -/
example : ∃ o', Spec.Assigned exSofa [(py% "SourcePosition_Units", .val (.str (py% "metre"))),
      (py% "GLOBAL_Comment", .val (.str (py% "two")))] o' ∧ Spec.Assigned exSofa [(py% "GLOBAL_Comment", .val (.str (py% "two"))),
      (py% "SourcePosition_Units", .val (.str (py% "metre")))] o' ∧ o' ≠ exSofa := by
  have h : Spec.Assigned exSofa [(py% "GLOBAL_Comment", .val (.str (py% "two"))),
      (py% "SourcePosition_Units", .val (.str (py% "metre")))] _ := .cons (by decide +kernel) (.cons (by decide +kernel) (.nil _))
  obtain ⟨o', h1, -, -, h2⟩ := C99_order exSofa _ _ _ (by decide +kernel) (List.Perm.swap _ _ _) (by decide) (by decide) h
  have e := h2 (by decide +kernel)
  subst e
  exact ⟨_, h1, h, by decide +kernel⟩

/-- With `protected` among the names the order matters. -/
example : (setAttr (setAttr exObj (py% "protected") (.pybool false)).obj (py% "New") (.val (.str []))).out = .ok () ∧
    (setAttr exObj (py% "New") (.val (.str []))).out ≠ .ok () := by decide +kernel

/-- C99: Assigning the old value after an accepted assignment gives back the object as it was. -/
theorem C99_undo (o : Obj) (n : Str) (v : Inp) (old : Val) (hp : n ≠ py% "protected") (hold : Dict.get? o.attrs n = some old)
    (h : (setAttr o n v).out = .ok ()) :
    setAttr (setAttr o n v).obj n (.val old) = ⟨.ok (), o, []⟩ := by
  obtain ⟨w, hw, hs⟩ := setAttr_done hp h
  rw [hs, setAttr_transfer (o' := { o with attrs := Dict.put o.attrs n w }) (u := .val old) (w := old) hp h rfl rfl hasAttr_put rfl]
  simp only [Dict.put_put, Dict.put_get?_self hold]

example : setAttr (setAttr exObj (py% "Note") (.val (.str (py% "one")))).obj (py% "Note") (.val (.str (py% "hi"))) = ⟨.ok (), exObj, []⟩ :=
  C99_undo exObj _ _ _ (by decide) (by decide) (by decide +kernel)

/-- C99: Assigning the value that is there changes nothing (`sofa.x = sofa.x`). It is accepted exactly if the object is not
protected or the name is not read only. -/
theorem C99_same (o : Obj) (n : Str) (v : Val) (hv : Dict.get? o.attrs n = some v) (hp : n ≠ py% "protected")
    (hl : n ≠ py% "list_dimensions") (hi : isPrivate n = false) :
    (setAttr o n (.val v)).obj = o ∧
      ((setAttr o n (.val v)).out = .ok () ↔ ¬ (o.prot = true ∧ o.readOnly.has n = true)) := by
  have ha : o.hasAttr n = true := by simp [Obj.hasAttr, Dict.has, hv]
  by_cases hr : (o.readOnly.has n && o.prot) = true
  · have : setAttr o n (.val v) = ⟨.error (.typeError (n ++ py% " is a read only attribute.")), o, []⟩ := by
      simp [setAttr, ha, hr]
    rw [this]
    simp only [Bool.and_eq_true] at hr
    simp [hr]
  · have : setAttr o n (.val v) = ⟨.ok (), { o with attrs := Dict.put o.attrs n v }, []⟩ := by
      simp [setAttr, ha, hr, hp, hl, hi, normalise]
    rw [this]
    simp only [Bool.and_eq_true] at hr
    refine ⟨by simp [Dict.put_get?_self hv], fun _ h => hr ⟨h.2, h.1⟩, fun _ => rfl⟩

/-- read only data, and data that can be changed -/
example : (setAttr exObj (py% "Note") (.val (.str (py% "hi")))).out = .ok () ∧
    (setAttr exObj (py% "GLOBAL_Conventions") (.val (.str (py% "SOFA")))).out ≠ .ok () :=
  ⟨(C99_same exObj (py% "Note") _ (by decide) (by decide) (by decide) (by decide)).2.2 (by decide),
    fun h => (C99_same exObj (py% "GLOBAL_Conventions") _ (by decide) (by decide) (by decide) (by decide)).2.1 h (by decide)⟩

end Sofar
