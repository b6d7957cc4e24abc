import Verif.Spec.Names
import Verif.Lemmas.Dict
/-!
# Lemmas on names of objects
-/
namespace Sofar

theorem Names.get_assign {s : Names} (hb : Spec.Bound s) (x : Str) (o : Obj) (y : Str) :
    (s.assign x (.ok o)).get y = if y = x then some o else s.get y := by
  unfold Names.get Names.assign
  simp only [Dict.get?_put]
  by_cases h : y = x
  · simp [h]
  · simp only [if_neg h]
    cases hr : Dict.get? s.refs y with
    | none => rfl
    | some r => exact List.getElem?_append_left (hb y r hr)

theorem Names.bound_assign {s : Names} (hb : Spec.Bound s) (x : Str) (e : Except Exc Obj) : Spec.Bound (s.assign x e) := by
  cases e with
  | error e => exact hb
  | ok o =>
    intro y r h
    simp only [Names.assign, Dict.get?_put] at h
    simp only [Names.assign, List.length_append, List.length_singleton]
    split at h
    · cases h; omega
    · have := hb y r h; omega

theorem Names.apart_assign {s : Names} (hb : Spec.Bound s) (ha : Spec.Apart s) (x : Str) (e : Except Exc Obj) :
    Spec.Apart (s.assign x e) := by
  cases e with
  | error e => exact ha
  | ok o =>
    intro y z r h1 h2
    simp only [Names.assign, Dict.get?_put] at h1 h2
    split at h1 <;> split at h2
    · rename_i a b; rw [a, b]
    · cases h1; exact absurd (hb z _ h2) (by omega)
    · cases h2; exact absurd (hb y _ h1) (by omega)
    · exact ha y z r h1 h2

theorem Names.get_modify (s : Names) (x : Str) (f : Obj → Obj) (y : Str) :
    (s.modify x f).get y = if Dict.get? s.refs y = Dict.get? s.refs x then (s.get y).map f else s.get y := by
  unfold Names.modify
  cases hx : Dict.get? s.refs x with
  | none =>
    simp only
    unfold Names.get
    cases hy : Dict.get? s.refs y <;> simp
  | some r =>
    simp only [Names.get]
    cases hy : Dict.get? s.refs y with
    | none => simp
    | some q =>
      simp only [List.getElem?_modify, Option.some.injEq]
      by_cases h : r = q
      · simp [h]
      · simp [h, Ne.symm h]

theorem Names.refs_modify (s : Names) (x : Str) (f : Obj → Obj) : (s.modify x f).refs = s.refs := by
  unfold Names.modify; split <;> rfl

theorem Names.fs_modify (s : Names) (x : Str) (f : Obj → Obj) : (s.modify x f).fs = s.fs := by
  unfold Names.modify; split <;> rfl

theorem Names.length_modify (s : Names) (x : Str) (f : Obj → Obj) : (s.modify x f).objs.length = s.objs.length := by
  unfold Names.modify; split <;> simp

theorem Names.fs_assign (s : Names) (x : Str) (e : Except Exc Obj) : (s.assign x e).fs = s.fs := by
  cases e <;> rfl

theorem Names.bound_modify {s : Names} (hb : Spec.Bound s) (x : Str) (f : Obj → Obj) : Spec.Bound (s.modify x f) := by
  intro y r h
  rw [Names.refs_modify] at h
  rw [Names.length_modify]
  exact hb y r h

theorem Names.bound_step {env : Env} {nc : Nc} {s : Names} (hb : Spec.Bound s) (st : NStmt) : Spec.Bound (execName env nc s st) := by
  cases st with
  | same x y =>
    simp only [execName]
    cases hy : Dict.get? s.refs y with
    | none => exact hb
    | some r =>
      intro z q h
      simp only [Dict.get?_put] at h
      split at h
      · cases h; exact hb y r hy
      · exact hb z q h
  | plain st =>
    cases st with
    | create => exact Names.bound_assign hb _ _
    | read => exact Names.bound_assign hb _ _
    | readNetcdf => exact Names.bound_assign hb _ _
    | copy x y =>
      simp only [execName]
      cases s.get y with
      | none => exact hb
      | some o => exact Names.bound_assign hb _ _
    | call => exact Names.bound_modify hb _ _
    | upgrade => exact Names.bound_modify hb _ _
    | write fn x c =>
      simp only [execName]
      cases s.get x with
      | none => exact hb
      | some o => exact Names.bound_modify hb _ _

theorem Names.bound_exec {env : Env} {nc : Nc} {s : Names} (hb : Spec.Bound s) (prog : List NStmt) :
    Spec.Bound (execNames env nc s prog) := by
  induction prog generalizing s with
  | nil => exact hb
  | cons st prog ih => exact ih (Names.bound_step hb st)

/-- the same objects by name -/
structure Shows (s : Names) (m : Machine) : Prop where
  get : ∀ x, s.get x = Dict.get? m.vars x
  fs : s.fs = m.fs
  bound : Spec.Bound s
  apart : Spec.Apart s

theorem Shows.assign {s : Names} {m : Machine} (h : Shows s m) (x : Str) (e : Except Exc Obj) :
    Shows (s.assign x e) (m.assign x e) := by
  refine ⟨fun y => ?_, ?_, Names.bound_assign h.bound x e, Names.apart_assign h.bound h.apart x e⟩
  · cases e with
    | error e => exact h.get y
    | ok o => rw [Names.get_assign h.bound, h.get]; simp only [Machine.assign, Dict.get?_put]
  · rw [Names.fs_assign, h.fs]; cases e <;> rfl

theorem Names.get_some {s : Names} {x : Str} {o : Obj} (h : s.get x = some o) : ∃ r, Dict.get? s.refs x = some r := by
  unfold Names.get at h
  cases hr : Dict.get? s.refs x with
  | none => simp [hr] at h
  | some r => exact ⟨r, rfl⟩

theorem Shows.modified {s : Names} {m : Machine} (h : Shows s m) {x : Str} {o : Obj} (hx : s.get x = some o) (f : Obj → Obj) (y : Str) :
    (s.modify x f).get y = Dict.get? (Dict.put m.vars x (f o)) y := by
  obtain ⟨r, hr⟩ := Names.get_some hx
  rw [Names.get_modify, Dict.get?_put]
  by_cases hy : y = x
  · subst hy; simp [hx]
  · have : Dict.get? s.refs y ≠ Dict.get? s.refs x := by
      intro e
      rw [hr] at e
      exact hy (h.apart y x r e hr)
    rw [if_neg this, if_neg hy, h.get]

theorem Shows.modify {s : Names} {m : Machine} (h : Shows s m) (x : Str) (f : Obj → Obj) : Shows (s.modify x f) (m.modify x f) := by
  have hfs : (m.modify x f).fs = m.fs := by unfold Machine.modify; split <;> rfl
  refine ⟨fun y => ?_, by rw [Names.fs_modify, hfs, h.fs], Names.bound_modify h.bound x f, ?_⟩
  · cases hx : s.get x with
    | some o =>
      rw [h.modified hx]
      unfold Machine.modify
      rw [← h.get, hx]
    | none =>
      have h1 : (m.modify x f) = m := by unfold Machine.modify; rw [← h.get, hx]
      rw [h1, Names.get_modify, ← h.get]
      split
      · rename_i e
        have : s.get y = none := by
          unfold Names.get at hx ⊢; rw [e]; exact hx
        simp [this]
      · rfl
  · intro a b r h1 h2
    rw [Names.refs_modify] at h1 h2
    exact h.apart a b r h1 h2

theorem Shows.step {env : Env} {nc : Nc} {s : Names} {m : Machine} (h : Shows s m) (st : Stmt) :
    Shows (execName env nc s (.plain st)) (execStmt env nc m st) := by
  cases st with
  | create => exact h.assign _ _
  | read x fn a vb => simp only [execName, execStmt]; rw [h.fs]; exact h.assign _ _
  | readNetcdf x fn => simp only [execName, execStmt]; rw [h.fs]; exact h.assign _ _
  | copy x y =>
    simp only [execName, execStmt]
    rw [h.get]
    cases Dict.get? m.vars y with
    | none => exact h
    | some o => exact h.assign x (.ok o)
  | call => exact h.modify _ _
  | upgrade => exact h.modify _ _
  | write fn x c =>
    simp only [execName, execStmt]
    cases hx : s.get x with
    | none => rw [← h.get, hx]; exact h
    | some o =>
      rw [← h.get, hx, h.fs]
      simp only
      have hM := h.modify x (fun _ => (writeSofa env nc m.fs fn o c).obj)
      exact ⟨fun y => h.modified hx (fun _ => (writeSofa env nc m.fs fn o c).obj) y, rfl, hM.bound, hM.apart⟩

/-- statements that do not bind a name keep its address -/
theorem Names.refs_step {env : Env} {nc : Nc} {s : Names} {st : NStmt} {x : Str} (h : ¬ Spec.Binds x st) :
    Dict.get? (execName env nc s st).refs x = Dict.get? s.refs x := by
  have as : ∀ y e, ¬ y = x → Dict.get? (s.assign y e).refs x = Dict.get? s.refs x := by
    intro y e hy
    cases e with
    | error e => rfl
    | ok o => simp only [Names.assign]; exact Dict.get?_put_ne _ _ (Ne.symm hy)
  cases st with
  | same y z =>
    simp only [execName]
    cases Dict.get? s.refs z with
    | none => rfl
    | some r => exact Dict.get?_put_ne _ _ (Ne.symm h)
  | plain st =>
    cases st with
    | create => exact as _ _ h
    | read => exact as _ _ h
    | readNetcdf => exact as _ _ h
    | copy y z =>
      simp only [execName]
      cases s.get z with
      | none => rfl
      | some o => exact as _ _ h
    | call => exact congrArg (Dict.get? · x) (Names.refs_modify _ _ _)
    | upgrade => exact congrArg (Dict.get? · x) (Names.refs_modify _ _ _)
    | write fn y c =>
      simp only [execName]
      cases s.get y with
      | none => rfl
      | some o => exact congrArg (Dict.get? · x) (Names.refs_modify _ _ _)

theorem not_mentions_binds {x : Str} {st : NStmt} (h : ¬ Spec.Mentions x st) : ¬ Spec.Binds x st := by
  intro hb
  apply h
  cases st with
  | same => exact Or.inl hb
  | plain st => cases st <;> first | exact hb | exact Or.inl hb | exact False.elim hb

/-- an object stays as it is if none of its names is used -/
theorem Names.step_other {env : Env} {nc : Nc} {s : Names} (hb : Spec.Bound s) {st : NStmt} {x : Str}
    (h : ∀ y, Dict.get? s.refs y = Dict.get? s.refs x → ¬ Spec.Mentions y st) :
    (execName env nc s st).get x = s.get x := by
  have hx := h x rfl
  have as : ∀ y e, ¬ y = x → (s.assign y e).get x = s.get x := by
    intro y e hy
    cases e with
    | error e => rfl
    | ok o => rw [Names.get_assign hb, if_neg (Ne.symm hy)]
  have mo : ∀ y f, (∀ z, Dict.get? s.refs z = Dict.get? s.refs x → ¬ y = z) → (s.modify y f).get x = s.get x := by
    intro y f hy
    rw [Names.get_modify, if_neg]
    intro e
    exact hy y e.symm rfl
  cases st with
  | same y z =>
    simp only [execName]
    cases Dict.get? s.refs z with
    | none => rfl
    | some r =>
      unfold Names.get
      simp only
      rw [Dict.get?_put_ne _ _ (fun e => hx (Or.inl e.symm))]
  | plain st =>
    cases st with
    | create => exact as _ _ hx
    | read => exact as _ _ hx
    | readNetcdf => exact as _ _ hx
    | copy y z =>
      simp only [execName]
      cases s.get z with
      | none => rfl
      | some o => exact as _ _ (fun e => hx (Or.inl e))
    | call => exact mo _ _ h
    | upgrade => exact mo _ _ h
    | write fn y c =>
      simp only [execName]
      cases s.get y with
      | none => rfl
      | some o => exact mo y _ h

end Sofar
