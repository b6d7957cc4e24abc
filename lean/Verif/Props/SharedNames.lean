import Verif.Lemmas.SharedNames
import Verif.Props.Session
/-!
# C105: several names of one object
-/
namespace Sofar

/-- C105: As long as a program does not bind a name to the object of another name, names behave as if every name had an
object of its own: the objects and the files are the ones of `exec`. -/
theorem C105_plain (env : Env) (nc : Nc) (s : Names) (m : Machine) (prog : List Stmt) (hb : Spec.Bound s) (ha : Spec.Apart s)
    (hg : ∀ x, s.get x = Dict.get? m.vars x) (hf : s.fs = m.fs) :
    (∀ x, (execNames env nc s (prog.map .plain)).get x = Dict.get? (exec env nc m prog).vars x) ∧
      (execNames env nc s (prog.map .plain)).fs = (exec env nc m prog).fs := by
  have h : Shows s m := ⟨hg, hf, hb, ha⟩
  clear hb ha hg hf
  induction prog generalizing s m with
  | nil => exact ⟨h.get, h.fs⟩
  | cons st prog ih => exact ih _ _ (h.step st)

/-- C105: After `x = y` both names show the same object, whatever happens to it under either name, until one of the names is
bound again. -/
theorem C105_shared (env : Env) (nc : Nc) (s : Names) (x y : Str) (prog : List NStmt) (hy : (s.get y).isSome = true)
    (h : ∀ st ∈ prog, ¬ Spec.Binds x st ∧ ¬ Spec.Binds y st) :
    (execNames env nc s (.same x y :: prog)).get x = (execNames env nc s (.same x y :: prog)).get y := by
  obtain ⟨o, ho⟩ := Option.isSome_iff_exists.1 hy
  obtain ⟨r, hr⟩ := Names.get_some ho
  have h0 : ∀ t : Names, Dict.get? t.refs x = Dict.get? t.refs y →
      (execNames env nc t prog).get x = (execNames env nc t prog).get y := by
    clear ho hr hy
    induction prog with
    | nil => intro t ht; unfold execNames Names.get; simp only [List.foldl_nil, ht]
    | cons st prog ih =>
      intro t ht
      refine ih (fun st' h' => h st' (List.mem_cons_of_mem _ h')) (execName env nc t st) ?_
      rw [Names.refs_step (h st List.mem_cons_self).1, Names.refs_step (h st List.mem_cons_self).2, ht]
  refine h0 (execName env nc s (.same x y)) ?_
  simp only [execName, hr, Dict.get?_put]
  by_cases e : y = x
  · simp [e]
  · simp [e]

/-- C105: What is done to the object under the new name is done to the object of the old name. -/
theorem C105_through (env : Env) (nc : Nc) (s : Names) (x y : Str) (hy : (s.get y).isSome = true) :
    (∀ op, (execNames env nc s [.same x y, .plain (.call x op)]).get y = (s.get y).map (fun o => step env o op)) ∧
    (∀ t a, (execNames env nc s [.same x y, .plain (.upgrade x t a)]).get y =
      (s.get y).map (fun o => (upgradeConvention env o t a).obj)) ∧
    ∀ fn c, (execNames env nc s [.same x y, .plain (.write fn x c)]).get y =
      (s.get y).map (fun o => (writeSofa env nc s.fs fn o c).obj) := by
  obtain ⟨o, ho⟩ := Option.isSome_iff_exists.1 hy
  obtain ⟨r, hr⟩ := Names.get_some ho
  have key : ∀ f, (Names.modify { s with refs := Dict.put s.refs x r } x f).get y = (s.get y).map f := by
    intro f
    rw [Names.get_modify]
    by_cases e : y = x
    · subst e
      simp [Names.get, hr]
    · simp [Names.get, Dict.get?_put, e, hr]
  have hx : Names.get { s with refs := Dict.put s.refs x r } x = some o := by
    simpa [Names.get, hr] using ho
  refine ⟨?_, ?_, ?_⟩
  · intro op
    simp only [execNames, List.foldl_cons, List.foldl_nil, execName, hr]
    exact key _
  · intro t a
    simp only [execNames, List.foldl_cons, List.foldl_nil, execName, hr]
    exact key _
  · intro fn c
    simp only [execNames, List.foldl_cons, List.foldl_nil, execName, hr, hx]
    refine (key (fun _ => (writeSofa env nc s.fs fn o c).obj)).trans ?_
    simp [ho]

/-- C105: An object stays as it is while none of its names is used. `G` contains all names of the object of `x`. -/
theorem C105_apart (env : Env) (nc : Nc) (s : Names) (hb : Spec.Bound s) (x : Str) (r : Nat) (hx : Dict.get? s.refs x = some r)
    (G : Str → Prop) (hG : ∀ y, Dict.get? s.refs y = some r → G y) (prog : List NStmt)
    (h : ∀ st ∈ prog, ∀ y, G y → ¬ Spec.Mentions y st) :
    (execNames env nc s prog).get x = s.get x := by
  induction prog generalizing s with
  | nil => rfl
  | cons st prog ih =>
    have h1 := h st List.mem_cons_self
    have hstep : (execName env nc s st).get x = s.get x :=
      Names.step_other hb (fun y hy => h1 y (hG y (by rw [hy, hx])))
    have hx' : Dict.get? (execName env nc s st).refs x = some r := by
      rw [Names.refs_step (not_mentions_binds (h1 x (hG x hx))), hx]
    have as : ∀ y z e, Dict.get? (s.assign y e).refs z = some r → Dict.get? s.refs z = some r := by
      intro y z e hz
      cases e with
      | error e => exact hz
      | ok o =>
        simp only [Names.assign, Dict.get?_put] at hz
        split at hz
        · have := hb x r hx
          have e : s.objs.length = r := by simpa using hz
          omega
        · exact hz
    have hG' : ∀ z, Dict.get? (execName env nc s st).refs z = some r → G z := by
      intro z hz
      cases st with
      | same y w =>
        simp only [execName] at hz
        cases hw : Dict.get? s.refs w with
        | none => simp only [hw] at hz; exact hG z hz
        | some q =>
          simp only [hw, Dict.get?_put] at hz
          split at hz
          · cases hz; exact absurd (Or.inr rfl) (h1 w (hG w hw))
          · exact hG z hz
      | plain st =>
        apply hG z
        cases st with
        | create => exact as _ _ _ hz
        | read => exact as _ _ _ hz
        | readNetcdf => exact as _ _ _ hz
        | copy y w =>
          simp only [execName] at hz
          cases hw : s.get w with
          | none => simpa only [hw] using hz
          | some o => simp only [hw] at hz; exact as _ _ _ hz
        | call => simpa only [execName, Names.refs_modify] using hz
        | upgrade => simpa only [execName, Names.refs_modify] using hz
        | write fn y c =>
          simp only [execName] at hz
          cases hw : s.get y with
          | none => simpa only [hw] using hz
          | some o => simp only [hw, Names.refs_modify] at hz; exact hz
    rw [← hstep]
    exact ih _ (Names.bound_step hb st) hx' hG' (fun st' h' => h st' (List.mem_cons_of_mem _ h'))

/-- C105: `x = y.copy()` gives an object that has no other name: it keeps the data that `y` had, as long as `x` is not used. -/
theorem C105_copy (env : Env) (nc : Nc) (s : Names) (hb : Spec.Bound s) (x y : Str) (o : Obj) (hy : s.get y = some o)
    (prog : List NStmt) (h : ∀ st ∈ prog, ¬ Spec.Mentions x st) :
    (execNames env nc s (.plain (.copy x y) :: prog)).get x = some o := by
  have h0 : execName env nc s (.plain (.copy x y)) = s.assign x (.ok o) := by simp only [execName, hy]
  show (execNames env nc (execName env nc s (.plain (.copy x y))) prog).get x = some o
  rw [h0, C105_apart env nc (s.assign x (.ok o)) (Names.bound_assign hb _ _) x s.objs.length (by simp [Names.assign])
    (fun z => z = x) ?_ prog (fun st hs z hz => by rw [hz]; exact h st hs)]
  · rw [Names.get_assign hb, if_pos rfl]
  · intro z hz
    simp only [Names.assign, Dict.get?_put] at hz
    by_contra e
    rw [if_neg e] at hz
    exact absurd (hb z _ hz) (by omega)

/-- C105: A statement that binds a name changes the object of no other name, even if both were names of the same object. -/
theorem C105_bind (env : Env) (nc : Nc) (s : Names) (hb : Spec.Bound s) (st : NStmt) (x y : Str) (hx : Spec.Binds x st)
    (hy : y ≠ x) : (execName env nc s st).get y = s.get y := by
  have as : ∀ e, (s.assign x e).get y = s.get y := by
    intro e
    cases e with
    | error e => rfl
    | ok o => rw [Names.get_assign hb, if_neg hy]
  cases st with
  | same z w =>
    cases (show z = x from hx)
    simp only [execName]
    cases hw : Dict.get? s.refs w with
    | none => rfl
    | some q => simp [Names.get, Dict.get?_put, hy]
  | plain st =>
    cases st with
    | create z => cases (show z = x from hx); exact as _
    | read z => cases (show z = x from hx); exact as _
    | readNetcdf z => cases (show z = x from hx); exact as _
    | copy z w =>
      cases (show z = x from hx)
      simp only [execName]
      cases hw : s.get w with
      | none => rfl
      | some o => exact as _
    | call => exact absurd hx id
    | upgrade => exact absurd hx id
    | write => exact absurd hx id

/-- C105: A name that was bound to a new object is no longer a name of the object it had before: all other names keep their
objects, whatever is done under the name. -/
theorem C105_new (env : Env) (nc : Nc) (s : Names) (hb : Spec.Bound s) (x y : Str) (hy : y ≠ x) (o : Obj) (st : Stmt)
    (hst : (∃ c m v a, st = .create x c m v a ∧ (initSofa env c m v a).out = .ok o) ∨
      (∃ fn a vb, st = .read x fn a vb ∧ (readSofa env nc s.fs fn a vb).out = .ok o) ∨
      (∃ fn, st = .readNetcdf x fn ∧ (readAsNetcdf nc s.fs fn).out = .ok o) ∨
      (∃ z, st = .copy x z ∧ s.get z = some o))
    (prog : List NStmt) (h : ∀ st ∈ prog, ∀ z, z ≠ x → ¬ Spec.Mentions z st) :
    (execNames env nc s [.plain st]).get x = some o ∧ (execNames env nc s (.plain st :: prog)).get y = s.get y := by
  have h0 : execName env nc s (.plain st) = s.assign x (.ok o) := by
    rcases hst with ⟨c, m, v, a, rfl, e⟩ | ⟨fn, a, vb, rfl, e⟩ | ⟨fn, rfl, e⟩ | ⟨z, rfl, e⟩ <;> simp only [execName, e]
  have hb' := Names.bound_assign hb x (.ok o)
  have h1 : (s.assign x (.ok o)).get y = s.get y := by rw [Names.get_assign hb, if_neg hy]
  constructor
  · show (execName env nc s (.plain st)).get x = some o
    rw [h0, Names.get_assign hb, if_pos rfl]
  · show (execNames env nc (execName env nc s (.plain st)) prog).get y = s.get y
    rw [h0, ← h1]
    cases hr : Dict.get? (s.assign x (.ok o)).refs y with
    | some r =>
      refine C105_apart env nc _ hb' y r hr (fun z => z ≠ x) ?_ prog h
      intro z hz e
      subst e
      have e1 : s.objs.length = r := by simpa [Names.assign] using hz
      have e2 : Dict.get? s.refs y = some r := by simpa [Names.assign, Dict.get?_put, hy] using hr
      have := hb y r e2
      omega
    | none =>
      have h2 : ∀ t : Names, Dict.get? t.refs y = none → (execNames env nc t prog).get y = none := by
        induction prog with
        | nil => intro t ht; simp [execNames, Names.get, ht]
        | cons st' prog ih =>
          intro t ht
          refine ih (fun st'' h' => h st'' (List.mem_cons_of_mem _ h')) (execName env nc t st') ?_
          rw [Names.refs_step (not_mentions_binds (h st' List.mem_cons_self y hy)), ht]
      rw [h2 _ hr]
      simp [Names.get, hr]

/-- C105: After `x = y` it does not matter which of the names is used: names, objects and files are the same afterwards. -/
theorem C105_either (env : Env) (nc : Nc) (s : Names) (x y : Str) (hy : (s.get y).isSome = true) :
    (∀ op, execNames env nc s [.same x y, .plain (.call x op)] = execNames env nc s [.same x y, .plain (.call y op)]) ∧
    (∀ t a, execNames env nc s [.same x y, .plain (.upgrade x t a)] =
      execNames env nc s [.same x y, .plain (.upgrade y t a)]) ∧
    ∀ fn c, execNames env nc s [.same x y, .plain (.write fn x c)] =
      execNames env nc s [.same x y, .plain (.write fn y c)] := by
  obtain ⟨o, ho⟩ := Option.isSome_iff_exists.1 hy
  obtain ⟨r, hr⟩ := Names.get_some ho
  have e : Dict.get? (Dict.put s.refs x r) x = Dict.get? (Dict.put s.refs x r) y := by
    by_cases e : y = x
    · simp [e]
    · simp [Dict.get?_put, e, hr]
  refine ⟨?_, ?_, ?_⟩ <;> intros <;>
    simp only [execNames, List.foldl_cons, List.foldl_nil, execName, hr, Names.modify, Names.get, e]

/-- C105: The condition `Spec.Bound` of the theorems holds in every state that a program reaches from a state without names. -/
theorem C105_reachable (env : Env) (nc : Nc) (fs : FS) (prog : List NStmt) :
    Spec.Bound (execNames env nc ⟨[], [], fs⟩ prog) :=
  Names.bound_exec (fun _ _ h => by simp [Dict.get?] at h) prog

/-- two names of two objects -/
def exTwoNames : Names := ⟨[(py% "x", 0), (py% "y", 1)], [exCustomized, exUmlaut], exDisk⟩

theorem exTwoNames_addresses {z : Str} {r : Nat} (h : Dict.get? exTwoNames.refs z = some r) :
    (z = py% "x" ∧ r = 0) ∨ (z = py% "y" ∧ r = 1) := by
  simp only [exTwoNames, Dict.get?] at h
  split at h
  · rename_i e; left; exact ⟨by simpa using e.symm, by simpa using h.symm⟩
  · split at h
    · rename_i e; right; exact ⟨by simpa using e.symm, by simpa using h.symm⟩
    · simp at h

theorem exTwoNames_bound : Spec.Bound exTwoNames := by
  intro z r h
  rcases exTwoNames_addresses h with ⟨-, e⟩ | ⟨-, e⟩ <;> subst e <;> decide

theorem exTwoNames_apart : Spec.Apart exTwoNames := by
  intro a b r ha hb
  rcases exTwoNames_addresses ha with ⟨e, f⟩ | ⟨e, f⟩ <;> rcases exTwoNames_addresses hb with ⟨e', f'⟩ | ⟨e', f'⟩
  · rw [e, e']
  · omega
  · omega
  · rw [e, e']

/-- the variable `Foo` of the object of `z` is deleted -/
def exDelete (z : Str) : NStmt := .plain (.call z (.delete (py% "Foo")))

/-- the hypotheses of `C105_plain` -/
example : Spec.Bound exTwoNames ∧ Spec.Apart exTwoNames ∧ (∀ z, exTwoNames.get z = Dict.get? exMachine.vars z) ∧
    exTwoNames.fs = exMachine.fs := by
  refine ⟨exTwoNames_bound, exTwoNames_apart, fun z => ?_, rfl⟩
  by_cases h : z = py% "x"
  · subst h; decide +kernel
  · by_cases h' : z = py% "y"
    · subst h'; decide +kernel
    · have h1 : ¬ py% "x" = z := fun e => h e.symm
      have h2 : ¬ py% "y" = z := fun e => h' e.symm
      simp [Names.get, exTwoNames, exMachine, Dict.get?, h1, h2]

/-- `C105_shared`, `C105_through`: after `z = x` a change under one name is seen under the other one -/
example : (exTwoNames.get (py% "x")).isSome = true ∧
    (execNames exEnv exNc exTwoNames [.same (py% "z") (py% "x"), exDelete (py% "z")]).get (py% "x") ≠ exTwoNames.get (py% "x") ∧
    (execNames exEnv exNc exTwoNames [.same (py% "z") (py% "x"), exDelete (py% "z")]).get (py% "x") =
      (execNames exEnv exNc exTwoNames [.same (py% "z") (py% "x"), exDelete (py% "z")]).get (py% "z") ∧
    (execNames exEnv exNc exTwoNames [.same (py% "z") (py% "x"), exDelete (py% "z")]).get (py% "y") = exTwoNames.get (py% "y") := by
  decide +kernel

example : ∀ st ∈ [exDelete (py% "z"), exDelete (py% "x")], ¬ Spec.Binds (py% "z") st ∧ ¬ Spec.Binds (py% "x") st := by
  simp [exDelete, Spec.Binds]

/-- `C105_apart`: the only name of the first object is `x`, which is not used -/
example : Spec.Bound exTwoNames ∧ Dict.get? exTwoNames.refs (py% "x") = some 0 ∧
    (∀ z, Dict.get? exTwoNames.refs z = some 0 → z = py% "x") ∧
    ∀ st ∈ [.same (py% "z") (py% "y"), exDelete (py% "z")], ∀ z, z = py% "x" → ¬ Spec.Mentions z st := by
  refine ⟨exTwoNames_bound, rfl, fun z h => ?_, ?_⟩
  · rcases exTwoNames_addresses h with ⟨e, -⟩ | ⟨-, e⟩
    · exact e
    · omega
  · simp [exDelete, Spec.Mentions]

/-- `C105_copy`: after `z = x.copy()` a change of `x` is not seen under `z` -/
example : exTwoNames.get (py% "x") = some exCustomized ∧ ¬ Spec.Mentions (py% "z") (exDelete (py% "x")) ∧
    (execNames exEnv exNc exTwoNames [.plain (.copy (py% "z") (py% "x")), exDelete (py% "x")]).get (py% "z") = some exCustomized ∧
    (execNames exEnv exNc exTwoNames [.plain (.copy (py% "z") (py% "x")), exDelete (py% "x")]).get (py% "x") ≠ some exCustomized := by
  refine ⟨by decide +kernel, ?_, by decide +kernel, by decide +kernel⟩
  simp [exDelete, Spec.Mentions]

/-- `C105_bind`, `C105_new`: after `z = x` and `x = sofar.Sofa("FIR")` the old object is still the one of `z`, and changes of
`x` are not seen under `z` -/
example : (initSofa exEnv (py% "FIR") true .latest .auto).out.isOk = true ∧
    (execNames exEnv exNc exTwoNames [.same (py% "z") (py% "x"), .plain (.create (py% "x") (py% "FIR") true .latest .auto),
      .plain (.call (py% "x") (.delete (py% "GLOBAL_Comment")))]).get (py% "z") = some exCustomized ∧
    (execNames exEnv exNc exTwoNames [.same (py% "z") (py% "x"), .plain (.create (py% "x") (py% "FIR") true .latest .auto),
      .plain (.call (py% "x") (.delete (py% "GLOBAL_Comment")))]).get (py% "x") ≠ some exCustomized := by
  decide +kernel

example : ∀ st ∈ [exDelete (py% "x")], ∀ z, z ≠ py% "x" → ¬ Spec.Mentions z st := by
  simp only [List.mem_singleton, exDelete]
  rintro st rfl z hz h
  exact hz h.symm

/-- `C105_either`: the object is written to the same file under both names -/
example : (exTwoNames.get (py% "x")).isSome = true ∧
    (writeSofa exEnv exNc exTwoNames.fs (py% "b") exCustomized 4).out = .ok () ∧
    (readSofa exEnv exNc (execNames exEnv exNc exTwoNames [.same (py% "z") (py% "x"),
      .plain (.write (py% "b") (py% "z") 4)]).fs (py% "b") .auto true).out.isOk = true ∧
    (readSofa exEnv exNc exTwoNames.fs (py% "b") .auto true).out.isOk = false := by
  decide +kernel

end Sofar
