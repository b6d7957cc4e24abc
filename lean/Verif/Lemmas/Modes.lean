import Verif.Lemmas.Shapes
import Verif.Lemmas.Rules
import Verif.Model.Init
/-!
# `verify` with different `issue_handling`
-/
namespace Sofar

theorem verifyG_present (inner : Env → Obj → Inner) (env : Env) (o o1 : Obj) (ih : IH) (mode : Mode)
    (hr : resetConvention env o = .ok o1) (hm : ∀ p ∈ o1.conv, mandatory p.2.flags = true → p.1 ∈ o1.keys) :
    verifyG inner env o ih mode =
      match phaseTypes env o1 o1.keys with
      | .error x => ⟨.error x, o1, []⟩
      | .ok e2 =>
        if ! e2.isEmpty && ih != .ignore then verifyEarly o1 ih e2
        else verifyBody (inner env o1) env o1 o1.keys ih mode [] e2 := by
  unfold verifyG
  rw [hr]
  simp only
  rw [fillMissing_noop _ _ _ _ hm]
  simp only [section_, List.isEmpty_nil, if_true, ite_self, List.nil_append]
  cases phaseTypes env o1 o1.keys <;> rfl

theorem handle_raise_err (w e : Str) (he : e ≠ []) :
    (handleIssues w e .raise).out = .error (.valueError (errorHeader ++ e)) := by
  cases e with
  | nil => exact absurd rfl he
  | cons a t => simp [handleIssues]

theorem handle_err (w e : Str) (ih : IH) (he : e ≠ []) (h : ih ≠ .raise) :
    (handleIssues w e ih).out = .ok (true, some (errorHeader ++ e ++
      (if w.isEmpty then [] else py% "\n" ++ (warningHeader ++ w)))) := by
  cases e with
  | nil => exact absurd rfl he
  | cons a t =>
    cases w <;> cases ih <;> simp_all [handleIssues, issuesText]

theorem handle_noerr (w : Str) (ih : IH) : ∃ i, (handleIssues w [] ih).out = .ok (false, i) :=
  handleIssues_nil w ih

/-- how the outcome of `raise` follows from the outcome of `return` -/
structure RaiseReturn (raise ret : Except Exc (Option Str)) : Prop where
  exception : ∀ x, ret = .error x → raise = .error x
  none : ret = .ok none → raise = .ok none
  some : ∀ t, ret = .ok (some t) → ∃ t0, raise = .error (.valueError t0) ∧ t0 <+: t ∧ errorHeader <+: t0

theorem tail_raise_ret (env : Env) (o : Obj) (mode : Mode) (w e : Str) (ev : List Event) :
    RaiseReturn (verifyTail env o .raise mode w e ev).out (verifyTail env o .ret mode w e ev).out := by
  unfold verifyTail
  cases phaseRules env o mode with
  | error x => exact ⟨fun _ h => h, by simp, by simp⟩
  | ok e6 =>
    cases phaseDeprecations env o mode with
    | error x => exact ⟨fun _ h => h, by simp, by simp⟩
    | ok p =>
      obtain ⟨e8, w8⟩ := p
      simp only
      by_cases he : e ++ e6 ++ e8 = []
      · rw [he]
        obtain ⟨i, h1⟩ := handle_noerr (w ++ w8) .raise
        obtain ⟨j, h2⟩ := handle_noerr (w ++ w8) .ret
        simp only [h1, h2]
        exact ⟨by simp, by simp, by simp⟩
      · simp only [handle_raise_err _ _ he, handle_err _ _ .ret he (by decide)]
        refine ⟨by simp, by simp, ?_⟩
        intro t ht
        refine ⟨_, rfl, ?_, List.prefix_append _ _⟩
        simp only [Bool.true_and, beq_self_eq_true, if_true, Except.ok.injEq, Option.some.injEq] at ht
        rw [← ht]
        exact List.prefix_append _ _

theorem body_raise_ret (inner : Inner) (env : Env) (o : Obj) (keys : List Str) (mode : Mode) (w e : Str) :
    RaiseReturn (verifyBody inner env o keys .raise mode w e).out (verifyBody inner env o keys .ret mode w e).out := by
  unfold verifyBody
  cases phaseNames o keys with
  | error x => exact ⟨fun _ h => h, by simp, by simp⟩
  | ok e3 =>
    simp only
    cases (phaseCustomNames inner o).1 with
    | error x => exact ⟨fun _ h => h, by simp, by simp⟩
    | ok e3' =>
      simp only
      cases (phaseDims o).1 with
      | error x => exact ⟨fun _ h => h, by simp, by simp⟩
      | ok u =>
        simp only
        cases (phaseShapes (phaseDims o).2).1 with
        | error x => exact ⟨fun _ h => h, by simp, by simp⟩
        | ok e5 => exact tail_raise_ret _ _ _ _ _ _

theorem verifyG_raise_ret (inner : Env → Obj → Inner) (env : Env) (o o1 : Obj) (mode : Mode)
    (hr : resetConvention env o = .ok o1) (hm : ∀ p ∈ o1.conv, mandatory p.2.flags = true → p.1 ∈ o1.keys) :
    RaiseReturn (verifyG inner env o .raise mode).out (verifyG inner env o .ret mode).out := by
  rw [verifyG_present inner env o o1 .raise mode hr hm, verifyG_present inner env o o1 .ret mode hr hm]
  cases phaseTypes env o1 o1.keys with
  | error x => exact ⟨fun _ h => h, by simp, by simp⟩
  | ok e2 =>
    simp only
    by_cases he : e2 = []
    · subst he
      simp only [List.isEmpty_nil, Bool.not_true, Bool.false_and, Bool.false_eq_true, if_false]
      exact body_raise_ret _ _ _ _ _ _ _
    · have h1 : e2.isEmpty = false := by simpa [List.isEmpty_iff] using he
      rw [if_pos (by simp [h1]), if_pos (by simp [h1])]
      unfold verifyEarly
      simp only [handle_raise_err _ _ he, handle_err _ _ .ret he (by decide)]
      refine ⟨by simp, by simp, ?_⟩
      intro t ht
      refine ⟨_, rfl, ?_, List.prefix_append _ _⟩
      simp at ht
      rw [← ht]
      exact List.prefix_refl _

/-- how the outcome of `print` follows from the outcome of `return` -/
structure PrintReturn (print ret : Except Exc (Option Str)) : Prop where
  exception : ∀ x, ret = .error x → print = .error x
  ok : ∀ t, ret = .ok t → print = .ok none

theorem tail_print_ret (env : Env) (o : Obj) (mode : Mode) (w e : Str) (ev : List Event) :
    PrintReturn (verifyTail env o .print mode w e ev).out (verifyTail env o .ret mode w e ev).out ∧
    PrintReturn (verifyTail env o .ignore mode w e ev).out (verifyTail env o .ret mode w e ev).out := by
  unfold verifyTail
  cases phaseRules env o mode with
  | error x => exact ⟨⟨fun _ h => h, by simp⟩, ⟨fun _ h => h, by simp⟩⟩
  | ok e6 =>
    cases phaseDeprecations env o mode with
    | error x => exact ⟨⟨fun _ h => h, by simp⟩, ⟨fun _ h => h, by simp⟩⟩
    | ok p =>
      obtain ⟨e8, w8⟩ := p
      simp only
      by_cases he : e ++ e6 ++ e8 = []
      · rw [he]
        obtain ⟨i, h1⟩ := handle_noerr (w ++ w8) .print
        obtain ⟨j, h2⟩ := handle_noerr (w ++ w8) .ret
        simp only [h1, h2]
        exact ⟨⟨by simp, by simp⟩, ⟨by simp, by simp⟩⟩
      · simp only [handle_err _ _ .print he (by decide), handle_err _ _ .ret he (by decide)]
        refine ⟨⟨by simp, ?_⟩, ⟨by simp, by simp⟩⟩
        intro t _
        rfl

theorem body_print_ret (inner : Inner) (env : Env) (o : Obj) (keys : List Str) (mode : Mode) (w e : Str) :
    PrintReturn (verifyBody inner env o keys .print mode w e).out (verifyBody inner env o keys .ret mode w e).out ∧
    PrintReturn (verifyBody inner env o keys .ignore mode w e).out (verifyBody inner env o keys .ret mode w e).out := by
  unfold verifyBody
  cases phaseNames o keys with
  | error x => exact ⟨⟨fun _ h => h, by simp⟩, ⟨fun _ h => h, by simp⟩⟩
  | ok e3 =>
    simp only
    cases (phaseCustomNames inner o).1 with
    | error x => exact ⟨⟨fun _ h => h, by simp⟩, ⟨fun _ h => h, by simp⟩⟩
    | ok e3' =>
      simp only
      cases (phaseDims o).1 with
      | error x => exact ⟨⟨fun _ h => h, by simp⟩, ⟨fun _ h => h, by simp⟩⟩
      | ok u =>
        simp only
        cases (phaseShapes (phaseDims o).2).1 with
        | error x => exact ⟨⟨fun _ h => h, by simp⟩, ⟨fun _ h => h, by simp⟩⟩
        | ok e5 => exact tail_print_ret _ _ _ _ _ _

/-- `print` and `return` agree for every object (both add missing data) -/
theorem verifyG_print_ret (inner : Env → Obj → Inner) (env : Env) (o : Obj) (mode : Mode) :
    PrintReturn (verifyG inner env o .print mode).out (verifyG inner env o .ret mode).out := by
  unfold verifyG
  cases resetConvention env o with
  | error x => exact ⟨fun _ h => h, by simp⟩
  | ok o1 =>
    have e1 : decide (IH.print ≠ IH.raise) = decide (IH.ret ≠ IH.raise) := rfl
    simp only [e1]
    generalize fillMissing (decide (IH.ret ≠ IH.raise)) o1.keys o1.conv o1 = f
    obtain ⟨f1, o2⟩ := f
    cases f1 with
    | error x => exact ⟨fun _ h => h, by simp⟩
    | ok missing =>
      simp only
      cases phaseTypes env o2 o1.keys with
      | error x => exact ⟨fun _ h => h, by simp⟩
      | ok e2 =>
        simp only [reduceCtorEq, if_false, List.nil_append]
        by_cases he : e2 = []
        · subst he
          simp only [List.isEmpty_nil, Bool.not_true, Bool.false_and, Bool.false_eq_true, if_false]
          exact (body_print_ret _ _ _ _ _ _ _).1
        · have h1 : e2.isEmpty = false := by simpa [List.isEmpty_iff] using he
          rw [if_pos (by simp [h1]), if_pos (by simp [h1])]
          unfold verifyEarly
          simp only [handle_err _ _ .print he (by decide), handle_err _ _ .ret he (by decide)]
          refine ⟨by simp, ?_⟩
          intro t _
          rfl

/-- `ignore` and `return` agree if no data is of wrong type -/
theorem verifyG_ignore_ret (inner : Env → Obj → Inner) (env : Env) (o : Obj) (mode : Mode)
    (hn : (verifyG inner env o .ret mode).out = .ok none) :
    (verifyG inner env o .ignore mode).out = .ok none := by
  revert hn
  unfold verifyG
  cases resetConvention env o with
  | error x => simp
  | ok o1 =>
    have e1 : decide (IH.ignore ≠ IH.raise) = decide (IH.ret ≠ IH.raise) := rfl
    simp only [e1]
    generalize fillMissing (decide (IH.ret ≠ IH.raise)) o1.keys o1.conv o1 = f
    obtain ⟨f1, o2⟩ := f
    cases f1 with
    | error x => simp
    | ok missing =>
      simp only
      cases phaseTypes env o2 o1.keys with
      | error x => simp
      | ok e2 =>
        simp only [reduceCtorEq, if_false, List.nil_append]
        by_cases he : e2 = []
        · subst he
          simp only [List.isEmpty_nil, Bool.not_true, Bool.false_and, Bool.false_eq_true, if_false]
          intro h
          exact (body_print_ret _ _ _ _ _ _ _).2.ok _ h
        · have h1 : e2.isEmpty = false := by simpa [List.isEmpty_iff] using he
          rw [if_pos (by simp [h1])]
          unfold verifyEarly
          simp [handle_err _ _ .ret he (by decide)]

/-- `return` and `raise` leave the same object if nothing is missing -/
theorem verifyG_ret_obj_present (inner : Env → Obj → Inner) (env : Env) (o o1 : Obj) (mode : Mode)
    (hr : resetConvention env o = .ok o1) (hm : ∀ p ∈ o1.conv, mandatory p.2.flags = true → p.1 ∈ o1.keys) :
    (verifyG inner env o .ret mode).obj = (verifyG inner env o .raise mode).obj := by
  rw [verifyG_present inner env o o1 .raise mode hr hm, verifyG_present inner env o o1 .ret mode hr hm]
  cases phaseTypes env o1 o1.keys with
  | error x => rfl
  | ok e2 =>
    simp only
    by_cases he : e2 = []
    · subst he
      simp only [List.isEmpty_nil, Bool.not_true, Bool.false_and, Bool.false_eq_true, if_false]
      unfold verifyBody
      cases phaseNames o1 o1.keys with
      | error x => rfl
      | ok e3 =>
        simp only
        cases (phaseCustomNames (inner env o1) o1).1 with
        | error x => rfl
        | ok e3' =>
          simp only
          cases (phaseDims o1).1 with
          | error x => rfl
          | ok u =>
            simp only
            cases (phaseShapes (phaseDims o1).2).1 with
            | error x => rfl
            | ok e5 => simp only [verifyTail_obj]
    · have h1 : e2.isEmpty = false := by simpa [List.isEmpty_iff] using he
      rw [if_pos (by simp [h1]), if_pos (by simp [h1]), verifyEarly_obj, verifyEarly_obj]

theorem isMandatory_iff (o : Obj) :
    (∀ p ∈ o.conv, mandatory p.2.flags = true → p.1 ∈ o.keys) ↔ Spec.HasMandatory o := by
  unfold Spec.HasMandatory
  constructor
  · intro h k e f hp hf hm
    exact h (k, e) hp (by simp [mandatory, hf, hm])
  · rintro h ⟨k, e⟩ hp hm
    cases hf : e.flags with
    | none => simp [mandatory, hf] at hm
    | some f => exact h k e f hp hf (by simpa [mandatory, hf] using hm)

end Sofar
