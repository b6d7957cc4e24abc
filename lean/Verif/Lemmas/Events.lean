import Verif.Lemmas.Modes
/-!
# What `verify` prints
-/
namespace Sofar

theorem handle_print_ev (w e : Str) : (handleIssues w e .print).ev =
    (if w.isEmpty then [] else [.print (warningHeader ++ w)]) ++ (if e.isEmpty then [] else [.print (errorHeader ++ e)]) := by
  cases w <;> cases e <;> simp [handleIssues]

theorem handle_raise_ev (w e : Str) (m : Str) : Event.print m ∉ (handleIssues w e .raise).ev := by
  cases w <;> cases e <;> simp [handleIssues]

theorem early_raise_ev (o : Obj) (e : Str) (m : Str) : Event.print m ∉ (verifyEarly o .raise e).ev := by
  unfold verifyEarly
  simp only
  split <;> exact handle_raise_ev _ _ _

theorem tail_raise_ev (env : Env) (o : Obj) (mode : Mode) (w e : Str) (ev : List Event) (m : Str)
    (h : Event.print m ∉ ev) : Event.print m ∉ (verifyTail env o .raise mode w e ev).ev := by
  unfold verifyTail
  split
  · exact h
  · split
    · exact h
    · simp only
      split <;> exact fun h' => (List.mem_append.1 h').elim h (handle_raise_ev _ _ _)

theorem custom_ev (inner : Inner) (o : Obj) (m : Str) (h : Event.print m ∉ inner.ev) :
    Event.print m ∉ (phaseCustomNames inner o).2 := by
  unfold phaseCustomNames
  split
  · simp
  · split <;> exact h

theorem body_raise_ev (inner : Inner) (env : Env) (o : Obj) (keys : List Str) (mode : Mode) (w e : Str) (m : Str)
    (h : Event.print m ∉ inner.ev) : Event.print m ∉ (verifyBody inner env o keys .raise mode w e).ev := by
  have hc := custom_ev inner o m h
  unfold verifyBody
  split
  · simp
  · simp only
    split
    · exact hc
    · split
      · exact hc
      · split
        · exact hc
        · exact tail_raise_ev _ _ _ _ _ _ _ hc

theorem verifyG_raise_ev (inner : Env → Obj → Inner) (env : Env) (o : Obj) (mode : Mode) (m : Str)
    (h : ∀ o', Event.print m ∉ (inner env o').ev) : Event.print m ∉ (verifyG inner env o .raise mode).ev := by
  unfold verifyG
  split
  · simp
  · simp only
    split
    · simp
    · split
      · simp
      · simp only [if_true]
        split
        · exact early_raise_ev _ _ _
        · exact body_raise_ev _ _ _ _ _ _ _ _ (h _)

theorem initSofa_ev (env : Env) (c : Str) (b : Bool) (v : VersionArg) (a : VerifyArg) (m : Str) :
    Event.print m ∉ (initSofa env c b v a).ev := by
  have hf : ∀ ver ver' o, Event.print m ∉ (finishInit env b ver ver' o).ev := by
    intro ver ver' o
    unfold finishInit
    split
    · have := verifyG_raise_ev (fun _ _ => ⟨.error .unmodelled, []⟩) env o .read m (by simp)
      simp only
      split <;> exact this
    · split <;> simp [preliminaryWarning]
  unfold initSofa
  split
  · simp
  · split
    · simp
    · split
      · simp
      · split
        · exact hf _ _ _
        · exact hf _ _ _
        · split
          · simp
          · exact hf _ _ _

theorem referenceNames_ev (env : Env) (o : Obj) (m : Str) : Event.print m ∉ (referenceNames env o).ev := by
  unfold referenceNames
  split
  · simp
  · split
    · simp
    · split
      · simp only
        split <;> exact initSofa_ev _ _ _ _ _ _
      · simp
      · simp

/-- relation between what is printed and what is returned -/
structure PrintsReturn (ev : List Event) (ret : Except Exc (Option Str)) : Prop where
  some : ∀ t, ret = .ok (some t) → ∀ m, Event.print m ∈ ev → m <:+: t
  none : ret = .ok none → ∀ m, Event.print m ∈ ev → warningHeader <+: m

theorem early_prints (o : Obj) (e : Str) (he : e ≠ []) :
    PrintsReturn (verifyEarly o .print e).ev (verifyEarly o .ret e).out := by
  have h1 : e.isEmpty = false := by simpa [List.isEmpty_iff] using he
  unfold verifyEarly
  simp only [handle_err _ _ .print he (by decide), handle_err _ _ .ret he (by decide), handle_print_ev]
  refine ⟨?_, by simp⟩
  intro t ht m hm
  simp [h1] at hm ht
  rw [hm, ← ht]
  exact List.infix_refl _

theorem tail_prints (env : Env) (o : Obj) (mode : Mode) (w e : Str) (ev : List Event)
    (h : ∀ m, Event.print m ∉ ev) :
    PrintsReturn (verifyTail env o .print mode w e ev).ev (verifyTail env o .ret mode w e ev).out := by
  unfold verifyTail
  cases phaseRules env o mode with
  | error x => exact ⟨by simp, by simp⟩
  | ok e6 =>
    cases phaseDeprecations env o mode with
    | error x => exact ⟨by simp, by simp⟩
    | ok p =>
      obtain ⟨e8, w8⟩ := p
      simp only
      generalize e ++ e6 ++ e8 = E
      generalize w ++ w8 = W
      by_cases he : E = []
      · subst he
        obtain ⟨i, h1⟩ := handle_noerr W .print
        obtain ⟨j, h2⟩ := handle_noerr W .ret
        simp only [h1, h2, handle_print_ev]
        refine ⟨by simp, ?_⟩
        intro _ m hm
        rcases List.mem_append.1 hm with hm | hm
        · exact absurd hm (h m)
        · cases W with
          | nil => simp at hm
          | cons a t => simp at hm; rw [hm]; exact List.prefix_append _ _
      · have h1 : E.isEmpty = false := by simpa [List.isEmpty_iff] using he
        simp only [handle_err _ _ .print he (by decide), handle_err _ _ .ret he (by decide), handle_print_ev]
        refine ⟨?_, by simp⟩
        intro t ht m hm
        simp only [Bool.true_and, beq_self_eq_true, if_true, Except.ok.injEq, Option.some.injEq] at ht
        rw [← ht]
        rcases List.mem_append.1 hm with hm | hm
        · exact absurd hm (h m)
        · rcases List.mem_append.1 hm with hm | hm
          · cases W with
            | nil => simp at hm
            | cons a t =>
              simp at hm
              rw [hm]
              exact ⟨errorHeader ++ E ++ py% "\n", [], by simp⟩
          · simp [h1] at hm
            rw [hm]
            exact (List.prefix_append _ _).isInfix

theorem body_prints (inner : Inner) (env : Env) (o : Obj) (keys : List Str) (mode : Mode) (w e : Str)
    (h : ∀ m, Event.print m ∉ inner.ev) :
    PrintsReturn (verifyBody inner env o keys .print mode w e).ev (verifyBody inner env o keys .ret mode w e).out := by
  unfold verifyBody
  cases phaseNames o keys with
  | error x => exact ⟨by simp, by simp⟩
  | ok e3 =>
    simp only
    cases (phaseCustomNames inner o).1 with
    | error x => exact ⟨by simp, by simp⟩
    | ok e3' =>
      simp only
      cases (phaseDims o).1 with
      | error x => exact ⟨by simp, by simp⟩
      | ok u =>
        simp only
        cases (phaseShapes (phaseDims o).2).1 with
        | error x => exact ⟨by simp, by simp⟩
        | ok e5 => exact tail_prints _ _ _ _ _ _ (fun m => custom_ev _ _ _ (h m))

theorem verifyG_prints (inner : Env → Obj → Inner) (env : Env) (o : Obj) (mode : Mode)
    (h : ∀ o' m, Event.print m ∉ (inner env o').ev) :
    PrintsReturn (verifyG inner env o .print mode).ev (verifyG inner env o .ret mode).out := by
  unfold verifyG
  cases resetConvention env o with
  | error x => exact ⟨by simp, by simp⟩
  | ok o1 =>
    have e1 : decide (IH.print ≠ IH.raise) = decide (IH.ret ≠ IH.raise) := rfl
    simp only [e1]
    generalize fillMissing (decide (IH.ret ≠ IH.raise)) o1.keys o1.conv o1 = f
    obtain ⟨f1, o2⟩ := f
    cases f1 with
    | error x => exact ⟨by simp, by simp⟩
    | ok missing =>
      simp only
      cases phaseTypes env o2 o1.keys with
      | error x => exact ⟨by simp, by simp⟩
      | ok e2 =>
        simp only [reduceCtorEq, if_false, List.nil_append]
        by_cases he : e2 = []
        · subst he
          simp only [List.isEmpty_nil, Bool.not_true, Bool.false_and, Bool.false_eq_true, if_false]
          exact body_prints _ _ _ _ _ _ _ (h _)
        · have h1 : e2.isEmpty = false := by simpa [List.isEmpty_iff] using he
          rw [if_pos (by simp [h1]), if_pos (by simp [h1])]
          exact early_prints _ _ he

end Sofar
