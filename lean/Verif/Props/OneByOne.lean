import Verif.Lemmas.OneByOne
import Verif.Props.Example
/-!
# C95: every rule acts on its own
-/
namespace Sofar

/-- C95: An object passes the verification exactly if it passes without the rules and with each single rule. -/
theorem C95_each (env : Env) (o : Obj) (mode : Mode) :
    (verify env o .raise mode).out = .ok none ↔
      (verify { env with rules := [] } o .raise mode).out = .ok none ∧
        ∀ r ∈ env.rules, (verify { env with rules := [r] } o .raise mode).out = .ok none :=
  single_verify env o mode env.rules

/-- C95: A new object can be created exactly if it can be created without the rules and with each single rule, and it is the
same object. -/
theorem C95_created (env : Env) (c : Str) (m : Bool) (ver : VersionArg) (a : VerifyArg) (o : Obj) :
    (initSofa env c m ver a).out = .ok o ↔
      (initSofa { env with rules := [] } c m ver a).out = .ok o ∧
        ∀ r ∈ env.rules, (initSofa { env with rules := [r] } c m ver a).out = .ok o :=
  single_initSofa env c m ver a o env.rules

/-- C95: With fewer rules, in whatever order and however often they are listed, valid objects stay valid. -/
theorem C95_fewer (env : Env) (R : List (Str × Rule)) (hR : ∀ r ∈ R, r ∈ env.rules) (o : Obj) (mode : Mode)
    (h : (verify env o .raise mode).out = .ok none) : (verify { env with rules := R } o .raise mode).out = .ok none :=
  (single_verify env o mode R).2 ⟨((C95_each env o mode).1 h).1, fun r hr => ((C95_each env o mode).1 h).2 r (hR r hr)⟩

/-- C95: A rule about data that neither the object nor any convention knows has no effect at all, wherever it is in the list:
the results, the texts and the warnings are the same with and without it. -/
theorem C95_unknown (env : Env) (A B : List (Str × Rule)) (r : Str × Rule) (hrules : env.rules = A ++ B) (o : Obj)
    (h : Spec.Unknown env o (Spec.sofarName r.1)) (ih : IH) (mode : Mode) :
    verify { env with rules := A ++ r :: B } o ih mode = verify env o ih mode := by
  rw [verify_skip h]
  rw [← hrules]

/-- the example with too few units breaks the rule about units, but not the rule about data types -/
example : (verify exEnv exSofa .raise .write).out = .ok none ∧
    (let o := (setAttr exSofa (py% "SourcePosition_Units") (.val (.str (py% "degree")))).obj
     (verify { exEnv with rules := [] } o .raise .write).out = .ok none ∧
     (exEnv.rules.map fun r => (verify { exEnv with rules := [r] } o .raise .write).out.isOk) = [false, true] ∧
     (verify exEnv o .raise .write).out.isOk = false) := by decide +kernel

/-- new objects of the example -/
example : (initSofa exEnv (py% "FIR") false .latest .auto).out = .ok exSofa ∧ exEnv.rules.length = 2 := by decide +kernel

/-- a rule for receivers, which the example does not have -/
example : exEnv.rules = exEnv.rules.take 1 ++ exEnv.rules.drop 1 ∧
    Spec.Unknown exEnv exSofa (Spec.sofarName (py% "ReceiverPosition:Units")) ∧
    (let o := (setAttr exSofa (py% "SourcePosition_Units") (.val (.str (py% "degree")))).obj
     let r : Str × Rule := (py% "ReceiverPosition:Units", ⟨some [py% "metre"], [py% "ReceiverPosition"], none⟩)
     ∃ t, (verify { exEnv with rules := exEnv.rules.take 1 ++ r :: exEnv.rules.drop 1 } o .ret .write).out = .ok (some t)) := by
  refine ⟨by decide +kernel, ⟨⟨by decide +kernel, by decide +kernel⟩, by decide +kernel, ?_, ?_, by decide +kernel⟩, ?_⟩
  · have : exEnv.files.all (fun f => f.content.all (fun p => Spec.sofarName p.1 ≠ Spec.sofarName (py% "ReceiverPosition:Units"))) =
      true := by decide +kernel
    intro f hf key e he
    simpa using List.all_eq_true.mp (List.all_eq_true.mp this f hf) _ he
  · intro c e hc
    have : exSofa.custom = none := by decide +kernel
    rw [this] at hc
    cases hc
  · simp only
    have : (match (verify { exEnv with rules := exEnv.rules.take 1 ++ (py% "ReceiverPosition:Units",
        ⟨some [py% "metre"], [py% "ReceiverPosition"], none⟩) :: exEnv.rules.drop 1 }
        (setAttr exSofa (py% "SourcePosition_Units") (.val (.str (py% "degree")))).obj .ret .write).out with
        | .ok (some _) => true | _ => false) = true := by decide +kernel
    revert this
    split
    · rename_i t ht; exact fun _ => ⟨t, ht⟩
    · simp

end Sofar
