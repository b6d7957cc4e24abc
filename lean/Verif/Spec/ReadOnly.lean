import Verif.Model.Upgrade
import Verif.Spec.History
/-!
# Vocabulary for read only data
-/
namespace Sofar.Spec

/-- `o'` results from `o` by any sequence of public calls, among them upgrades; every call may succeed or raise. -/
inductive Later (env : Env) (o : Obj) : Obj → Prop
  | start : Later env o o
  | call {o' : Obj} (op : Op) (h : Later env o o') : Later env o (step env o' op)
  | upgrade {o' : Obj} (target : Option Str) (arg : VerifyArg) (h : Later env o o') :
      Later env o (upgradeConvention env o' target arg).obj

/-- The convention does not flag exactly one entry as read only. -/
def NotSingle (conv : Dict Entry) : Prop := ∀ k, ReadOnlyIn conv k → ∃ j, j ≠ k ∧ ReadOnlyIn conv j

/-- Assignments to data `k` of the object: with `readOnly`, every assignment is refused with TypeError and changes
nothing; otherwise every text, number and array is stored, and nothing else changes. -/
def Guards (o : Obj) (k : Str) (readOnly : Prop) : Prop :=
  (readOnly → ∀ x, ∃ m, setAttr o k x = ⟨.error (.typeError m), o, []⟩) ∧
  (¬ readOnly → ∀ v, (setAttr o k (.val v)).out = .ok () ∧ Dict.get? (setAttr o k (.val v)).obj.attrs k = some v ∧
    ∀ j, j ≠ k → Dict.get? (setAttr o k (.val v)).obj.attrs j = Dict.get? o.attrs j)

/-- names of data that are neither private nor names of properties of the class -/
def DataName (k : Str) : Prop := Str.startsWith k (py% "_") = false ∧ k ≠ py% "list_dimensions" ∧ k ≠ py% "protected"

end Sofar.Spec
