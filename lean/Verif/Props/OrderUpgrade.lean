import Verif.Lemmas.OrderUpgrade
import Verif.Props.Order
import Verif.Props.Upgrade
/-!
# C103: the order of the data does not matter for adding missing data and for upgrades
-/
namespace Sofar

/-! ## Examples -/

/-- an object without its comment -/
def exLessData : Obj := { exSofa with attrs := Dict.del exSofa.attrs (py% "GLOBAL_Comment") }

/-- its data in reverse order -/
def exLessReversed : Obj := { exLessData with attrs := exLessData.attrs.reverse }

theorem exLessReversed_reordered : Spec.Reordered exLessData exLessReversed :=
  ⟨⟨List.reverse_perm _, by decide +kernel⟩, Or.inl ⟨by decide +kernel, by decide +kernel⟩⟩

/-- an upgrade that removes a datum -/
def exEnvRemove : Env :=
  { exEnvUp with upgrade := [(py% "FIR", ⟨[([py% "0.9"], [py% "FIR_1.0"], py% "a")], [(py% "a", ⟨[], [py% "Old"], none⟩)]⟩)] }

/-- the data of the outdated object in reverse order -/
def exOutdatedReversed : Obj := { exOutdated with attrs := exOutdated.attrs.reverse }

theorem exOutdatedReversed_reordered : Spec.Reordered exOutdated exOutdatedReversed :=
  ⟨⟨List.reverse_perm _, by decide +kernel⟩, Or.inl ⟨by decide +kernel, by decide +kernel⟩⟩

/-- C103: If missing data can be added, the same data is added to an object with its data in another order: The objects have
the same data afterwards. (Missing: a convention or a custom entry with the name `protected` is excluded, because an
assignment to this name changes the protection of the object.) -/
theorem C103_add_missing_partial (env : Env) (o o' : Obj) (h : Spec.Reordered o o') (mandatory optional verbose : Bool)
    (hp : ∀ f ∈ env.files, ∀ key e, (key, e) ∈ f.content → Spec.sofarName key ≠ py% "protected")
    (hc : ∀ c, o.custom = some c → py% "protected" ∉ c.map Prod.fst)
    (ho : (addMissing env o mandatory optional verbose).out = .ok ()) :
    (addMissing env o' mandatory optional verbose).out = .ok () ∧
      Spec.Reordered (addMissing env o mandatory optional verbose).obj (addMissing env o' mandatory optional verbose).obj :=
  reordered_addMissing h (fun _ hr => reset_names hp hc hr) ho

/-- C103: If an object can be upgraded, an object with the same data in another order can be upgraded. The same is returned
and the objects have the same data afterwards. (Missing: if the upgraded object is verified, its variables have to agree on
the sizes of the dimensions, see `C103_refuted`. The name `protected` and custom variables named like methods are
excluded.) -/
theorem C103_upgrade_partial (env : Env) (o o' : Obj) (h : Spec.Reordered o o') (target : Option Str) (arg : VerifyArg)
    (hp : ∀ f ∈ env.files, ∀ key e, (key, e) ∈ f.content → Spec.sofarName key ≠ py% "protected")
    (hc : ∀ c, o.custom = some c → py% "protected" ∉ c.map Prod.fst)
    (hs : arg ≠ .no → ∀ o1, resetConvention env (upgradeConvention env o target .no).obj = .ok o1 →
      Spec.AgreeOnSizes o1 ∧ Spec.CustomNoMethod o1) (r : Option (List Str))
    (hv : (upgradeConvention env o target arg).out = .ok r) :
    (upgradeConvention env o' target arg).out = .ok r ∧
      Spec.Reordered (upgradeConvention env o target arg).obj (upgradeConvention env o' target arg).obj :=
  reordered_upgrade hp h hc hs hv

theorem exUp_names : (∀ f ∈ exEnv.files, ∀ key e, (key, e) ∈ f.content → Spec.sofarName key ≠ py% "protected") ∧
    ∀ f ∈ exEnvUp.files, ∀ key e, (key, e) ∈ f.content → Spec.sofarName key ≠ py% "protected" := by
  have h1 : ∀ f ∈ exEnv.files, ∀ p ∈ f.content, Spec.sofarName p.1 ≠ py% "protected" := by decide +kernel
  have h2 : ∀ f ∈ exEnvUp.files, ∀ p ∈ f.content, Spec.sofarName p.1 ≠ py% "protected" := by decide +kernel
  exact ⟨fun f hf key e hm => h1 f hf (key, e) hm, fun f hf key e hm => h2 f hf (key, e) hm⟩

/-- the hypotheses are met: the comment is added -/
example : exLessReversed.attrs ≠ exLessData.attrs ∧ Dict.has exLessReversed.attrs (py% "GLOBAL_Comment") = false ∧
    (addMissing exEnv exLessReversed true true false).out = .ok () ∧
    Dict.has (addMissing exEnv exLessReversed true true false).obj.attrs (py% "GLOBAL_Comment") = true ∧
    Spec.Reordered (addMissing exEnv exLessData true true false).obj (addMissing exEnv exLessReversed true true false).obj := by
  have h := C103_add_missing_partial exEnv _ _ exLessReversed_reordered true true false exUp_names.1
    (fun c hc => by
      have : exLessData.custom = none := by decide +kernel
      rw [this] at hc
      simp at hc) (by decide +kernel)
  exact ⟨by decide +kernel, by decide +kernel, h.1, by decide +kernel, h.2⟩

theorem exOutdated_custom : exOutdated.custom = none := by decide +kernel

/-- the hypotheses are met by an upgrade with a verification, and by one that moves data -/
example : exOutdatedReversed.attrs ≠ exOutdated.attrs ∧
    (upgradeConvention exEnvRemove exOutdatedReversed (some (py% "FIR_1.0")) .yes).out = .ok none ∧
    Spec.Reordered (upgradeConvention exEnvRemove exOutdated (some (py% "FIR_1.0")) .yes).obj
      (upgradeConvention exEnvRemove exOutdatedReversed (some (py% "FIR_1.0")) .yes).obj ∧
    Spec.Reordered (upgradeConvention exEnvUp exOutdated (some (py% "FIR_1.0")) .no).obj
      (upgradeConvention exEnvUp exOutdatedReversed (some (py% "FIR_1.0")) .no).obj := by
  have hc : ∀ c, exOutdated.custom = some c → py% "protected" ∉ c.map Prod.fst := fun c hc => by
    rw [exOutdated_custom] at hc
    simp at hc
  have hr : (resetConvention exEnvRemove (upgradeConvention exEnvRemove exOutdated (some (py% "FIR_1.0")) .no).obj).toOption =
      some (upgradeConvention exEnvRemove exOutdated (some (py% "FIR_1.0")) .no).obj := by decide +kernel
  have h := C103_upgrade_partial exEnvRemove _ _ exOutdatedReversed_reordered (some (py% "FIR_1.0")) .yes exUp_names.2 hc
    (fun _ o1 h1 => by
      rw [h1] at hr
      obtain rfl : o1 = _ := by simpa [Except.toOption] using hr
      refine ⟨agreeB_sound (by decide +kernel), fun c k e hcc _ => ?_⟩
      have : (upgradeConvention exEnvRemove exOutdated (some (py% "FIR_1.0")) .no).obj.custom = none := by decide +kernel
      rw [this] at hcc
      simp at hcc) none (by decide +kernel)
  have h' := C103_upgrade_partial exEnvUp _ _ exOutdatedReversed_reordered (some (py% "FIR_1.0")) .no exUp_names.2 hc
    (fun hn => absurd rfl hn) none (by decide +kernel)
  exact ⟨by decide +kernel, h.1, h.2, h'.2⟩

/-- C103 is false if two variables define different sizes of the same dimension: One of the objects can be upgraded, the
other one with the same data in another order is found to be invalid after the upgrade. -/
theorem C103_refuted : ∃ (env : Env) (o : Obj) (t : Str), let a := (exFiveQ (exAnyQ o).obj).obj; let b := (exAnyQ (exFiveQ o).obj).obj
    Spec.Reordered a b ∧ (upgradeConvention env a (some t) .yes).out = .ok none ∧
      (upgradeConvention env b (some t) .yes).out ≠ .ok none := by
  refine ⟨exEnvRemove, exOutdated, py% "FIR_1.0", ?_, by decide +kernel, by decide +kernel⟩
  exact C89_calls exOutdated (by decide +kernel) (fun c hc => by
      rw [exOutdated_custom] at hc
      simp at hc) _ _ _ _ _ _ _ _ (by decide +kernel) (by decide +kernel) (by decide +kernel) (by decide +kernel)

end Sofar
