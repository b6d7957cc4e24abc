import Verif.Spec.Verify
import Verif.Lemmas.Paths
import Verif.Lemmas.Messages
import Verif.Props.Upgrade
import Verif.Props.RoundTrip
import Verif.Props.Custom
import Verif.Props.Verify
/-!
# C76: messages tell what happened
-/
namespace Sofar

/-! ## read_sofa -/

/-- C76: `read_sofa` prints nothing but the names of custom data, i.e. of all data in the file that a new object of the
convention does not have, and only with `verbose=True`. (Names of methods of the class are the exception.) -/
theorem C76_read (env : Env) (nc : Nc) (fs : FS) (filename path c v : Str) (f : NcFile) (arg : VerifyArg) (verbose : Bool)
    (o new : Obj) (hp : Spec.FileFor filename path) (hf : Dict.get? fs.files path = some (.nc f))
    (hc : ∃ w, Dict.get? f.attrs (py% "SOFAConventions") = some w ∧ Spec.text w = some c)
    (hv : ∃ w, Dict.get? f.attrs (py% "SOFAConventionsVersion") = some w ∧ Spec.text w = some v)
    (hnew : (initSofa env c false (.exact v) arg).out = .ok new)
    (h : (readSofa env nc fs filename arg verbose).out = .ok o) :
    ∃ names : List Str, names.Nodup ∧
      (∀ k, k ∈ names ↔ Spec.InFile f k ∧ ¬ Spec.IsData new k ∧ k ∉ Spec.methodNames) ∧
      Spec.prints (readSofa env nc fs filename arg verbose).ev =
        if verbose = true ∧ names ≠ [] then [Spec.customText names] else [] := by
  simp only [← withSuffix_iff] at *
  obtain ⟨wc, hc1, hc2⟩ := hc
  obtain ⟨wv, hv1, hv2⟩ := hv
  unfold readSofa openFile fileAttr at h ⊢
  simp only [hp, hf, hc1, hv1] at h ⊢
  rw [asStr_text, asStr_text, hc2, hv2] at h ⊢
  simp only at h ⊢
  cases hk : verifyConvention env v c with
  | error e => simp [hk] at h
  | ok _ =>
    simp only [hk, hnew] at h ⊢
    cases hl : (loadFile nc f new verbose).out with
    | error e => simp [hl] at h
    | ok o0 =>
      simp only [hl] at h ⊢
      obtain ⟨ns, h1, h2, h3⟩ := loadFile_prints hl
      refine ⟨ns, h1, h2, ?_⟩
      rw [prints_append, prints_append, prints_none (fun m => initSofa_ev env c false (.exact v) arg m), h3,
        verifyRead_prints]
      simp

example : (readSofa exEnv exNc (writeSofa exEnv exNc exDisk (py% "a") exCustomized 4).fs (py% "a") .auto true).ev =
    [.print (py% "SOFA file contained custom entries\n----------------------------------\nFoo, Foo_Units")] ∧
    (readSofa exEnv exNc (writeSofa exEnv exNc exDisk (py% "a") exCustomized 4).fs (py% "a") .auto false).ev = [] := by
  decide +kernel

/-! ## add_missing -/

/-- C76: `add_missing` prints exactly one text, and only with `verbose=True`: it has one line for each name that was added, in
this order, with the right word in brackets. -/
theorem C76_add_missing (env : Env) (o : Obj) (m opt verbose : Bool) (hw : Spec.WF o)
    (h : (addMissing env o m opt verbose).out = .ok ())
    (hk : py% "protected" ∉ (addMissing env o m opt verbose).obj.conv.map Prod.fst) :
    ∃ new lines, (addMissing env o m opt verbose).obj.attrs.map Prod.fst = o.attrs.map Prod.fst ++ new ∧
      List.Forall₂ (Spec.AddedLine (addMissing env o m opt verbose).obj.conv) new lines ∧
      (addMissing env o m opt verbose).ev = if verbose then [.print (Spec.addedText lines)] else [] :=
  addMissing_ev hw.custom h hk

example : (addMissing exEnv { exSofa with attrs := Dict.del exMissing.attrs (py% "Names") } true true true).ev =
    [.print (py% "Added the following missing data with their default values:\n- SourcePosition (mandatory)\n- Names (optional)\n")] := by
  decide +kernel

/-! ## upgrade_convention -/

/-- C76: a successful upgrade prints the old and the new convention, one line for each moved and each removed entry, the
text about added data and the message of the rule, in this order and nothing else. Data that is new after the upgrade
was either moved, or is listed as added, or identifies the convention; what is listed as added was added (a name
`protected` excepted). -/
theorem C76_upgrade (env : Env) (o : Obj) (t : Str) (arg : VerifyArg) (u : UpgradeDef) (r : Option (List Str))
    (hu : Spec.UpgradeRule env o t u) (h : (upgradeConvention env o (some t) arg).out = .ok r) :
    ∃ (name version name' version' heading : Str) (new : List Str), Spec.ConventionOf o name version ∧ t = name' ++ '_' :: version' ∧
      (py% "Upgrading " ++ name ++ py% " v" ++ version ++ py% " to " ++ name' ++ py% " v" ++ version' ++
        py% " (SOFA version ") <+: heading ∧
      Spec.prints (upgradeConvention env o (some t) arg).ev =
        heading :: (Spec.movedLines u ++ Spec.removedLines u ++
          [Spec.addedText (new.map (fun k => py% "- " ++ k ++ py% " (mandatory)\n"))] ++ u.message.toList) ∧
      (∀ k ∈ new, k = py% "protected" ∨ Spec.IsData (upgradeConvention env o (some t) arg).obj k) ∧
      ∀ k, Spec.IsData (upgradeConvention env o (some t) arg).obj k →
        Spec.IsData o k ∨ k ∈ Spec.rewritten ∨ k ∈ u.move.map (fun p => Spec.sofarName p.2.target) ∨ k ∈ new := by
  obtain ⟨o1, c, v, sv, h1, h2, hco⟩ := upgradeConvention_rule' hu h
  rw [h2] at h ⊢
  unfold upgradeTo at h ⊢
  split at h
  · rename_i ct vt hs
    simp only
    cases hl : loadConvention env ct (.exact vt) with
    | error e => simp [hl] at h
    | ok conv =>
      simp only [hl] at h ⊢
      cases hg : Dict.get? conv (py% "GLOBAL_Version") with
      | none => simp [hg] at h
      | some e =>
        simp only [hg] at h ⊢
        cases hp : (putTarget targetKeys { o1 with conv := conv, prot := false }).1 with
        | error e => simp [hp] at h
        | ok _ =>
          simp only [hp] at h ⊢
          obtain ⟨o2, ho2, h3, h4, h5⟩ := upgradeData_prints h
          obtain ⟨new, h6, h7, h8⟩ := addMissing_mandatory h3
          obtain ⟨version, hco, hpv⟩ := hco
          refine ⟨c, version, ct, vt, py% "Upgrading " ++ c ++ py% " v" ++ pyStr env v ++ py% " to " ++ ct ++ py% " v" ++ vt ++
            py% " (SOFA version " ++ pyStr env sv ++ py% " to " ++ defaultText env e.default ++ py% ")", new, hco,
            (splitChar_two hs).1, ?_, ?_, ?_, ?_⟩
          rotate_left
          · rw [prints_append, h5, h6]
            rfl
          · intro k hk
            refine (h7 k hk).2.imp_right (fun hx => ?_)
            unfold Spec.IsData
            rw [h4]
            exact hx
          · intro k hk
            unfold Spec.IsData at hk
            rw [h4] at hk
            rcases h8 k hk with h9 | h9
            · rw [ho2] at h9
              rcases moveAll_mem (removeAll_mem h9) with h9 | h9
              · rcases putTarget_mem h9 with h9 | h9
                · refine Or.inl ?_
                  unfold Spec.IsData
                  rw [← resetConvention_attrs h1]
                  exact h9
                · exact Or.inr (Or.inl h9)
              · exact Or.inr (Or.inr (Or.inl h9))
            · exact Or.inr (Or.inr (Or.inr h9))
          · rw [hpv]
            exact ⟨_, by simp only [List.append_assoc]; rfl⟩
  · simp at h

/-- C76: if there are upgrades and no valid target is given, the targets are printed, one line for each. -/
theorem C76_targets (env : Env) (o o1 : Obj) (target : Option Str) (arg : VerifyArg) (targets : List Str)
    (name version : Str) (hr : resetConvention env o = .ok o1) (hs : Spec.IsData o (py% "GLOBAL_Version"))
    (hc : Spec.ConventionOf o name version) (h : Spec.Offers env o targets) (ht : ∀ t ∈ targets, '_' ∈ t)
    (hn : ∀ t ∈ targets, target ≠ some t) :
    ∃ lines, List.Forall₂ Spec.TargetLine targets lines ∧ (upgradeConvention env o target arg).ev =
      (target.toList.map (fun t => .print (t ++ py% " is invalid."))) ++
        [.print (name ++ py% " v" ++ version ++ py% " can be upgraded to:\n" ++ lines.flatten)] := by
  obtain ⟨c', v', k1, k2, k3, k4⟩ := hc
  obtain ⟨name', version', up, id, ⟨c, v, h1, h2, h3, h4⟩, hu, hrow⟩ := h
  rw [h1] at k1
  cases k1
  rw [h2] at k2
  cases k2
  rw [h3] at k3
  cases k3
  rw [h4] at k4
  cases k4
  obtain ⟨f, hf⟩ := (find_row h4 targets id).2 hrow
  have hat := resetConvention_attrs hr
  obtain ⟨sv, hsv⟩ := get_of_mem_keys hs
  obtain ⟨lines, hl, hts⟩ := targetsText_lines ht
  refine ⟨lines, hl, ?_⟩
  unfold upgradeConvention
  rw [hr]
  simp only
  rw [getAttr_of_get (o := o1) (by rw [hat]; exact h1), getAttr_of_get (o := o1) (by rw [hat]; exact h3),
    getAttr_of_get (o := o1) (by rw [hat]; exact hsv)]
  simp only [pyStr_text h2, pyStr_text h4, hu, hf]
  have hout : isOutdated env name v' = true := by
    unfold isOutdated
    rw [hu]
    simp only [Bool.or_eq_true, List.any_eq_true]
    right
    have hm := List.find?_some hf
    exact ⟨_, List.mem_of_find?_eq_some hf, hm⟩
  rw [if_pos hout]
  cases target with
  | none => simp only [hts]; rfl
  | some t =>
    simp only
    rw [if_neg, hts]
    · rfl
    · simp only [List.contains_iff_mem]
      exact fun hc => hn t hc rfl

example : (upgradeConvention exEnvUp exOutdated (some (py% "FIR_2.0")) .auto).ev =
    [.print (py% "FIR_2.0 is invalid."), .print (py% "FIR v0.9 can be upgraded to:\n- FIR v1.0\n")] := by decide +kernel

example : (upgradeConvention exEnvUp exOutdated (some (py% "FIR_1.0")) .no).ev =
    [.print (py% "Upgrading FIR v0.9 to FIR v1.0 (SOFA version 0.9 to 1.0)"),
     .print (py% "- Moving Old to New. Moving axis 0 to 1."), .print (py% "- Deleting GLOBAL_Comment."),
     .print (py% "All mandatory data contained.")] := by decide +kernel

/-! ## add_variable and add_attribute -/

/-- C76: `add_variable` warns once for each letter that is not a standard dimension, and prints nothing. -/
theorem C76_add_variable (o : Obj) (name : Str) (value : Inp) (dtype dims : Str)
    (h : (addVariable o name value dtype (some dims)).out = .ok ()) :
    (addVariable o name value dtype (some dims)).ev =
      List.replicate ((Str.upper dims).countP (fun c => decide (c ∉ py% "ERMNCIS")))
        (.warn (py% "Added custom dimension " ++ Str.upper dims ++ py% " to SOFA object")) := by
  unfold addVariable addEntry at h ⊢
  split at h
  · simp at h
  · simp only
    rw [addCustomApiEntry_ev]
    simp only [dimWarnings, List.append_nil, List.map_const']
    rw [List.countP_eq_length_filter]
    have : (fun c => ! standardDims.contains c) = fun c => decide (c ∉ py% "ERMNCIS") := by
      funext c
      unfold standardDims
      rw [List.contains_eq_mem, decide_not]
    rw [this]

/-- C76: `add_attribute` is silent. -/
theorem C76_add_attribute (o : Obj) (name : Str) (value : Inp) : (addAttribute o name value).ev = [] := by
  unfold addAttribute addEntry
  split
  · rfl
  · simp only
    rw [addCustomApiEntry_ev]
    rfl

example : (addVariable exSofa (py% "Foo") (.val (.num .f (.num (.fin 1)))) (py% "double") (some (py% "Ixy"))).ev =
    [.warn (py% "Added custom dimension IXY to SOFA object"), .warn (py% "Added custom dimension IXY to SOFA object")] ∧
    (addVariable exSofa (py% "Foo") (.val (.num .f (.num (.fin 1)))) (py% "double") (some (py% "i"))).ev = [] := by
  decide +kernel

/-! ## A wrong message -/

/-- C76 is false for `add_missing(mandatory=False)`: it prints "All mandatory data contained." although mandatory data
is missing and stays missing (sofar/sofa.py:532-537). -/
theorem C76_refuted_contained : ∃ env o k, Spec.WF o ∧ (addMissing env o false true true).out = .ok () ∧
    (addMissing env o false true true).ev = [.print (py% "All mandatory data contained.")] ∧
    (∃ e, Dict.get? (addMissing env o false true true).obj.conv k = some e ∧ Spec.IsMandatory e) ∧
    ¬ Spec.IsData (addMissing env o false true true).obj k :=
  ⟨exEnv, exMissing, py% "SourcePosition",
    ⟨by decide +kernel, by decide +kernel, fun c hc => by
      have h : exMissing.custom = none := by decide +kernel
      rw [h] at hc
      cases hc⟩,
    by decide +kernel, by decide +kernel,
    ⟨⟨some (py% "m"), some (py% "IC, MC"), py% "double", .list (exNums .i [3] [0, 0, 1]), []⟩, by decide +kernel,
      py% "m", rfl, by decide⟩, by unfold Spec.IsData; decide +kernel⟩

end Sofar
