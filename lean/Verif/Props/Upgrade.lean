import Verif.Lemmas.Upgrade
import Verif.Props.Example
/-!
# C48-C51 (and C10): upgrades to other conventions
-/
namespace Sofar

/-! ## Examples -/

/-- the convention with a version of the SOFA specification -/
def exUpConvention (version : Str) : Dict Entry :=
  exConvention version ++ [(py% "GLOBAL:Version", exAttr (py% "rm") version)]

/-- version 0.9 can be upgraded to version 1.0: `Old` is moved to `New`, axis 0 becomes axis 1, the comment is removed -/
def exEnvUp : Env :=
  { exEnv with
    files := [⟨py% "FIR_1.0.json", exUpConvention (py% "1.0")⟩,
              ⟨py% "FIR_0.9.json", exUpConvention (py% "0.9") ++
                [(py% "Old", ⟨none, some (py% "RS"), py% "double", .list (exNums .i [2, 3] [1, 2, 3, 4, 5, 6]), []⟩)]⟩]
    upgrade := [(py% "FIR", ⟨[([py% "0.9"], [py% "FIR_1.0"], py% "a")],
      [(py% "a", ⟨[(py% "Old", ⟨py% "New", some (0, 1), none⟩)], [py% "GLOBAL:Comment"], none⟩)]⟩)]
    deprecations := [(py% "OLD", py% "FIR")] }

/-- an outdated object -/
def exOutdated : Obj :=
  match (initSofa exEnvUp (py% "FIR") false (.exact (py% "0.9")) .no).out with
  | .ok o => o
  | .error _ => emptyObj []

/-- an object that is up to date -/
def exUpToDate : Obj :=
  match (initSofa exEnvUp (py% "FIR") false (.exact (py% "1.0")) .no).out with
  | .ok o => o
  | .error _ => emptyObj []

/-- the outdated object without the data that is to be moved -/
def exNothingToMove : Obj := { exOutdated with attrs := Dict.del exOutdated.attrs (py% "Old") }

/-! ## C48 -/

/-- C48: without target, or with a target for which there is no rule, the data and the protection of the object are
unchanged. This holds for all outcomes, also if an error is raised. -/
theorem C48_data_unchanged (env : Env) (o : Obj) (target : Option Str) (arg : VerifyArg)
    (h : ∀ t u, target = some t → ¬ Spec.UpgradeRule env o t u) :
    (upgradeConvention env o target arg).obj.attrs = o.attrs ∧
    (upgradeConvention env o target arg).obj.prot = o.prot ∧
    (upgradeConvention env o target arg).obj.readOnly = o.readOnly := by
  rcases upgradeConvention_cases env o target arg with (h1 | h1) | ⟨t, u, o1, c, v, sv, h1, h2, _⟩
  · rw [h1]; exact ⟨rfl, rfl, rfl⟩
  · obtain ⟨c, k, h2, _⟩ := resetConvention_frame h1
    rw [h2]
    exact ⟨rfl, rfl, rfl⟩
  · exact absurd h2 (h t u h1)

example : (upgradeConvention exEnvUp exOutdated none .auto).out = .ok (some [py% "FIR_1.0"]) := by decide +kernel

example : (upgradeConvention exEnvUp exOutdated (some (py% "FIR_2.0")) .auto).out = .ok (some [py% "FIR_1.0"]) := by
  decide +kernel

theorem targetsText_ok {l : List Str} (h : ∀ t ∈ l, '_' ∈ t) : ∃ s, targetsText l = .ok s := by
  induction l with
  | nil => exact ⟨_, rfl⟩
  | cons t l ih =>
    obtain ⟨s, hs⟩ := ih (fun x hx => h x (by simp [hx]))
    obtain ⟨a, b, hab, ha⟩ := List.eq_append_cons_of_mem (h t (by simp))
    have hsp : Str.splitChar '_' t = a :: Str.splitChar '_' b := by
      rw [hab]; exact splitChar_append ha b
    obtain ⟨x, y, hb⟩ : ∃ x y, Str.splitChar '_' b = x :: y := by
      cases hb : Str.splitChar '_' b with
      | nil => exact absurd hb (splitChar_ne '_' b)
      | cons x y => exact ⟨x, y, rfl⟩
    simp only [targetsText, hsp, hb, hs]
    exact ⟨_, rfl⟩

/-- C48: if the version of the object is listed in the upgrade table, the list of targets is returned. Targets are
written as `name_version`. -/
theorem C48_targets (env : Env) (o o1 : Obj) (target : Option Str) (arg : VerifyArg) (targets : List Str)
    (hr : resetConvention env o = .ok o1) (hs : Spec.IsData o (py% "GLOBAL_Version"))
    (h : Spec.Offers env o targets) (ht : ∀ t ∈ targets, '_' ∈ t) (hn : ∀ t ∈ targets, target ≠ some t) :
    (upgradeConvention env o target arg).out = .ok (some targets) := by
  obtain ⟨name, version, up, id, ⟨c, v, h1, h2, h3, h4⟩, hu, hrow⟩ := h
  obtain ⟨f, hf⟩ := (find_row h4 targets id).2 hrow
  have hat := resetConvention_attrs hr
  obtain ⟨sv, hsv⟩ := get_of_mem_keys hs
  obtain ⟨s, hts⟩ := targetsText_ok ht
  unfold upgradeConvention
  rw [hr]
  simp only
  rw [getAttr_of_get (o := o1) (by rw [hat]; exact h1), getAttr_of_get (o := o1) (by rw [hat]; exact h3),
    getAttr_of_get (o := o1) (by rw [hat]; exact hsv)]
  simp only [pyStr_text h2, hu, hf]
  have hout : isOutdated env name v = true := by
    unfold isOutdated
    rw [hu]
    simp only [Bool.or_eq_true, List.any_eq_true]
    right
    have hm := List.find?_some hf
    exact ⟨_, List.mem_of_find?_eq_some hf, hm⟩
  rw [if_pos hout]
  cases target with
  | none => simp only [hts]
  | some t =>
    simp only
    rw [if_neg, hts]
    simp only [List.contains_iff_mem]
    exact fun hc => hn t hc rfl

example : Spec.Offers exEnvUp exOutdated [py% "FIR_1.0"] :=
  ⟨py% "FIR", py% "0.9", _, py% "a", ⟨.str (py% "FIR"), .str (py% "0.9"), by decide +kernel, rfl, by decide +kernel, rfl⟩,
    rfl, [], [py% "0.9"], [], rfl, by simp, by simp⟩

/-- C48 is false for objects that are up to date: None is returned, never an empty list. -/
theorem C48_up_to_date_refuted (env : Env) (o o1 : Obj) (target : Option Str) (arg : VerifyArg) (name version : Str)
    (hr : resetConvention env o = .ok o1) (hs : Spec.IsData o (py% "GLOBAL_Version"))
    (hc : Spec.ConventionOf o name version) (hu : Spec.UpToDate env name version) :
    (upgradeConvention env o target arg).out = .ok none := by
  obtain ⟨c, v, h1, h2, h3, h4⟩ := hc
  have hat := resetConvention_attrs hr
  obtain ⟨sv, hsv⟩ := get_of_mem_keys hs
  unfold upgradeConvention
  rw [hr]
  simp only
  rw [getAttr_of_get (o := o1) (by rw [hat]; exact h1), getAttr_of_get (o := o1) (by rw [hat]; exact h3),
    getAttr_of_get (o := o1) (by rw [hat]; exact hsv)]
  simp only [pyStr_text h2]
  rw [if_neg]
  unfold isOutdated
  simp only [Bool.or_eq_true, not_or]
  refine ⟨fun h => hu.1 ((Dict.has_iff_mem _ _).1 h), ?_⟩
  cases hg : Dict.get? env.upgrade name with
  | none => simp
  | some up =>
    simp only [List.any_eq_true, not_exists, not_and]
    intro r hr hv
    exact hu.2 up hg r hr ((versionIn_iff h4 _).1 hv)

example : Spec.ConventionOf exUpToDate (py% "FIR") (py% "1.0") ∧ Spec.UpToDate exEnvUp (py% "FIR") (py% "1.0") ∧
    (upgradeConvention exEnvUp exUpToDate none .auto).out ≠ .ok (some []) := by
  refine ⟨⟨.str (py% "FIR"), .str (py% "1.0"), by decide +kernel, rfl, by decide +kernel, rfl⟩, ⟨by decide, ?_⟩,
    by decide +kernel⟩
  intro up hu
  have : up = ⟨[([py% "0.9"], [py% "FIR_1.0"], py% "a")],
      [(py% "a", ⟨[(py% "Old", ⟨py% "New", some (0, 1), none⟩)], [py% "GLOBAL:Comment"], none⟩)]⟩ :=
    (Option.some.inj hu).symm
  subst this
  decide

/-- C48 is false for outdated conventions: if the convention is deprecated and has an entry in the upgrade table that
does not list the version, UnboundLocalError is raised. -/
theorem C48_outdated_refuted (env : Env) (o o1 : Obj) (target : Option Str) (arg : VerifyArg) (name version : Str)
    (up : Upgrade) (hr : resetConvention env o = .ok o1) (hs : Spec.IsData o (py% "GLOBAL_Version"))
    (hc : Spec.ConventionOf o name version) (hd : name ∈ env.deprecations.map Prod.fst)
    (hu : Dict.get? env.upgrade name = some up) (hn : ∀ r ∈ up.fromTo, version ∉ r.1) :
    (upgradeConvention env o target arg).out = .error .unboundLocal := by
  obtain ⟨c, v, h1, h2, h3, h4⟩ := hc
  have hat := resetConvention_attrs hr
  obtain ⟨sv, hsv⟩ := get_of_mem_keys hs
  unfold upgradeConvention
  rw [hr]
  simp only
  rw [getAttr_of_get (o := o1) (by rw [hat]; exact h1), getAttr_of_get (o := o1) (by rw [hat]; exact h3),
    getAttr_of_get (o := o1) (by rw [hat]; exact hsv)]
  simp only [pyStr_text h2]
  rw [if_pos (by unfold isOutdated; rw [(Dict.has_iff_mem _ _).2 hd]; rfl)]
  simp only [hu]
  have : up.fromTo.find? (fun ft => versionIn v ft.1) = none := by
    rw [List.find?_eq_none]
    intro r hr hv
    exact hn r hr ((versionIn_iff h4 _).1 hv)
  rw [this]

example : (upgradeConvention { exEnvUp with deprecations := [(py% "FIR", py% "X")] } exUpToDate none .auto).out =
    .error .unboundLocal := by decide +kernel

/-! ## C49 -/

/-- C49: after a successful upgrade the convention, its version, the version of SOFA and the data type are the defaults
of the target convention. The target is written as `name_version`. Partial: a rule that itself moves or removes one of
these four entries is excluded. -/
theorem C49_target_partial (env : Env) (o : Obj) (t : Str) (arg : VerifyArg) (u : UpgradeDef) (r : Option (List Str))
    (hu : Spec.UpgradeRule env o t u) (h : (upgradeConvention env o (some t) arg).out = .ok r) :
    r = none ∧ ∃ name version conv, t = name ++ '_' :: version ∧ '_' ∉ name ++ version ∧
      loadConvention env name (.exact version) = .ok conv ∧
      ∀ k ∈ Spec.rewritten, k ∉ Spec.mentioned u → ∃ e v, Dict.get? conv k = some e ∧
        Dict.get? (upgradeConvention env o (some t) arg).obj.attrs k = some v ∧
        ∀ s, e.default = .val (.str s) → v = .str s := by
  obtain ⟨o1, c, v, sv, h1, h2⟩ := upgradeConvention_rule hu h
  rw [h2] at h ⊢
  obtain ⟨hn, ct, vt, conv, hU⟩ := upgradeTo_ok h
  obtain ⟨hj, hm⟩ := splitChar_two hU.split
  refine ⟨hn, ct, vt, conv, hj, hm, hU.load, ?_⟩
  intro k hk hkm
  obtain ⟨_, _, hp⟩ := putTarget_ok (by decide) (by decide) hU.put
  obtain ⟨e, w, g1, g2, g3⟩ := hp k hk
  refine ⟨e, w, g1, ?_, ?_⟩
  · rw [hU.attrs]
    simp only [Spec.mentioned, List.mem_append, not_or] at hkm
    apply addMissing_keeps
    rw [removeAll_keeps _ _ hkm.2, moveAll_keeps _ _ hkm.1]
    exact g3
  · intro s hs
    rw [hs] at g2
    cases g2
    rfl

/-- C49: all mandatory data of the target convention is there after a successful upgrade, provided that the file of the
target convention contains its own name and version. Partial: the rule must not move or remove the name and version of
the convention. -/
theorem C49_mandatory_partial (env : Env) (o : Obj) (name version : Str) (arg : VerifyArg) (u : UpgradeDef)
    (r : Option (List Str)) (conv : Dict Entry)
    (hu : Spec.UpgradeRule env o (name ++ '_' :: version) u) (hn : '_' ∉ name ++ version)
    (h : (upgradeConvention env o (some (name ++ '_' :: version)) arg).out = .ok r)
    (hl : loadConvention env name (.exact version) = .ok conv)
    (h1 : ∃ e, Dict.get? conv (py% "GLOBAL_SOFAConventions") = some e ∧ e.default = .val (.str name))
    (h2 : ∃ e, Dict.get? conv (py% "GLOBAL_SOFAConventionsVersion") = some e ∧ e.default = .val (.str version))
    (hm : py% "GLOBAL_SOFAConventions" ∉ Spec.mentioned u ∧ py% "GLOBAL_SOFAConventionsVersion" ∉ Spec.mentioned u)
    (k : Str) (hk : Spec.MandatoryIn conv k) (hp : k ≠ py% "protected") :
    Spec.IsData (upgradeConvention env o (some (name ++ '_' :: version)) arg).obj k := by
  obtain ⟨_, name', version', conv', hj, hno, hl', hkeys⟩ := C49_target_partial env o _ arg u r hu h
  obtain ⟨e1, g1, g1'⟩ := h1
  obtain ⟨e2, g2, g2'⟩ := h2
  have hinj : name' = name ∧ version' = version := by
    have ha : '_' ∉ name := fun hc => hn (List.mem_append_left _ hc)
    have hb : '_' ∉ version := fun hc => hn (List.mem_append_right _ hc)
    have ha' : '_' ∉ name' := fun hc => hno (List.mem_append_left _ hc)
    have hb' : '_' ∉ version' := fun hc => hno (List.mem_append_right _ hc)
    have e1 := splitChar_append ha version
    rw [hj, splitChar_append ha' version', splitChar_not_mem hb, splitChar_not_mem hb'] at e1
    simp only [List.cons.injEq, and_true] at e1
    exact e1
  obtain ⟨rfl, rfl⟩ := hinj
  rw [hl] at hl'
  cases hl'
  obtain ⟨o1, c, v, sv, q1, q2⟩ := upgradeConvention_rule hu h
  rw [q2] at h ⊢
  obtain ⟨_, ct, vt, conv', hU⟩ := upgradeTo_ok h
  obtain ⟨hj2, hm2⟩ := splitChar_two hU.split
  have hsp := hU.split
  rw [splitChar_append (fun hc => hno (List.mem_append_left _ hc)),
    splitChar_not_mem (fun hc => hno (List.mem_append_right _ hc))] at hsp
  simp only [List.cons.injEq, and_true] at hsp
  obtain ⟨rfl, rfl⟩ := hsp
  have hll := hU.load
  rw [hl] at hll
  cases hll
  obtain ⟨_, _, hpk⟩ := putTarget_ok (by decide) (by decide) hU.put
  have hkeep : ∀ j s e, j ∈ targetKeys → j ∉ Spec.mentioned u → Dict.get? conv j = some e → e.default = .val (.str s) →
      Dict.get? (removeAll u.remove (moveAll u.move
        (putTarget targetKeys { o1 with conv := conv, prot := false }).2).obj).obj.attrs j = some (.str s) := by
    intro j s e hj hjm hje hjs
    simp only [Spec.mentioned, List.mem_append, not_or] at hjm
    rw [removeAll_keeps _ _ hjm.2, moveAll_keeps _ _ hjm.1]
    obtain ⟨e', w, a1, a2, a3⟩ := hpk j hj
    rw [hje] at a1
    cases a1
    rw [hjs] at a2
    cases a2
    exact a3
  obtain ⟨o2, b1, b2, _, b3⟩ := addMissing_present hU.added
  obtain ⟨e, he, f, hf, hfm⟩ := hk
  have hge := resetConvention_get b1 (hkeep _ name' e1 (by decide) hm.1 g1 g1') (hkeep _ version' e2 (by decide) hm.2 g2 g2')
    hl he
  have := b3 k e hp (Dict.mem_of_get? hge) (by simp [mandatory, hf, hfm])
  unfold Spec.IsData at this ⊢
  rwa [hU.attrs]

/-- C49: entries that are not mentioned by the upgrade rule are unchanged. This holds for all outcomes, also if an error
is raised. -/
theorem C49_not_mentioned (env : Env) (o : Obj) (target : Option Str) (arg : VerifyArg) (k : Str) (v : Val)
    (hv : Dict.get? o.attrs k = some v) (hr : k ∉ Spec.rewritten)
    (hm : ∀ t u, target = some t → Spec.UpgradeRule env o t u → k ∉ Spec.mentioned u) :
    Dict.get? (upgradeConvention env o target arg).obj.attrs k = some v := by
  rcases upgradeConvention_cases env o target arg with (h1 | h1) | ⟨t, u, o1, c, v', sv, h1, h2, h3, h4⟩
  · rw [h1]; exact hv
  · rw [resetConvention_attrs h1]; exact hv
  · rw [h4]
    exact upgradeTo_keeps env o1 c v' sv t u arg hr (hm t u h1 h2) (by rw [resetConvention_attrs h3]; exact hv)

/-- C49: every entry that is moved without moving an axis is found unchanged under its new name, if no name occurs
twice in the rule. -/
theorem C49_moved (env : Env) (o : Obj) (t : Str) (arg : VerifyArg) (u : UpgradeDef) (r : Option (List Str))
    (hu : Spec.UpgradeRule env o t u) (h : (upgradeConvention env o (some t) arg).out = .ok r)
    (hn : (Spec.mentioned u ++ Spec.rewritten).Nodup) (ho : ∀ k ∈ Spec.mentioned u, Spec.OrdinaryName k)
    (s : Str) (m : Move) (hm : (s, m) ∈ u.move) (ha : m.moveaxis = none) :
    ∃ v, Dict.get? o.attrs (Spec.sofarName s) = some v ∧
      Dict.get? (upgradeConvention env o (some t) arg).obj.attrs (Spec.sofarName m.target) = some v := by
  obtain ⟨v, w, h1, h2, h3⟩ := upgrade_moved hu h hn ho hm
  rw [ha] at h2
  rw [moveData_ok h2] at h3
  exact ⟨v, h1, h3⟩

/-- C49: after a successful upgrade moved and removed data is not there any more, except for data that the resulting
convention asks for (it has the default value). -/
theorem C49_removed (env : Env) (o : Obj) (t : Str) (arg : VerifyArg) (u : UpgradeDef) (r : Option (List Str))
    (hu : Spec.UpgradeRule env o t u) (h : (upgradeConvention env o (some t) arg).out = .ok r)
    (hn : (Spec.mentioned u ++ Spec.rewritten).Nodup) (k : Str)
    (hk : k ∈ u.move.map (fun p => Spec.sofarName p.1) ∨ k ∈ u.remove.map Spec.sofarName)
    (hd : Spec.IsData (upgradeConvention env o (some t) arg).obj k) :
    ∃ e, (k, e) ∈ (upgradeConvention env o (some t) arg).obj.conv ∧ Spec.IsMandatory e := by
  exact upgrade_removed hu h hn hk hd

/-! ## C50 -/

/-- C50: the result of moving axis `s` to `d` (both exist) has the sizes of the array with the entry for the axis moved,
and holds at every moved index the element of the original array. -/
theorem C50_moveaxis (a : Arr) (s d : Nat) (ha : a.WF) (hs : s < a.shape.length) (hd : d < a.shape.length) :
    (a.moveaxis s d).kind = a.kind ∧ (a.moveaxis s d).shape = Spec.moveEntry s d a.shape ∧
    (∀ ix, Spec.Within a.shape ix →
      Spec.element (a.moveaxis s d) (Spec.moveEntry s d ix) = Spec.element a ix ∧ (Spec.element a ix).isSome) ∧
    (a.moveaxis s d).data.Perm a.data := by
  have ho := Arr.moveOrder_perm hs hd
  refine ⟨rfl, ?_, ?_, Arr.transpose_perm ha ho⟩
  · unfold Arr.moveaxis
    rw [Arr.transpose_shape, Arr.map_moveOrder]
    unfold Spec.moveEntry
    congr 1
    rw [List.getD_eq_getElem?_getD, List.getD_eq_getElem?_getD, List.getElem?_eq_getElem hs]
    rfl
  · intro ix hix
    have hmem := within_indices.1 hix
    have h1 := Arr.transpose_at ha ho hmem
    unfold Arr.permute at h1
    rw [← hix.1, Arr.map_moveOrder] at h1
    rw [element_at, element_at]
    obtain ⟨e, he⟩ := Arr.at?_some ha hmem
    refine ⟨?_, by rw [he]; rfl⟩
    have : (a.moveaxis s d).at? (Spec.moveEntry s d ix) = (a.transpose (Arr.moveOrder ix.length s d)).at? ((ix.eraseIdx s).insertIdx d (ix.getD s 0)) := by
      rw [hix.1]; rfl
    rw [this]
    exact h1

example : ((exNums .i [2, 3] [1, 2, 3, 4, 5, 6]).moveaxis 0 1) = exNums .i [3, 2] [1, 4, 2, 5, 3, 6] ∧
    (exNums .i [2, 3] [1, 2, 3, 4, 5, 6]).WF := by decide +kernel

/-- C50: data that is moved with a moved axis gets singleton axes until both axes exist; then the axis is moved. Every
element is found at the moved index. -/
theorem C50_upgrade (env : Env) (o : Obj) (t : Str) (arg : VerifyArg) (u : UpgradeDef) (r : Option (List Str))
    (hu : Spec.UpgradeRule env o t u) (h : (upgradeConvention env o (some t) arg).out = .ok r)
    (hn : (Spec.mentioned u ++ Spec.rewritten).Nodup) (ho : ∀ k ∈ Spec.mentioned u, Spec.OrdinaryName k)
    (name : Str) (m : Move) (hm : (name, m) ∈ u.move) (s d : Nat) (hax : m.moveaxis = some (s, d)) (a : Arr) (ha : a.WF)
    (hda : Dict.get? o.attrs (Spec.sofarName name) = some (.arr a)) :
    ∃ b shape, Dict.get? (upgradeConvention env o (some t) arg).obj.attrs (Spec.sofarName m.target) = some (.arr b) ∧
      shape = a.shape ++ List.replicate (max s d + 1 - a.shape.length) 1 ∧
      b.shape = Spec.moveEntry s d shape ∧ b.data.Perm a.data ∧
      ∀ ix, Spec.Within shape ix → Spec.element b (Spec.moveEntry s d ix) = Spec.element { a with shape := shape } ix ∧
        (Spec.element b (Spec.moveEntry s d ix)).isSome := by
  obtain ⟨v, w, h1, h2, h3⟩ := upgrade_moved hu h hn ho hm
  rw [hda] at h1
  cases h1
  rw [hax] at h2
  simp only [moveData, Except.ok.injEq] at h2
  subst h2
  have hlen : max s d + 1 ≤ (Arr.padOnes (max s d + 1) a.shape).length := by
    unfold Arr.padOnes
    simp only [List.length_append, List.length_replicate]
    omega
  obtain ⟨_, c1, c2, c3⟩ := C50_moveaxis (a.withShape (Arr.padOnes (max s d + 1) a.shape)) s d (wf_padOnes ha)
    (by simp only [Arr.withShape]; omega) (by simp only [Arr.withShape]; omega)
  refine ⟨_, Arr.padOnes (max s d + 1) a.shape, h3, rfl, c1, c3, ?_⟩
  intro ix hix
  obtain ⟨q1, q2⟩ := c2 ix hix
  exact ⟨q1, by rw [q1]; exact q2⟩

/-! ## C51 -/

/-- C51 is false: the data to be moved is missing; an error is raised and the object has the name and version of the
target convention, but not its data, and is not protected any more. -/
theorem C51_refuted : ∃ (env : Env) (o : Obj) (t : Str) (x : Exc),
    (upgradeConvention env o (some t) .auto).out = .error x ∧ Spec.ConventionOf o (py% "FIR") (py% "0.9") ∧
    o.prot = true ∧
    Spec.ConventionOf (upgradeConvention env o (some t) .auto).obj (py% "FIR") (py% "1.0") ∧
    (upgradeConvention env o (some t) .auto).obj.prot = false := by
  refine ⟨exEnvUp, exNothingToMove, py% "FIR_1.0", .attributeError (py% "Old"), by decide +kernel,
    ⟨.str (py% "FIR"), .str (py% "0.9"), by decide +kernel, rfl, by decide +kernel, rfl⟩, by decide +kernel,
    ⟨.str (py% "FIR"), .str (py% "1.0"), by decide +kernel, rfl, by decide +kernel, rfl⟩, by decide +kernel⟩

/-- C51: what does hold if an upgrade fails (or succeeds): all data except for convention, versions, data type and data
that is mentioned in the rule is unchanged; if there is no rule for the target, all data and the protection are
unchanged. -/
theorem C51_data_kept_partial (env : Env) (o : Obj) (target : Option Str) (arg : VerifyArg) :
    ((∀ t u, target = some t → ¬ Spec.UpgradeRule env o t u) →
      (upgradeConvention env o target arg).obj.attrs = o.attrs ∧ (upgradeConvention env o target arg).obj.prot = o.prot) ∧
    ∀ k v, Dict.get? o.attrs k = some v → k ∉ Spec.rewritten →
      (∀ t u, target = some t → Spec.UpgradeRule env o t u → k ∉ Spec.mentioned u) →
      Dict.get? (upgradeConvention env o target arg).obj.attrs k = some v :=
  ⟨fun h => ⟨(C48_data_unchanged env o target arg h).1, (C48_data_unchanged env o target arg h).2.1⟩,
    fun k v h1 h2 h3 => C49_not_mentioned env o target arg k v h1 h2 h3⟩

/-! ## C10 -/

/-- C10: objects are protected after a successful upgrade. -/
theorem C10_upgrade (env : Env) (o : Obj) (t : Str) (arg : VerifyArg) (u : UpgradeDef) (r : Option (List Str))
    (hu : Spec.UpgradeRule env o t u) (h : (upgradeConvention env o (some t) arg).out = .ok r) :
    (upgradeConvention env o (some t) arg).obj.prot = true := by
  obtain ⟨o1, c, v, sv, h1, h2⟩ := upgradeConvention_rule hu h
  rw [h2] at h ⊢
  obtain ⟨_, ct, vt, conv, hU⟩ := upgradeTo_ok h
  exact hU.prot

/-- the rule of the example -/
def exRule : UpgradeDef := ⟨[(py% "Old", ⟨py% "New", some (0, 1), none⟩)], [py% "GLOBAL:Comment"], none⟩

/-- the hypotheses of C49, C50 and C10 hold in the example -/
example : Spec.UpgradeRule exEnvUp exOutdated (py% "FIR_1.0") exRule ∧
    (upgradeConvention exEnvUp exOutdated (some (py% "FIR_1.0")) .no).out = .ok none ∧
    (Spec.mentioned exRule ++ Spec.rewritten).Nodup ∧ (∀ k ∈ Spec.mentioned exRule, Spec.OrdinaryName k) ∧
    Dict.get? (upgradeConvention exEnvUp exOutdated (some (py% "FIR_1.0")) .no).obj.attrs (py% "New") =
      some (.arr (exNums .i [3, 2] [1, 4, 2, 5, 3, 6])) := by
  refine ⟨⟨py% "FIR", py% "0.9", _, [py% "FIR_1.0"], py% "a", ⟨.str (py% "FIR"), .str (py% "0.9"), by decide +kernel, rfl,
    by decide +kernel, rfl⟩, rfl, ⟨[], [py% "0.9"], [], rfl, by simp, by simp⟩, by simp, rfl⟩, by decide +kernel,
    by decide +kernel, ?_, by decide +kernel⟩
  unfold Spec.OrdinaryName
  decide +kernel

/-- a rule that moves the comment to the data type -/
def exRuleType : UpgradeDef := ⟨[(py% "GLOBAL:Comment", ⟨py% "GLOBAL:DataType", none, none⟩)], [], none⟩

/-- upgrade with this rule -/
def exEnvType : Env :=
  { exEnvUp with upgrade := [(py% "FIR", ⟨[([py% "0.9"], [py% "FIR_1.0"], py% "a")], [(py% "a", exRuleType)]⟩)] }

/-- C49 is false for rules that move other data to the data type: the upgrade succeeds, but
the data type is not the one of the target convention. -/
theorem C49_refuted : ∃ (env : Env) (o : Obj) (t name version : Str) (u : UpgradeDef) (conv : Dict Entry) (e : Entry) (v : Val),
    Spec.UpgradeRule env o t u ∧ t = name ++ '_' :: version ∧ loadConvention env name (.exact version) = .ok conv ∧
    Dict.get? conv (py% "GLOBAL_DataType") = some e ∧ e.default = .val (.str (py% "FIR")) ∧
    (upgradeConvention env o (some t) .no).out = .ok none ∧
    Dict.get? (upgradeConvention env o (some t) .no).obj.attrs (py% "GLOBAL_DataType") = some v ∧
    v ≠ .str (py% "FIR") := by
  refine ⟨exEnvType, exOutdated, py% "FIR_1.0", py% "FIR", py% "1.0", exRuleType,
    (loadConvention exEnvType (py% "FIR") (.exact (py% "1.0"))).toOption.getD [],
    exAttr (py% "rm") (py% "FIR"), .str [],
    ⟨py% "FIR", py% "0.9", _, [py% "FIR_1.0"], py% "a", ⟨.str (py% "FIR"), .str (py% "0.9"), by decide +kernel, rfl,
    by decide +kernel, rfl⟩, rfl, ⟨[], [py% "0.9"], [], rfl, by simp, by simp⟩, by simp, rfl⟩, rfl, by decide +kernel,
    by decide +kernel, rfl, by decide +kernel, by decide +kernel, by decide⟩

end Sofar
