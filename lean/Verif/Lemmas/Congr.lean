import Verif.Lemmas.VerifyOk
/-!
# Modes, deprecations and repeated verification
-/
namespace Sofar

/-! ## Mode `write` is stricter than mode `read` -/

theorem phaseRules_write_read {env : Env} {o : Obj} (h : phaseRules env o .write = .ok []) :
    phaseRules env o .read = .ok [] := by
  unfold phaseRules at h ⊢
  cases h1 : concatE (ruleKey env o) env.rules with
  | error x => simp [h1] at h
  | ok s1 =>
    simp only [h1] at h
    cases h2 : phaseUnits env o .write with
    | error x => simp [h2] at h
    | ok s2 =>
      simp only [h2, Except.ok.injEq] at h
      rw [section_nil_iff _ _ (by simp)] at h
      have : s1 = [] := (List.append_eq_nil_iff.1 h).1
      simp [phaseUnits, this, section_]

theorem phaseDeprecations_write_read {env : Env} {o : Obj} {w : Str}
    (h : phaseDeprecations env o .write = .ok ([], w)) : phaseDeprecations env o .read = .ok ([], w) := by
  unfold phaseDeprecations at h ⊢
  cases h1 : o.getAttr (py% "GLOBAL_SOFAConventions") with
  | error x => simp [h1] at h
  | ok c =>
    simp only [h1] at h
    cases h2 : o.getAttr (py% "GLOBAL_SOFAConventionsVersion") with
    | error x => simp [h2] at h
    | ok v =>
      simp only [h2] at h
      cases h3 : preliminaryText env v with
      | error x => simp [h3] at h
      | ok p =>
        simp only [h3, Except.ok.injEq, Prod.mk.injEq] at h ⊢
        simp [h.1, h.2]

theorem Passes.write_read {inner : Inner} {env : Env} {o1 o3 : Obj} (h : Passes inner env o1 o3 .write) :
    Passes inner env o1 o3 .read :=
  ⟨h.mandatory, h.types, h.names, h.custom, h.dims, h.shapes, phaseRules_write_read h.rules,
    h.deprec.imp (fun _ hw => phaseDeprecations_write_read hw)⟩

/-! ## The deprecation table in mode `read` -/

theorem phaseRules_deprec (env : Env) (d : Dict Str) (o : Obj) (mode : Mode) :
    phaseRules { env with deprecations := d } o mode = phaseRules env o mode := rfl

theorem tail_read_deprec (env : Env) (d : Dict Str) (o : Obj) (w e : Str) (ev ev' : List Event) :
    (verifyTail { env with deprecations := d } o .raise .read w e ev).out = (verifyTail env o .raise .read w e ev').out := by
  unfold verifyTail
  rw [phaseRules_deprec]
  cases phaseRules env o .read with
  | error x => rfl
  | ok e6 =>
    simp only
    unfold phaseDeprecations
    cases o.getAttr (py% "GLOBAL_SOFAConventions") with
    | error x => rfl
    | ok c =>
      simp only
      cases o.getAttr (py% "GLOBAL_SOFAConventionsVersion") with
      | error x => rfl
      | ok v =>
        simp only
        have hp : preliminaryText { env with deprecations := d } v = preliminaryText env v := rfl
        rw [hp]
        cases preliminaryText env v with
        | error x => rfl
        | ok p =>
          simp only [List.append_nil]
          by_cases he : e ++ e6 = []
          · rw [he]
            generalize hW : w ++ _ = W
            obtain ⟨i, h1⟩ := handle_noerr W .raise
            generalize hW' : w ++ (_ ++ p) = W'
            obtain ⟨i', h2⟩ := handle_noerr W' .raise
            simp only [h1, h2]
            simp
          · simp only [handle_raise_err _ _ he]

theorem body_read_deprec (inner inner' : Inner) (hi : inner'.out = inner.out) (env : Env) (d : Dict Str) (o : Obj)
    (keys : List Str) (w e : Str) :
    (verifyBody inner' { env with deprecations := d } o keys .raise .read w e).out =
      (verifyBody inner env o keys .raise .read w e).out := by
  unfold verifyBody
  cases phaseNames o keys with
  | error x => rfl
  | ok e3 =>
    simp only
    have hc : (phaseCustomNames inner' o).1 = (phaseCustomNames inner o).1 := by
      unfold phaseCustomNames
      cases o.custom with
      | none => rfl
      | some c => simp only; rw [hi]; cases inner.out <;> rfl
    rw [hc]
    cases (phaseCustomNames inner o).1 with
    | error x => rfl
    | ok e3' =>
      simp only
      cases (phaseDims o).1 with
      | error x => rfl
      | ok u =>
        simp only
        cases (phaseShapes (phaseDims o).2).1 with
        | error x => rfl
        | ok e5 => exact tail_read_deprec _ _ _ _ _ _ _

theorem verifyG_read_deprec (inner : Env → Obj → Inner) (env : Env) (d : Dict Str) (o : Obj)
    (hi : ∀ o', (inner { env with deprecations := d } o').out = (inner env o').out) :
    (verifyG inner { env with deprecations := d } o .raise .read).out = (verifyG inner env o .raise .read).out := by
  unfold verifyG
  have hr : resetConvention { env with deprecations := d } o = resetConvention env o := rfl
  rw [hr]
  cases resetConvention env o with
  | error x => rfl
  | ok o1 =>
    simp only [ne_eq, not_true_eq_false, decide_false, if_true]
    cases (fillMissing false o1.keys o1.conv o1).1 with
    | error x => rfl
    | ok missing =>
      simp only
      have ht : ∀ o' k, phaseTypes { env with deprecations := d } o' k = phaseTypes env o' k := fun _ _ => rfl
      rw [ht]
      cases phaseTypes env (fillMissing false o1.keys o1.conv o1).2 o1.keys with
      | error x => rfl
      | ok e2 =>
        simp only
        split
        · rfl
        · exact body_read_deprec _ _ (hi _) _ _ _ _ _ _

/-- the object after verification does not depend on the deprecations -/
theorem verifyG_obj_deprec (inner : Env → Obj → Inner) (env : Env) (d : Dict Str) (o : Obj) (ih : IH) (mode : Mode)
    (hi : ∀ o', (inner { env with deprecations := d } o').out = (inner env o').out) :
    (verifyG inner { env with deprecations := d } o ih mode).obj = (verifyG inner env o ih mode).obj := by
  unfold verifyG
  have hr : resetConvention { env with deprecations := d } o = resetConvention env o := rfl
  rw [hr]
  cases resetConvention env o with
  | error x => rfl
  | ok o1 =>
    simp only
    generalize fillMissing _ o1.keys o1.conv o1 = f
    cases f.1 with
    | error x => rfl
    | ok missing =>
      simp only
      generalize (if ih = .raise then section_ _ missing else [] : Str) = e1
      generalize (if ih = .raise then [] else section_ _ missing : Str) = w1
      have ht : ∀ o' k, phaseTypes { env with deprecations := d } o' k = phaseTypes env o' k := fun _ _ => rfl
      rw [ht]
      cases phaseTypes env f.2 o1.keys with
      | error x => rfl
      | ok e2 =>
        simp only
        split
        · rfl
        · unfold verifyBody
          cases phaseNames f.2 o1.keys with
          | error x => rfl
          | ok e3 =>
            simp only
            have hc : (phaseCustomNames (inner { env with deprecations := d } f.2) f.2).1 =
                (phaseCustomNames (inner env f.2) f.2).1 := by
              unfold phaseCustomNames
              cases f.2.custom with
              | none => rfl
              | some c => simp only; rw [hi]; cases (inner env f.2).out <;> rfl
            rw [hc]
            cases (phaseCustomNames (inner env f.2) f.2).1 with
            | error x => rfl
            | ok e3' =>
              simp only
              cases (phaseDims f.2).1 with
              | error x => rfl
              | ok u =>
                simp only
                cases (phaseShapes (phaseDims f.2).2).1 with
                | error x => rfl
                | ok e5 => simp only [verifyTail_obj]

theorem finishInit_deprec (env : Env) (d : Dict Str) (b : Bool) (v : Str) (ver : Bool) (o : Obj) :
    (finishInit { env with deprecations := d } b v ver o).out = (finishInit env b v ver o).out := by
  unfold finishInit
  split
  · have h1 := verifyG_read_deprec (fun _ _ => ⟨.error .unmodelled, []⟩) env d o (fun _ => rfl)
    have h2 := verifyG_obj_deprec (fun _ _ => ⟨.error .unmodelled, []⟩) env d o .raise .read (fun _ => rfl)
    unfold verifyNew
    simp only [h1, h2]
    cases (verifyG (fun _ _ => ⟨.error .unmodelled, []⟩) env o .raise .read).out <;> rfl
  · rfl

theorem initSofa_deprec (env : Env) (d : Dict Str) (c : Str) (b : Bool) (v : VersionArg) (a : VerifyArg) :
    (initSofa { env with deprecations := d } c b v a).out = (initSofa env c b v a).out := by
  unfold initSofa
  have h1 : loadConvention { env with deprecations := d } c v = loadConvention env c v := rfl
  rw [h1]
  cases loadConvention env c v with
  | error x => rfl
  | ok conv =>
    simp only
    have h2 : conventionToSofa { env with deprecations := d } b (emptyObj conv) = conventionToSofa env b (emptyObj conv) := rfl
    rw [h2]
    cases conventionToSofa env b (emptyObj conv) with
    | error x => rfl
    | ok o =>
      simp only
      cases conventionVersion conv with
      | error x => rfl
      | ok ver =>
        simp only
        cases a with
        | yes => exact finishInit_deprec _ _ _ _ _ _
        | no => exact finishInit_deprec _ _ _ _ _ _
        | auto =>
          simp only
          cases isStable ver with
          | error x => rfl
          | ok s => exact finishInit_deprec _ _ _ _ _ _

theorem referenceNames_deprec (env : Env) (d : Dict Str) (o : Obj) :
    (referenceNames { env with deprecations := d } o).out = (referenceNames env o).out := by
  unfold referenceNames
  cases o.getAttr (py% "GLOBAL_SOFAConventions") with
  | error x => rfl
  | ok c =>
    simp only
    cases o.getAttr (py% "GLOBAL_SOFAConventionsVersion") with
    | error x => rfl
    | ok v =>
      simp only
      cases c.asStr with
      | none => rfl
      | some c =>
        cases v.asStr with
        | none => rfl
        | some v =>
          simp only [initSofa_deprec]
          cases (initSofa env c false (if v = py% "latest" then .latest else .exact v) .auto).out <;> rfl

/-! ## Repeated verification -/

theorem getAttr_congr {o o' : Obj} (h : o'.attrs = o.attrs) {n : Str} (hn : isPrivate n = false) :
    o'.getAttr n = o.getAttr n := by
  have : o'.hasAttr n = o.hasAttr n := by
    rw [Bool.eq_iff_iff, hasAttr_public o' n hn, hasAttr_public o n hn, h]
  unfold Obj.getAttr
  rw [h, this]

/-- same data and conventions -/
structure SameData (o o' : Obj) : Prop where
  attrs : o'.attrs = o.attrs
  conv : o'.conv = o.conv
  custom : o'.custom = o.custom

theorem SameData.getKey {o o' : Obj} (h : SameData o o') {k : Str} (hk : k ∈ o.keys ∨ isPrivate k = false) :
    o'.getAttr k = o.getAttr k := by
  rcases hk with hk | hk
  · obtain ⟨v, hv⟩ := get_of_mem_keys hk
    rw [getAttr_of_get hv, getAttr_of_get (h.attrs ▸ hv)]
  · exact getAttr_congr h.attrs hk

theorem SameData.keys {o o' : Obj} (h : SameData o o') : o'.keys = o.keys := by unfold Obj.keys; rw [h.attrs]

theorem SameData.types {env : Env} {o o' : Obj} (h : SameData o o') :
    phaseTypes env o' o'.keys = phaseTypes env o o.keys := by
  unfold phaseTypes
  rw [h.keys, concatE_congr (g := typeErrorKey env o)]
  intro k hk
  unfold typeErrorKey convEntry
  rw [h.conv, h.getKey (Or.inl hk)]

theorem SameData.names {o o' : Obj} (h : SameData o o') : phaseNames o' o'.keys = phaseNames o o.keys := by
  unfold phaseNames nameNoVariable nameNoUnderscore nameVariable nameReserved convEntry
  rw [h.keys, h.conv]

theorem SameData.referenceNames {env : Env} {o o' : Obj} (h : SameData o o') :
    referenceNames env o' = Sofar.referenceNames env o := by
  unfold Sofar.referenceNames
  rw [h.getKey (Or.inr (by decide)), h.getKey (Or.inr (by decide))]

theorem SameData.custom_ {inner : Inner} {o o' : Obj} (h : SameData o o') :
    phaseCustomNames inner o' = phaseCustomNames inner o := by
  unfold phaseCustomNames
  rw [h.custom]

theorem SameData.dimKeys {o o' : Obj} (h : SameData o o') : dimKeys o' = Sofar.dimKeys o := by
  unfold Sofar.dimKeys
  rw [h.keys, h.conv, h.custom]

theorem dimKeys_ordinary {o : Obj} {k : Str} (h : k ∈ dimKeys o) : k ∈ o.keys ∨ isPrivate k = false := by
  unfold dimKeys at h
  rcases List.mem_append.1 h with h | h
  · exact Or.inl (List.mem_filter.1 h).1
  · right
    cases hc : o.custom with
    | none => simp [hc] at h
    | some c =>
      simp only [hc] at h
      obtain ⟨p, hp, rfl⟩ := List.mem_map.1 h
      have := (List.mem_filter.1 hp).2
      simp only [Bool.and_eq_true, Bool.not_eq_true'] at this
      exact this.1

theorem SameData.dimLoop {o o' : Obj} (h : SameData o o') (ks : List Str)
    (hk : ∀ k ∈ ks, k ∈ o.keys ∨ isPrivate k = false) (st : Dict Nat × Nat) :
    dimLoop o' ks st = Sofar.dimLoop o ks st := by
  induction ks generalizing st with
  | nil => rfl
  | cons k ks ih =>
    simp only [Sofar.dimLoop, convEntry]
    rw [h.getKey (hk k (by simp)), h.conv]
    cases o.getAttr k with
    | error x => rfl
    | ok v =>
      simp only
      cases Dict.get? o.conv k with
      | none => rfl
      | some e =>
        simp only
        cases entryDims e with
        | error x => rfl
        | ok d =>
          simp only
          generalize dimLetters v k 0 (firstAlt d) st = r
          cases r.1 with
          | error x => rfl
          | ok u => exact ih (fun j hj => hk j (by simp [hj])) _

theorem SameData.dims {o o' : Obj} (h : SameData o o') (hro : o'.readOnly = o.readOnly) :
    phaseDims o' = phaseDims o := by
  obtain ⟨h1, h2, h3⟩ := h
  have h : SameData o o' := ⟨h1, h2, h3⟩
  unfold phaseDims
  rw [h.dimKeys, h.dimLoop _ (fun k hk => dimKeys_ordinary hk)]
  simp only [h1, h2, h3, hro]

theorem filter_filter_has (conv cust : Dict Entry) :
    mergeCustom conv (mergeCustom conv cust).2 = mergeCustom conv cust := by
  unfold mergeCustom
  simp [List.filter_filter]

/-- a second reset does not change the object -/
theorem resetConvention_idem {env : Env} {o o1 o2 : Obj} (h : resetConvention env o = .ok o1)
    (hs : SameData o1 o2) : resetConvention env o2 = .ok { o2 with conv := o1.conv, custom := o1.custom } := by
  obtain ⟨cv, c, v, conv, h1, h2, h3, h4, h5, h6⟩ := resetConvention_inv h
  have ha : o1.attrs = o.attrs := by rw [h6]; cases o.custom <;> rfl
  unfold resetConvention
  rw [getAttr_congr (hs.attrs.trans ha) (by decide), h1, getAttr_congr (hs.attrs.trans ha) (by decide), h3]
  simp only [h2, h4, h5]
  rw [hs.custom, h6]
  cases hc : o.custom with
  | none => simp
  | some cu =>
    simp only
    rw [filter_filter_has]

theorem resetConvention_fix {env : Env} {o o1 o2 : Obj} (h : resetConvention env o = .ok o1)
    (hs : SameData o1 o2) : resetConvention env o2 = .ok o2 := by
  rw [resetConvention_idem h hs]
  obtain ⟨_, h2, h3⟩ := hs
  cases o2
  simp_all

/-- Verifying again after a call that returned normally. -/
theorem verify_again {env : Env} {o o1 : Obj} {ih : IH} {mode : Mode} {r : Option Str}
    (hr : resetConvention env o = .ok o1) (hm : ∀ p ∈ o1.conv, mandatory p.2.flags = true → p.1 ∈ o1.keys)
    (hok : (verify env o ih mode).out = .ok r) :
    verify env (verify env o ih mode).obj ih mode = verify env o ih mode := by
  unfold verify at hok ⊢
  have hp := verifyG_present referenceNames env o o1 ih mode hr hm
  have key : ∀ o2, SameData o1 o2 → o2.readOnly = o1.readOnly →
      verifyG referenceNames env o2 ih mode =
        match phaseTypes env o1 o1.keys with
        | .error x => ⟨.error x, o2, []⟩
        | .ok e2 =>
          if ! e2.isEmpty && ih != .ignore then verifyEarly o2 ih e2
          else verifyBody (referenceNames env o1) env o2 o1.keys ih mode [] e2 := by
    intro o2 hs _
    rw [verifyG_present referenceNames env o2 o2 ih mode (resetConvention_fix hr hs)
      (by rw [hs.conv, hs.keys]; exact hm), hs.types, hs.keys, hs.referenceNames]
    cases phaseTypes env o1 o1.keys <;> rfl
  rw [hp] at hok ⊢
  cases ht : phaseTypes env o1 o1.keys with
  | error x => simp [ht] at hok
  | ok e2 =>
    simp only [ht] at hok ⊢
    split
    · rename_i hc
      rw [verifyEarly_obj, key o1 ⟨rfl, rfl, rfl⟩ rfl]
      simp only [ht, hc, if_true]
    · rename_i hc
      simp only [hc] at hok
      obtain ⟨p, d, a, hobj⟩ := verifyBody_obj (referenceNames env o1) env o1 o1.keys ih mode [] e2
      have hs : SameData o1 (verifyBody (referenceNames env o1) env o1 o1.keys ih mode [] e2).obj := by
        rw [hobj]; exact ⟨rfl, rfl, rfl⟩
      have hro : (verifyBody (referenceNames env o1) env o1 o1.keys ih mode [] e2).obj.readOnly = o1.readOnly := by
        rw [hobj]
      generalize ho2 : (verifyBody (referenceNames env o1) env o1 o1.keys ih mode [] e2).obj = o2 at hs hro
      rw [key o2 hs hro]
      simp only [ht, hc]
      have hn := hs.names
      rw [hs.keys] at hn
      revert hok ho2
      unfold verifyBody
      rw [hn, hs.custom_, hs.dims hro]
      cases phaseNames o1 o1.keys with
      | error x => simp
      | ok e3 =>
        simp only
        cases (phaseCustomNames (referenceNames env o1) o1).1 with
        | error x => simp
        | ok e3' =>
          simp only
          cases (phaseDims o1).1 with
          | error x => simp
          | ok u =>
            simp only
            cases (phaseShapes (phaseDims o1).2).1 with
            | error x => simp
            | ok e5 => simp

end Sofar
