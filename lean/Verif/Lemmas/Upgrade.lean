import Verif.Lemmas.Moveaxis
import Verif.Lemmas.History
import Verif.Lemmas.VerifyOk
import Verif.Model.Upgrade
import Verif.Spec.Upgrade
/-!
# Upgrades
-/
namespace Sofar

theorem getAttr_std {o : Obj} {k : Str} {v : Val} (hp : isPrivate k = false) (hm : k ∉ publicMembers) :
    o.getAttr k = .ok v ↔ Dict.get? o.attrs k = some v :=
  ⟨getAttr_data hp hm, getAttr_of_get⟩

theorem pyStr_text {env : Env} {v : Val} {s : Str} (h : Spec.text v = some s) : pyStr env v = s := by
  unfold pyStr; rw [asStr_text, h]

theorem versionIn_iff {v : Val} {s : Str} (h : Spec.text v = some s) (l : List Str) :
    versionIn v l = true ↔ s ∈ l := by
  unfold versionIn
  rw [asStr_text, h]
  simp

theorem versionIn_none {v : Val} (h : Spec.text v = none) (l : List Str) : versionIn v l = false := by
  unfold versionIn
  rw [asStr_text, h]

theorem find_row {up : Upgrade} {v : Val} {s : Str} (h : Spec.text v = some s) (targets : List Str) (id : Str) :
    (∃ f, up.fromTo.find? (fun ft => versionIn v ft.1) = some (f, targets, id)) ↔ Spec.RowFor up s targets id := by
  constructor
  · rintro ⟨f, hf⟩
    obtain ⟨h1, as, bs, h2, h3⟩ := List.find?_eq_some_iff_append.1 hf
    refine ⟨as, f, bs, h2, (versionIn_iff h f).1 h1, ?_⟩
    intro r hr hm
    have := h3 r hr
    rw [(versionIn_iff h r.1).2 hm] at this
    simp at this
  · rintro ⟨as, f, bs, h2, h1, h3⟩
    refine ⟨f, List.find?_eq_some_iff_append.2 ⟨(versionIn_iff h f).2 h1, as, bs, h2, ?_⟩⟩
    intro r hr
    have := h3 r hr
    rw [← versionIn_iff h] at this
    simpa using this

/-- All outcomes of an upgrade: the data is not touched, or the target is valid. -/
theorem upgradeConvention_cases (env : Env) (o : Obj) (target : Option Str) (arg : VerifyArg) :
    ((upgradeConvention env o target arg).obj = o ∨ resetConvention env o = .ok (upgradeConvention env o target arg).obj) ∨
    ∃ t u o1 c v sv, target = some t ∧ Spec.UpgradeRule env o t u ∧ resetConvention env o = .ok o1 ∧
      upgradeConvention env o target arg = upgradeTo env o1 c v sv t u arg := by
  unfold upgradeConvention
  cases hr : resetConvention env o with
  | error e => exact Or.inl (Or.inl rfl)
  | ok o1 =>
    simp only
    have hat := resetConvention_attrs hr
    split
    · rename_i cv v sv h1 h2 h3
      split
      · cases hu : Dict.get? env.upgrade (pyStr env cv) with
        | none => exact Or.inl (Or.inr rfl)
        | some up =>
          simp only
          cases hf : up.fromTo.find? (fun ft => versionIn v ft.1) with
          | none => exact Or.inl (Or.inr rfl)
          | some ft =>
            obtain ⟨f, targets, tid⟩ := ft
            simp only
            cases target with
            | none =>
              simp only
              cases targetsText targets <;> exact Or.inl (Or.inr rfl)
            | some t =>
              simp only
              split
              · rename_i hc
                cases hd : Dict.get? up.defs tid with
                | none => exact Or.inl (Or.inr rfl)
                | some u =>
                  simp only
                  right
                  have hv : ∃ s, Spec.text v = some s := by
                    cases ht : Spec.text v with
                    | none =>
                      have := List.find?_some hf
                      simp [versionIn_none ht] at this
                    | some s => exact ⟨s, rfl⟩
                  obtain ⟨s, hs⟩ := hv
                  obtain ⟨cv', c, _, _, g1, g2, _⟩ := resetConvention_inv hr
                  have g1' := getAttr_data (by decide) (by decide) g1
                  have h1' := getAttr_data (by decide) (by decide) h1
                  rw [hat, g1'] at h1'
                  cases h1'
                  rw [asStr_text] at g2
                  rw [pyStr_text g2] at hu
                  have h2' := getAttr_data (by decide) (by decide) h2
                  rw [hat] at h2'
                  refine ⟨t, u, o1, pyStr env cv, v, sv, rfl, ?_, rfl, rfl⟩
                  exact ⟨c, s, up, targets, tid, ⟨cv, v, g1', g2, h2', hs⟩, hu, (find_row hs targets tid).1 ⟨f, hf⟩,
                    by simpa using hc, hd⟩
              · cases targetsText targets <;> exact Or.inl (Or.inr rfl)
      · exact Or.inl (Or.inr rfl)
    · exact Or.inl (Or.inr rfl)
    · exact Or.inl (Or.inr rfl)
    · exact Or.inl (Or.inr rfl)

/-! ## frames -/

theorem setAttr_keeps (o : Obj) (n : Str) (v : Inp) {k : Str} (hk : k ≠ n) :
    Dict.get? (setAttr o n v).obj.attrs k = Dict.get? o.attrs k := by
  rcases setAttr_cases o n v with ⟨_, _, h, _⟩ | ⟨_, _, _, _, h⟩ | ⟨w, _, _, _, _, h, _⟩
  · rw [h]
  · rw [h]
  · rw [h]; exact Dict.get?_put_ne _ _ hk

theorem delAttr_keeps (o : Obj) (n : Str) {k : Str} (hk : k ≠ n) :
    Dict.get? (delAttr o n).obj.attrs k = Dict.get? o.attrs k := by
  rcases delAttr_cases o n with ⟨_, _, h⟩ | ⟨_, _, h⟩
  · rw [h]
  · rw [h]; exact Dict.get?_del_ne _ hk

theorem putTarget_keeps (l : List Str) (o : Obj) {k : Str} (hk : k ∉ l) :
    Dict.get? (putTarget l o).2.attrs k = Dict.get? o.attrs k := by
  induction l generalizing o with
  | nil => rfl
  | cons n l ih =>
    simp only [List.mem_cons, not_or] at hk
    simp only [putTarget]
    split
    · rfl
    · rename_i e _
      split
      · exact setAttr_keeps _ _ _ hk.1
      · rw [ih _ hk.2]; exact setAttr_keeps _ _ _ hk.1

theorem moveOne_keeps (o : Obj) (s : Str) (m : Move) {k : Str} (h1 : k ≠ Spec.sofarName s)
    (h2 : k ≠ Spec.sofarName m.target) : Dict.get? (moveOne o s m).obj.attrs k = Dict.get? o.attrs k := by
  unfold moveOne
  simp only [toSofar_eq]
  split
  · rfl
  · split
    · exact delAttr_keeps _ _ h1
    · split
      · exact delAttr_keeps _ _ h1
      · split
        · rw [setAttr_keeps _ _ _ h2]; exact delAttr_keeps _ _ h1
        · rw [setAttr_keeps _ _ _ h2]; exact delAttr_keeps _ _ h1

theorem moveAll_keeps (l : Dict Move) (o : Obj) {k : Str}
    (h : k ∉ l.flatMap (fun p => [Spec.sofarName p.1, Spec.sofarName p.2.target])) :
    Dict.get? (moveAll l o).obj.attrs k = Dict.get? o.attrs k := by
  induction l generalizing o with
  | nil => rfl
  | cons p l ih =>
    obtain ⟨s, m⟩ := p
    simp only [List.flatMap_cons, List.mem_append, List.mem_cons, List.not_mem_nil, or_false, not_or] at h
    simp only [moveAll]
    split
    · exact moveOne_keeps o s m h.1.1 h.1.2
    · rw [ih _ h.2]; exact moveOne_keeps o s m h.1.1 h.1.2

theorem removeAll_keeps (l : List Str) (o : Obj) {k : Str} (h : k ∉ l.map Spec.sofarName) :
    Dict.get? (removeAll l o).obj.attrs k = Dict.get? o.attrs k := by
  induction l generalizing o with
  | nil => rfl
  | cons s l ih =>
    simp only [List.map_cons, List.mem_cons, not_or] at h
    simp only [removeAll, toSofar_eq]
    split
    · exact delAttr_keeps _ _ h.1
    · rw [ih _ h.2]; exact delAttr_keeps _ _ h.1

theorem addMissingLoop_keeps (m opt : Bool) (keys : List Str) (l : Dict Entry) (o : Obj) {k : Str} (h : k ∈ keys) :
    Dict.get? (addMissingLoop m opt keys l o).2.attrs k = Dict.get? o.attrs k := by
  induction l generalizing o with
  | nil => rfl
  | cons p l ih =>
    obtain ⟨n, e⟩ := p
    simp only [addMissingLoop]
    split
    · rename_i hc
      have hn : k ≠ n := by
        rintro rfl
        simp [h] at hc
      split
      · exact setAttr_keeps _ _ _ hn
      · split
        · rw [ih]; exact setAttr_keeps _ _ _ hn
        · rw [ih]; exact setAttr_keeps _ _ _ hn
    · exact ih o

theorem addMissing_keeps (env : Env) (o : Obj) (m opt vb : Bool) {k : Str} {v : Val}
    (h : Dict.get? o.attrs k = some v) : Dict.get? (addMissing env o m opt vb).obj.attrs k = some v := by
  unfold addMissing
  cases hr : resetConvention env o with
  | error x => exact h
  | ok o1 =>
    have hat := resetConvention_attrs hr
    have hk : k ∈ o1.keys := by
      have := mem_keys_of_get h
      unfold Obj.keys at this ⊢
      rwa [hat]
    simp only
    split
    all_goals (rw [← h, ← hat]; exact addMissingLoop_keeps m opt o1.keys o1.conv { o1 with prot := false } hk)

theorem upgradeVerify_attrs (env : Env) (o : Obj) (arg : VerifyArg) :
    (upgradeVerify env o arg).obj.attrs = o.attrs := by
  have hv : (verify env o .raise .write).obj.attrs = o.attrs := (verifyG_frame referenceNames env o .raise .write).raise rfl
  unfold upgradeVerify
  simp only
  repeat' split
  all_goals first | rfl | exact hv

/-- data that is not mentioned is not touched, whatever happens -/
theorem upgradeData_keeps (env : Env) (o : Obj) (u : UpgradeDef) (arg : VerifyArg) {k : Str} {v : Val}
    (hk : k ∉ Spec.mentioned u) (h : Dict.get? o.attrs k = some v) :
    Dict.get? (upgradeData env o u arg).obj.attrs k = some v := by
  simp only [Spec.mentioned, List.mem_append, not_or] at hk
  have h1 : Dict.get? (moveAll u.move o).obj.attrs k = some v := by rw [moveAll_keeps _ _ hk.1]; exact h
  have h2 : Dict.get? (removeAll u.remove (moveAll u.move o).obj).obj.attrs k = some v := by
    rw [removeAll_keeps _ _ hk.2]; exact h1
  have h3 := addMissing_keeps env _ true false true h2
  unfold upgradeData
  simp only
  split
  · exact h1
  · split
    · exact h2
    · split
      · exact h3
      · rw [upgradeVerify_attrs]; exact h3

theorem upgradeTo_keeps (env : Env) (o : Obj) (c : Str) (cv sv : Val) (t : Str) (u : UpgradeDef) (arg : VerifyArg)
    {k : Str} {v : Val} (hr : k ∉ Spec.rewritten) (hk : k ∉ Spec.mentioned u) (h : Dict.get? o.attrs k = some v) :
    Dict.get? (upgradeTo env o c cv sv t u arg).obj.attrs k = some v := by
  unfold upgradeTo
  split
  · split
    · exact h
    · rename_i conv _
      simp only
      have h1 : Dict.get? (putTarget targetKeys { o with conv := conv, prot := false }).2.attrs k = some v := by
        rw [putTarget_keeps targetKeys _ hr]; exact h
      split
      · exact h
      · split
        · exact h1
        · exact upgradeData_keeps env _ u arg hk h1
  · exact h

/-! ## successful upgrades -/

theorem setAttr_ok {o : Obj} {n : Str} {d : Inp} (hn : n ≠ py% "protected") (h : (setAttr o n d).out = .ok ()) :
    ∃ w, normalise d = .ok w ∧ (setAttr o n d).obj = { o with attrs := Dict.put o.attrs n w } := by
  rcases setAttr_data (o := o) (d := d) hn with ⟨x, hx⟩ | ⟨w, hw, _, hs⟩
  · rw [hx] at h; cases h
  · exact ⟨w, hw, by rw [hs]⟩

theorem putTarget_ok {l : List Str} {o : Obj} (hp : py% "protected" ∉ l) (hl : l.Nodup) (h : (putTarget l o).1 = .ok ()) :
    (putTarget l o).2.conv = o.conv ∧ (putTarget l o).2.custom = o.custom ∧
    ∀ k ∈ l, ∃ e w, Dict.get? o.conv k = some e ∧ normalise e.default = .ok w ∧
      Dict.get? (putTarget l o).2.attrs k = some w := by
  induction l generalizing o with
  | nil => exact ⟨rfl, rfl, by simp⟩
  | cons n l ih =>
    simp only [List.mem_cons, not_or] at hp
    rw [List.nodup_cons] at hl
    simp only [putTarget] at h ⊢
    cases he : Dict.get? o.conv n with
    | none => simp [he] at h
    | some e =>
      simp only [he] at h ⊢
      cases hs : (setAttr o n e.default).out with
      | error x => simp [hs] at h
      | ok q =>
        simp only [hs] at h ⊢
        obtain ⟨w, hw, ho⟩ := setAttr_ok (Ne.symm hp.1) hs
        obtain ⟨h1, h2, h3⟩ := ih hp.2 hl.2 h
        refine ⟨h1.trans (by rw [ho]), h2.trans (by rw [ho]), ?_⟩
        intro k hk
        rcases List.mem_cons.1 hk with rfl | hk
        · refine ⟨e, w, he, hw, ?_⟩
          rw [putTarget_keeps _ _ hl.1, ho]
          exact Dict.get?_put_self _ _ _
        · obtain ⟨e', w', g1, g2, g3⟩ := h3 k hk
          rw [ho] at g1
          exact ⟨e', w', g1, g2, g3⟩

theorem addMissingLoop_present {m opt : Bool} {keys : List Str} {l : Dict Entry} {o : Obj} {s : Str}
    (h : (addMissingLoop m opt keys l o).1 = .ok s) {k : Str} (hp : k ≠ py% "protected") :
    (Spec.IsData o k → Spec.IsData (addMissingLoop m opt keys l o).2 k) ∧
    ∀ e, (k, e) ∈ l → mandatory e.flags = true → m = true → k ∉ keys →
      Spec.IsData (addMissingLoop m opt keys l o).2 k := by
  induction l generalizing o s with
  | nil => exact ⟨id, by simp⟩
  | cons p l ih =>
    obtain ⟨n, e⟩ := p
    simp only [addMissingLoop] at h ⊢
    by_cases hc : (! keys.contains n && ((mandatory e.flags && m) || (! mandatory e.flags && opt))) = true
    · rw [if_pos hc] at h ⊢
      cases hs : (setAttr o n e.default).out with
      | error x => simp [hs] at h
      | ok q =>
        simp only [hs] at h ⊢
        cases hq : (addMissingLoop m opt keys l (setAttr o n e.default).obj).1 with
        | error x => simp [hq] at h
        | ok s' =>
          obtain ⟨i1, i2⟩ := ih hq
          simp only
          have hput : ∀ j, Spec.IsData o j → Spec.IsData (setAttr o n e.default).obj j := by
            intro j hj
            rcases setAttr_cases o n e.default with ⟨_, _, g, _⟩ | ⟨_, _, _, _, g⟩ | ⟨w, _, _, _, _, g, _⟩
            · rwa [g]
            · rwa [g]
            · rw [g]; exact (Dict.mem_keys_put _ _ _ _).2 (Or.inr hj)
          refine ⟨fun hj => i1 (hput k hj), ?_⟩
          intro e' he hm hmt hk
          rcases List.mem_cons.1 he with hj | hj
          · cases hj
            apply i1
            obtain ⟨w, _, ho⟩ := setAttr_ok hp hs
            rw [ho]
            exact (Dict.mem_keys_put _ _ _ _).2 (Or.inl rfl)
          · exact i2 e' hj hm hmt hk
    · rw [if_neg hc] at h ⊢
      obtain ⟨i1, i2⟩ := ih h
      refine ⟨i1, ?_⟩
      intro e' he hm hmt hk
      rcases List.mem_cons.1 he with hj | hj
      · cases hj
        simp [hk, hm, hmt] at hc
      · exact i2 e' hj hm hmt hk

theorem addMissing_present {env : Env} {o : Obj} {opt vb : Bool} (h : (addMissing env o true opt vb).out = .ok ()) :
    ∃ o1, resetConvention env o = .ok o1 ∧ (addMissing env o true opt vb).obj.conv = o1.conv ∧
      (addMissing env o true opt vb).obj.prot = true ∧
      ∀ k e, k ≠ py% "protected" → (k, e) ∈ o1.conv → mandatory e.flags = true →
        Spec.IsData (addMissing env o true opt vb).obj k := by
  unfold addMissing at h ⊢
  cases hr : resetConvention env o with
  | error x => simp [hr] at h
  | ok o1 =>
    simp only [hr] at h ⊢
    cases hq : (addMissingLoop true opt o1.keys o1.conv { o1 with prot := false }).1 with
    | error x => simp [hq] at h
    | ok s =>
      simp only
      refine ⟨o1, rfl, ?_, trivial, ?_⟩
      · exact addMissingLoop_conv _ _ _ _ _
      · intro k e hp he hm
        obtain ⟨i1, i2⟩ := addMissingLoop_present hq hp
        by_cases hk : k ∈ o1.keys
        · exact i1 hk
        · exact i2 e he hm rfl hk

theorem get?_foldl_put_other (l : Dict Entry) (d : Dict Entry) {k : Str} (h : k ∉ l.map Prod.fst) :
    Dict.get? (l.foldl (fun d p => Dict.put d p.1 p.2) d) k = Dict.get? d k := by
  induction l generalizing d with
  | nil => rfl
  | cons p l ih =>
    simp only [List.map_cons, List.mem_cons, not_or] at h
    rw [List.foldl_cons, ih _ h.2, Dict.get?_put_ne _ _ h.1]

/-- entries of the convention are not replaced by custom entries -/
theorem resetConvention_get {env : Env} {o o1 : Obj} {c v : Str} {conv : Dict Entry} (h : resetConvention env o = .ok o1)
    (hc : Dict.get? o.attrs (py% "GLOBAL_SOFAConventions") = some (.str c))
    (hv : Dict.get? o.attrs (py% "GLOBAL_SOFAConventionsVersion") = some (.str v))
    (hl : loadConvention env c (.exact v) = .ok conv) {k : Str} {e : Entry} (hk : Dict.get? conv k = some e) :
    Dict.get? o1.conv k = some e := by
  obtain ⟨cv, c', vv, conv', h1, h2, h3, h4, h5, h6⟩ := resetConvention_inv h
  rw [getAttr_of_get hc] at h1
  rw [getAttr_of_get hv] at h3
  cases h1
  cases h3
  cases h2
  have : pyStr env (.str v) = v := rfl
  rw [this, hl] at h5
  cases h5
  rw [h6]
  cases o.custom with
  | none => exact hk
  | some cu =>
    simp only [mergeCustom]
    rw [get?_foldl_put_other, hk]
    intro hm
    obtain ⟨p, hp, rfl⟩ := List.mem_map.1 hm
    have := (List.mem_filter.1 hp).2
    rw [(Dict.has_iff conv p.1).2 ⟨e, hk⟩] at this
    simp at this

theorem upgradeVerify_ok {env : Env} {o : Obj} {arg : VerifyArg} {r : Option (List Str)}
    (h : (upgradeVerify env o arg).out = .ok r) (hp : o.prot = true) :
    r = none ∧ (upgradeVerify env o arg).obj.prot = true := by
  have hv : ∀ q, (verify env o .raise .write).out = .ok q → (verify env o .raise .write).obj.prot = true := by
    intro q hq
    obtain ⟨o1, api, dims, hv⟩ := verify_ok hq
    rw [hv.obj]
  unfold upgradeVerify at h ⊢
  simp only at h ⊢
  have hgo : ∀ (x : Ret (Option (List Str))), x = (match (verify env o .raise .write).out with
      | .error e => ⟨.error e, (verify env o .raise .write).obj, (verify env o .raise .write).ev⟩
      | .ok _ => ⟨.ok none, (verify env o .raise .write).obj, (verify env o .raise .write).ev⟩) →
      x.out = .ok r → r = none ∧ x.obj.prot = true := by
    intro x hx ho
    subst hx
    cases hq : (verify env o .raise .write).out with
    | error e => rw [hq] at ho; cases ho
    | ok q => rw [hq] at ho; cases ho; exact ⟨rfl, hv q hq⟩
  cases arg with
  | yes => exact hgo _ rfl h
  | no => cases h; exact ⟨rfl, hp⟩
  | auto =>
    simp only at h ⊢
    cases h1 : o.getAttr (py% "GLOBAL_SOFAConventionsVersion") with
    | error e => rw [h1] at h; cases h
    | ok v =>
      simp only [h1] at h ⊢
      cases h2 : v.asStr with
      | none => rw [h2] at h; cases h
      | some s =>
        simp only [h2] at h ⊢
        cases h3 : isStable s with
        | error e => rw [h3] at h; cases h
        | ok b =>
          simp only [h3] at h ⊢
          cases b with
          | false => cases h; exact ⟨rfl, hp⟩
          | true => exact hgo _ rfl h

/-- the steps of a successful upgrade -/
structure Upgraded (env : Env) (o : Obj) (t : Str) (u : UpgradeDef) (o' : Obj) (ct vt : Str) (conv : Dict Entry) : Prop where
  split : Str.splitChar '_' t = [ct, vt]
  load : loadConvention env ct (.exact vt) = .ok conv
  put : (putTarget targetKeys { o with conv := conv, prot := false }).1 = .ok ()
  moved : (moveAll u.move (putTarget targetKeys { o with conv := conv, prot := false }).2).out = .ok ()
  removed : (removeAll u.remove (moveAll u.move (putTarget targetKeys { o with conv := conv, prot := false }).2).obj).out
    = .ok ()
  added : (addMissing env (removeAll u.remove (moveAll u.move
    (putTarget targetKeys { o with conv := conv, prot := false }).2).obj).obj true false true).out = .ok ()
  attrs : o'.attrs = (addMissing env (removeAll u.remove (moveAll u.move
    (putTarget targetKeys { o with conv := conv, prot := false }).2).obj).obj true false true).obj.attrs
  prot : o'.prot = true

theorem upgradeTo_ok {env : Env} {o : Obj} {c : Str} {v sv : Val} {t : Str} {u : UpgradeDef} {arg : VerifyArg}
    {r : Option (List Str)} (h : (upgradeTo env o c v sv t u arg).out = .ok r) :
    r = none ∧ ∃ ct vt conv, Upgraded env o t u (upgradeTo env o c v sv t u arg).obj ct vt conv := by
  unfold upgradeTo at h ⊢
  split at h
  · rename_i ct vt hs
    simp only
    cases hl : loadConvention env ct (.exact vt) with
    | error e => simp [hl] at h
    | ok conv =>
      simp only [hl] at h ⊢
      cases hg : Dict.get? conv (py% "GLOBAL_Version") with
      | none => simp [hg] at h
      | some e =>
        simp only [hg] at h ⊢
        cases hp : (putTarget targetKeys { o with conv := conv, prot := false }).1 with
        | error e => simp [hp] at h
        | ok _ =>
          simp only [hp] at h ⊢
          unfold upgradeData at h ⊢
          simp only at h ⊢
          cases h1 : (moveAll u.move (putTarget targetKeys { o with conv := conv, prot := false }).2).out with
          | error e => simp [h1] at h
          | ok _ =>
            simp only [h1] at h ⊢
            cases h2 : (removeAll u.remove (moveAll u.move (putTarget targetKeys { o with conv := conv, prot := false }).2).obj).out with
            | error e => simp [h2] at h
            | ok _ =>
              simp only [h2] at h ⊢
              cases h3 : (addMissing env (removeAll u.remove (moveAll u.move
                (putTarget targetKeys { o with conv := conv, prot := false }).2).obj).obj true false true).out with
              | error e => simp [h3] at h
              | ok _ =>
                simp only [h3] at h ⊢
                obtain ⟨hn, hpr⟩ := upgradeVerify_ok h rfl
                exact ⟨hn, ct, vt, conv, hs, hl, hp, h1, h2, h3, upgradeVerify_attrs _ _ _, hpr⟩
  · simp at h

theorem moveData_ok {v w : Val} (h : moveData v none = .ok w) : w = v := by
  simp only [moveData, Except.ok.injEq] at h
  exact h.symm

theorem moveOne_ok {o : Obj} {s : Str} {m : Move} (hp : Spec.sofarName m.target ≠ py% "protected")
    (hd : Spec.sofarName s ∉ publicMembers) (hpr : isPrivate (Spec.sofarName s) = false)
    (h : (moveOne o s m).out = .ok ()) :
    ∃ v w, Dict.get? o.attrs (Spec.sofarName s) = some v ∧ moveData v m.moveaxis = .ok w ∧
      Dict.get? (moveOne o s m).obj.attrs (Spec.sofarName m.target) = some w := by
  unfold moveOne at h ⊢
  simp only [toSofar_eq] at h ⊢
  cases h1 : o.getAttr (Spec.sofarName s) with
  | error e => simp [h1] at h
  | ok v =>
    simp only [h1] at h ⊢
    cases h2 : (delAttr o (Spec.sofarName s)).out with
    | error e => simp [h2] at h
    | ok _ =>
      simp only [h2] at h ⊢
      cases h3 : moveData v m.moveaxis with
      | error e => simp [h3] at h
      | ok w =>
        simp only [h3] at h ⊢
        cases h4 : (setAttr (delAttr o (Spec.sofarName s)).obj (Spec.sofarName m.target) (.val w)).out with
        | error e => simp [h4] at h
        | ok _ =>
          simp only
          obtain ⟨w', hw, ho⟩ := setAttr_ok hp h4
          simp only [normalise, Except.ok.injEq] at hw
          subst hw
          refine ⟨v, w, getAttr_data hpr hd h1, h3, ?_⟩
          rw [ho]
          exact Dict.get?_put_self _ _ _

theorem moveAll_ok {l : Dict Move} {o : Obj}
    (hn : (l.flatMap (fun p => [Spec.sofarName p.1, Spec.sofarName p.2.target])).Nodup)
    (ho : ∀ k ∈ l.flatMap (fun p => [Spec.sofarName p.1, Spec.sofarName p.2.target]), Spec.OrdinaryName k)
    (h : (moveAll l o).out = .ok ()) {s : Str} {m : Move} (hm : (s, m) ∈ l) :
    ∃ v w, Dict.get? o.attrs (Spec.sofarName s) = some v ∧ moveData v m.moveaxis = .ok w ∧
      Dict.get? (moveAll l o).obj.attrs (Spec.sofarName m.target) = some w := by
  induction l generalizing o with
  | nil => cases hm
  | cons p l ih =>
    obtain ⟨s', m'⟩ := p
    simp only [List.flatMap_cons] at hn ho
    simp only [moveAll] at h ⊢
    rw [List.nodup_append] at hn
    obtain ⟨_, hn2, hn3⟩ := hn
    cases h1 : (moveOne o s' m').out with
    | error e => simp [h1] at h
    | ok _ =>
      simp only [h1] at h ⊢
      rcases List.mem_cons.1 hm with hj | hj
      · cases hj
        have hs := ho (Spec.sofarName s) (by simp)
        have ht := ho (Spec.sofarName m.target) (by simp)
        obtain ⟨v, w, g1, g2, g3⟩ := moveOne_ok (by intro hc; rw [hc] at ht; exact ht.1 (by decide)) hs.1 hs.2 h1
        refine ⟨v, w, g1, g2, ?_⟩
        rw [moveAll_keeps _ _ (fun hc => hn3 _ (by simp) _ hc rfl)]
        exact g3
      · obtain ⟨v, w, g1, g2, g3⟩ := ih hn2 (fun k hk => ho k (List.mem_append_right _ hk)) h hj
        refine ⟨v, w, ?_, g2, g3⟩
        rw [← g1]
        have hmem : Spec.sofarName s ∈ l.flatMap (fun p => [Spec.sofarName p.1, Spec.sofarName p.2.target]) :=
          List.mem_flatMap.2 ⟨_, hj, by simp⟩
        exact (moveOne_keeps o s' m' (fun hc => hn3 _ (by simp) _ hmem hc.symm) (fun hc => hn3 _ (by simp) _ hmem hc.symm)).symm

theorem splitChar_ne (c : Char) (s : Str) : Str.splitChar c s ≠ [] := by
  induction s with
  | nil => simp [Str.splitChar]
  | cons d t ih =>
    simp only [Str.splitChar]
    split
    · simp
    · cases h : Str.splitChar c t with
      | nil => exact absurd h ih
      | cons a l => simp [Str.consHead]

theorem splitChar_two {c : Char} {s a b : Str} (h : Str.splitChar c s = [a, b]) : s = a ++ c :: b ∧ c ∉ a ++ b := by
  by_cases hm : c ∈ s
  · obtain ⟨x, y, hxy, hx⟩ := List.eq_append_cons_of_mem hm
    rw [hxy, splitChar_append hx] at h
    simp only [List.cons.injEq] at h
    obtain ⟨rfl, h⟩ := h
    by_cases hy : c ∈ y
    · obtain ⟨z, w, hzw, hz⟩ := List.eq_append_cons_of_mem hy
      rw [hzw, splitChar_append hz] at h
      simp only [List.cons.injEq] at h
      exact absurd h.2 (splitChar_ne c w)
    · rw [splitChar_not_mem hy] at h
      simp only [List.cons.injEq, and_true] at h
      subst h
      exact ⟨hxy, by simp [hx, hy]⟩
  · rw [splitChar_not_mem hm] at h
    simp at h

theorem upgradeConvention_rule {env : Env} {o : Obj} {t : Str} {u : UpgradeDef} {arg : VerifyArg}
    {r : Option (List Str)} (hu : Spec.UpgradeRule env o t u) (h : (upgradeConvention env o (some t) arg).out = .ok r) :
    ∃ o1 c v sv, resetConvention env o = .ok o1 ∧
      upgradeConvention env o (some t) arg = upgradeTo env o1 c v sv t u arg := by
  obtain ⟨name, version, up, targets, id, ⟨c, v, h1, h2, h3, h4⟩, hup, hrow, ht, hd⟩ := hu
  obtain ⟨f, hf⟩ := (find_row h4 targets id).2 hrow
  unfold upgradeConvention at h ⊢
  cases hr : resetConvention env o with
  | error e => simp [hr] at h
  | ok o1 =>
    have hat := resetConvention_attrs hr
    simp only [hr] at h ⊢
    have g1 := getAttr_of_get (o := o1) (by rw [hat]; exact h1)
    have g2 := getAttr_of_get (o := o1) (by rw [hat]; exact h3)
    cases g3 : o1.getAttr (py% "GLOBAL_Version") with
    | error e => simp [g1, g2, g3] at h
    | ok sv =>
      rw [g1, g2]
      have hout : isOutdated env name v = true := by
        unfold isOutdated
        rw [hup]
        simp only [Bool.or_eq_true, List.any_eq_true]
        right
        have hm := List.find?_some hf
        exact ⟨_, List.mem_of_find?_eq_some hf, hm⟩
      simp only [pyStr_text h2, hup, hf, hd]
      rw [if_pos hout, if_pos (by simpa using ht)]
      exact ⟨o1, name, v, sv, rfl, rfl⟩

theorem upgrade_moved {env : Env} {o : Obj} {t : Str} {u : UpgradeDef} {arg : VerifyArg}
    {r : Option (List Str)} (hu : Spec.UpgradeRule env o t u) (h : (upgradeConvention env o (some t) arg).out = .ok r)
    (hn : (Spec.mentioned u ++ Spec.rewritten).Nodup) (ho : ∀ k ∈ Spec.mentioned u, Spec.OrdinaryName k)
    {s : Str} {m : Move} (hm : (s, m) ∈ u.move) :
    ∃ v w, Dict.get? o.attrs (Spec.sofarName s) = some v ∧ moveData v m.moveaxis = .ok w ∧
      Dict.get? (upgradeConvention env o (some t) arg).obj.attrs (Spec.sofarName m.target) = some w := by
  obtain ⟨o1, c, v, sv, h1, h2⟩ := upgradeConvention_rule hu h
  rw [h2] at h ⊢
  obtain ⟨_, ct, vt, conv, hU⟩ := upgradeTo_ok h
  rw [List.nodup_append] at hn
  obtain ⟨hn1, _, hn2⟩ := hn
  unfold Spec.mentioned at hn1 hn2 ho
  rw [List.nodup_append] at hn1
  have hms : Spec.sofarName s ∈ u.move.flatMap (fun p => [Spec.sofarName p.1, Spec.sofarName p.2.target]) :=
    List.mem_flatMap.2 ⟨_, hm, by simp⟩
  have hmt : Spec.sofarName m.target ∈ u.move.flatMap (fun p => [Spec.sofarName p.1, Spec.sofarName p.2.target]) :=
    List.mem_flatMap.2 ⟨_, hm, by simp⟩
  obtain ⟨v, w, g1, g2, g3⟩ := moveAll_ok hn1.1 (fun k hk => ho k (List.mem_append_left _ hk)) hU.moved hm
  refine ⟨v, w, ?_, g2, ?_⟩
  · rw [putTarget_keeps targetKeys _ (fun hc => hn2 _ (List.mem_append_left _ hms) _ hc rfl)] at g1
    rw [← resetConvention_attrs h1]
    exact g1
  · rw [hU.attrs]
    apply addMissing_keeps
    rw [removeAll_keeps _ _ (fun hc => hn1.2.2 _ hmt _ hc rfl)]
    exact g3

theorem not_isData_iff {o : Obj} {k : Str} : ¬ Spec.IsData o k ↔ Dict.get? o.attrs k = none := by
  rw [Dict.get?_eq_none_iff]
  exact Iff.rfl

theorem delAttr_gone {o : Obj} {n : Str} (h : (delAttr o n).out = .ok ()) :
    Dict.get? (delAttr o n).obj.attrs n = none := by
  rcases delAttr_cases o n with ⟨_, h1, _⟩ | ⟨_, _, h1⟩
  · rw [h1] at h; cases h
  · rw [h1]; exact Dict.get?_del_self _ _

theorem delAttr_none (o : Obj) (n : Str) {k : Str} (h : Dict.get? o.attrs k = none) :
    Dict.get? (delAttr o n).obj.attrs k = none := by
  rcases delAttr_cases o n with ⟨_, _, h1⟩ | ⟨_, _, h1⟩
  · rw [h1]; exact h
  · rw [h1]
    simp only [Dict.get?_del]
    split
    · rfl
    · exact h

theorem removeAll_none (l : List Str) (o : Obj) {k : Str} (h : Dict.get? o.attrs k = none) :
    Dict.get? (removeAll l o).obj.attrs k = none := by
  induction l generalizing o with
  | nil => exact h
  | cons s l ih =>
    simp only [removeAll]
    split
    · exact delAttr_none _ _ h
    · exact ih _ (delAttr_none _ _ h)

theorem removeAll_gone {l : List Str} {o : Obj} (h : (removeAll l o).out = .ok ()) {k : Str}
    (hk : k ∈ l.map Spec.sofarName) : Dict.get? (removeAll l o).obj.attrs k = none := by
  induction l generalizing o with
  | nil => cases hk
  | cons s l ih =>
    simp only [removeAll, toSofar_eq] at h ⊢
    cases h1 : (delAttr o (Spec.sofarName s)).out with
    | error e => simp [h1] at h
    | ok _ =>
      simp only [h1] at h ⊢
      rcases List.mem_cons.1 hk with rfl | hk
      · exact removeAll_none _ _ (delAttr_gone h1)
      · exact ih h hk

theorem moveOne_gone {o : Obj} {s : Str} {m : Move} (hne : Spec.sofarName s ≠ Spec.sofarName m.target)
    (h : (moveOne o s m).out = .ok ()) : Dict.get? (moveOne o s m).obj.attrs (Spec.sofarName s) = none := by
  unfold moveOne at h ⊢
  simp only [toSofar_eq] at h ⊢
  cases h1 : o.getAttr (Spec.sofarName s) with
  | error e => simp [h1] at h
  | ok v =>
    simp only [h1] at h ⊢
    cases h2 : (delAttr o (Spec.sofarName s)).out with
    | error e => simp [h2] at h
    | ok _ =>
      simp only [h2] at h ⊢
      cases h3 : moveData v m.moveaxis with
      | error e => simp [h3] at h
      | ok w =>
        simp only [h3] at h ⊢
        cases h4 : (setAttr (delAttr o (Spec.sofarName s)).obj (Spec.sofarName m.target) (.val w)).out with
        | error e => simp [h4] at h
        | ok _ =>
          simp only
          rw [setAttr_keeps _ _ _ hne]
          exact delAttr_gone h2

theorem moveAll_gone {l : Dict Move} {o : Obj}
    (hn : (l.flatMap (fun p => [Spec.sofarName p.1, Spec.sofarName p.2.target])).Nodup)
    (h : (moveAll l o).out = .ok ()) {k : Str} (hk : k ∈ l.map (fun p => Spec.sofarName p.1)) :
    Dict.get? (moveAll l o).obj.attrs k = none := by
  induction l generalizing o with
  | nil => cases hk
  | cons p l ih =>
    obtain ⟨s, m⟩ := p
    simp only [List.flatMap_cons] at hn
    rw [List.nodup_append] at hn
    obtain ⟨hn1, hn2, hn3⟩ := hn
    simp only [moveAll] at h ⊢
    cases h1 : (moveOne o s m).out with
    | error e => simp [h1] at h
    | ok _ =>
      simp only [h1] at h ⊢
      rcases List.mem_cons.1 hk with rfl | hk
      · rw [moveAll_keeps _ _ (fun hc => hn3 _ (by simp) _ hc rfl)]
        simp only [List.nodup_cons, List.mem_singleton] at hn1
        exact moveOne_gone hn1.1 h1
      · exact ih hn2 h hk

theorem addMissingLoop_only (m : Bool) (keys : List Str) (l : Dict Entry) (o : Obj) {k : Str}
    (h : Spec.IsData (addMissingLoop m false keys l o).2 k) :
    Spec.IsData o k ∨ ∃ e, (k, e) ∈ l ∧ mandatory e.flags = true := by
  induction l generalizing o with
  | nil => exact Or.inl h
  | cons p l ih =>
    obtain ⟨n, e⟩ := p
    simp only [addMissingLoop] at h
    have hset : Spec.IsData (setAttr o n e.default).obj k → Spec.IsData o k ∨ k = n := by
      intro hj
      rcases setAttr_cases o n e.default with ⟨_, _, g, _⟩ | ⟨_, _, _, _, g⟩ | ⟨w, _, _, _, _, g, _⟩
      · rw [g] at hj; exact Or.inl hj
      · rw [g] at hj; exact Or.inl hj
      · rw [g] at hj
        exact ((Dict.mem_keys_put _ _ _ _).1 hj).symm
    split at h
    · rename_i hc
      have hm : mandatory e.flags = true := by
        simp only [Bool.and_false, Bool.or_false, Bool.and_eq_true] at hc
        exact hc.2.1
      have hfin : Spec.IsData (setAttr o n e.default).obj k →
          Spec.IsData o k ∨ ∃ e', (k, e') ∈ (n, e) :: l ∧ mandatory e'.flags = true := by
        intro hj
        rcases hset hj with hj | rfl
        · exact Or.inl hj
        · exact Or.inr ⟨e, by simp, hm⟩
      have hrec : Spec.IsData (addMissingLoop m false keys l (setAttr o n e.default).obj).2 k →
          Spec.IsData o k ∨ ∃ e', (k, e') ∈ (n, e) :: l ∧ mandatory e'.flags = true := by
        intro hj
        rcases ih _ hj with hj | ⟨e', h1, h2⟩
        · exact hfin hj
        · exact Or.inr ⟨e', by simp [h1], h2⟩
      split at h
      · exact hfin h
      · split at h <;> exact hrec h
    · rcases ih _ h with hj | ⟨e', h1, h2⟩
      · exact Or.inl hj
      · exact Or.inr ⟨e', by simp [h1], h2⟩

theorem addMissingLoop_custom (m opt : Bool) (keys : List Str) (l : Dict Entry) (q : Obj) :
    (addMissingLoop m opt keys l q).2.custom = q.custom := by
  induction l generalizing q with
  | nil => rfl
  | cons p l ih =>
    obtain ⟨k, e⟩ := p
    simp only [addMissingLoop]
    have hset : (setAttr q k e.default).obj.custom = q.custom := by
      rcases setAttr_cases q k e.default with ⟨_, _, h⟩ | ⟨_, _, _, h⟩ | ⟨_, _, _, _, _, h, _⟩ <;> simp [h]
    split
    · split
      · exact hset
      · split <;> simp only [ih, hset]
    · exact ih q

theorem addMissing_only {env : Env} {o : Obj} {m vb : Bool} (h : (addMissing env o m false vb).out = .ok ()) :
    ∃ o1, resetConvention env o = .ok o1 ∧ (addMissing env o m false vb).obj.conv = o1.conv ∧
      (addMissing env o m false vb).obj.custom = o1.custom ∧
      ∀ k, Spec.IsData (addMissing env o m false vb).obj k → Spec.IsData o k ∨
        ∃ e, (k, e) ∈ o1.conv ∧ mandatory e.flags = true := by
  unfold addMissing at h ⊢
  cases hr : resetConvention env o with
  | error x => simp [hr] at h
  | ok o1 =>
    have hat := resetConvention_attrs hr
    simp only [hr] at h ⊢
    cases hq : (addMissingLoop m false o1.keys o1.conv { o1 with prot := false }).1 with
    | error x => simp [hq] at h
    | ok s =>
      simp only
      refine ⟨o1, rfl, addMissingLoop_conv _ _ _ _ _, addMissingLoop_custom _ _ _ _ _, ?_⟩
      intro k hk
      rcases addMissingLoop_only _ _ _ _ hk with hk | hk
      · left
        unfold Spec.IsData at hk ⊢
        rw [← hat]
        exact hk
      · exact Or.inr hk

theorem upgradeVerify_conv {env : Env} {o : Obj} {arg : VerifyArg} (hr : resetConvention env o = .ok o) :
    (upgradeVerify env o arg).obj.conv = o.conv := by
  have hv : (verify env o .raise .write).obj.conv = o.conv := by
    rcases (verifyG_frame referenceNames env o .raise .write).conv with h | ⟨o1, h, h2, _⟩
    · unfold verify; rw [h]
    · rw [hr] at h
      cases h
      exact h2
  unfold upgradeVerify
  simp only
  repeat' split
  all_goals first | rfl | exact hv

theorem upgradeTo_conv {env : Env} {o : Obj} {c : Str} {v sv : Val} {t : Str} {u : UpgradeDef} {arg : VerifyArg}
    {ct vt : Str} {conv : Dict Entry}
    (hU : Upgraded env o t u (upgradeTo env o c v sv t u arg).obj ct vt conv) :
    (upgradeTo env o c v sv t u arg).obj.conv = (addMissing env (removeAll u.remove (moveAll u.move
      (putTarget targetKeys { o with conv := conv, prot := false }).2).obj).obj true false true).obj.conv := by
  obtain ⟨o1, h1, h2, h3, _⟩ := addMissing_only hU.added
  have hp := hU.put
  have hm := hU.moved
  have hrm := hU.removed
  have had := hU.added
  unfold upgradeTo
  simp only [hU.split, hU.load]
  cases hg : Dict.get? conv (py% "GLOBAL_Version") with
  | none =>
    obtain ⟨_, _, hk⟩ := putTarget_ok (by decide) (by decide) hp
    obtain ⟨e, _, he, _⟩ := hk (py% "GLOBAL_Version") (by decide)
    rw [hg] at he
    cases he
  | some e =>
    simp only [hp]
    unfold upgradeData
    simp only [hm, hrm, had]
    apply upgradeVerify_conv
    refine resetConvention_grow h1 ?_ h2 h3
    intro k v hk
    apply addMissing_keeps
    rw [resetConvention_attrs h1] at hk
    exact hk

theorem upgrade_removed {env : Env} {o : Obj} {t : Str} {u : UpgradeDef} {arg : VerifyArg}
    {r : Option (List Str)} (hu : Spec.UpgradeRule env o t u) (h : (upgradeConvention env o (some t) arg).out = .ok r)
    (hn : (Spec.mentioned u ++ Spec.rewritten).Nodup) {k : Str}
    (hk : k ∈ u.move.map (fun p => Spec.sofarName p.1) ∨ k ∈ u.remove.map Spec.sofarName)
    (hd : Spec.IsData (upgradeConvention env o (some t) arg).obj k) :
    ∃ e, (k, e) ∈ (upgradeConvention env o (some t) arg).obj.conv ∧ Spec.IsMandatory e := by
  obtain ⟨o1, c, v, sv, h1, h2⟩ := upgradeConvention_rule hu h
  rw [h2] at h hd ⊢
  obtain ⟨_, ct, vt, conv, hU⟩ := upgradeTo_ok h
  rw [List.nodup_append] at hn
  obtain ⟨hn1, _, hn2⟩ := hn
  unfold Spec.mentioned at hn1 hn2
  rw [List.nodup_append] at hn1
  have hgone : Dict.get? (removeAll u.remove (moveAll u.move
      (putTarget targetKeys { o1 with conv := conv, prot := false }).2).obj).obj.attrs k = none := by
    rcases hk with hk | hk
    · exact removeAll_none _ _ (moveAll_gone hn1.1 hU.moved hk)
    · exact removeAll_gone hU.removed hk
  obtain ⟨o2, g1, g2, _, g3⟩ := addMissing_only hU.added
  rw [upgradeTo_conv hU, g2]
  have hd' : Spec.IsData (addMissing env (removeAll u.remove (moveAll u.move
      (putTarget targetKeys { o1 with conv := conv, prot := false }).2).obj).obj true false true).obj k := by
    unfold Spec.IsData at hd ⊢
    rwa [hU.attrs] at hd
  rcases g3 k hd' with hx | ⟨e, he, hm⟩
  · exact absurd hx (not_isData_iff.2 hgone)
  · refine ⟨e, he, ?_⟩
    cases hf : e.flags with
    | none => simp [mandatory, hf] at hm
    | some f => exact ⟨f, hf, by simpa [mandatory, hf] using hm⟩

/-! ## arrays -/

theorem spec_prod (s : List Nat) : Spec.prod s = Arr.prod s := by
  induction s with
  | nil => rfl
  | cons n s ih => simp only [Spec.prod, ih]; rfl

theorem position_offset (s ix : List Nat) : Spec.position s ix = Arr.offset s ix := by
  induction s generalizing ix with
  | nil => cases ix <;> rfl
  | cons n s ih =>
    cases ix with
    | nil => rfl
    | cons i ix => simp only [Spec.position, Arr.offset, ih, spec_prod]

theorem element_at (a : Arr) (ix : List Nat) : Spec.element a ix = a.at? ix := by
  unfold Spec.element Arr.at?
  rw [position_offset]

theorem within_indices {s ix : List Nat} : Spec.Within s ix ↔ ix ∈ Arr.indices s := by
  rw [Arr.mem_indices]
  unfold Spec.Within
  induction s generalizing ix with
  | nil =>
    constructor
    · rintro ⟨h, _⟩
      rw [List.length_eq_zero_iff.1 h]
      exact .nil
    · intro h; cases h; simp
  | cons n s ih =>
    constructor
    · rintro ⟨h, h2⟩
      cases ix with
      | nil => simp at h
      | cons i ix =>
        refine .cons (by simpa using h2 0 (by simp)) (ih.1 ⟨by simpa using h, ?_⟩)
        intro j hj
        simpa using h2 (j + 1) (by simpa using hj)
    · intro h
      cases h with
      | cons h1 h2 =>
        obtain ⟨g1, g2⟩ := ih.2 h2
        refine ⟨by simp [g1], ?_⟩
        intro j hj
        cases j with
        | zero => simpa using h1
        | succ j => simpa using g2 j (by simpa using hj)

theorem wf_padOnes {a : Arr} {n : Nat} (ha : a.WF) : (a.withShape (Arr.padOnes n a.shape)).WF := by
  unfold Arr.WF Arr.size at ha ⊢
  simp only [Arr.withShape, Arr.padOnes, List.foldr_append]
  rw [ha]
  congr 1
  generalize n - a.shape.length = m
  induction m with
  | zero => rfl
  | succ m ih => simp only [List.replicate_succ, List.foldr_cons, ← ih]

end Sofar
