import Verif.Lemmas.OrderMissing
import Verif.Lemmas.Upgrade
import Verif.Lemmas.Assign
import Verif.Lemmas.OneByOne
/-!
# The order of the data does not matter for upgrades
-/
namespace Sofar

theorem put_sameEntries {V : Type} {d d' : Dict V} (h : Spec.SameEntries d d') (k : Str) (v : V) :
    Spec.SameEntries (Dict.put d k v) (Dict.put d' k v) := by
  have n1 := Dict.nodup_put k v h.2
  have n2 := Dict.nodup_put k v (sameEntries_nodup h)
  refine ⟨perm_of_get? n1 n2 fun j => ?_, n1⟩
  rw [Dict.get?_put, Dict.get?_put, get?_perm h]

theorem del_sameEntries {V : Type} {d d' : Dict V} (h : Spec.SameEntries d d') (k : Str) :
    Spec.SameEntries (Dict.del d k) (Dict.del d' k) :=
  filter_sameEntries h fun _ => rfl

/-- objects during an upgrade -/
structure Mixed (o o' : Obj) : Prop where
  data : Spec.Reordered o o'
  conv : o'.conv = o.conv
  first : o.prot = false
  second : o'.prot = false
  free : ∀ c, o.custom = some c → py% "protected" ∉ c.map Prod.fst

theorem Mixed.put {o o' : Obj} (h : Mixed o o') (k : Str) (v : Val) :
    Mixed { o with attrs := Dict.put o.attrs k v } { o' with attrs := Dict.put o'.attrs k v } :=
  ⟨⟨put_sameEntries h.data.attrs k v, h.data.custom⟩, h.conv, h.first, h.second, h.free⟩

theorem Mixed.del {o o' : Obj} (h : Mixed o o') (k : Str) :
    Mixed { o with attrs := Dict.del o.attrs k, custom := o.custom.map (fun c => Dict.del c k) }
      { o' with attrs := Dict.del o'.attrs k, custom := o'.custom.map (fun c => Dict.del c k) } := by
  refine ⟨⟨del_sameEntries h.data.attrs k, ?_⟩, h.conv, h.first, h.second, fun c hc hm => ?_⟩
  rotate_left
  · simp only [Option.map_eq_some_iff] at hc
    obtain ⟨d, hd, rfl⟩ := hc
    obtain ⟨p, hp, e⟩ := List.mem_map.1 hm
    exact h.free d hd (List.mem_map.2 ⟨p, (List.mem_filter.1 hp).1, e⟩)
  rcases h.data.custom with ⟨e1, e2⟩ | ⟨d, d', e1, e2, hs⟩
  · exact Or.inl ⟨by simp [e1], by simp [e2]⟩
  · exact Or.inr ⟨_, _, by simp [e1], by simp [e2], del_sameEntries hs k⟩

theorem Mixed.set {o o' : Obj} (h : Mixed o o') {k : Str} {v : Inp} (hk : k ≠ py% "protected") (hs : (setAttr o k v).out = .ok ()) :
    (setAttr o' k v).out = .ok () ∧ Mixed (setAttr o k v).obj (setAttr o' k v).obj := by
  have h1 : (setAttr o' k v).out = .ok () := (setAttr_open h.second hk).2 ((setAttr_open h.first hk).1 hs)
  refine ⟨h1, ?_⟩
  obtain ⟨w, a1, a2⟩ := setAttr_done hk hs
  obtain ⟨w', b1, b2⟩ := setAttr_done hk h1
  rw [a1] at b1
  cases b1
  rw [a2, b2]
  exact h.put k w

theorem Mixed.delete {o o' : Obj} (h : Mixed o o') {k : Str} (hs : (delAttr o k).out = .ok ()) :
    (delAttr o' k).out = .ok () ∧ Mixed (delAttr o k).obj (delAttr o' k).obj ∧ Dict.has o.attrs k = true := by
  rcases delAttr_cases o k with ⟨e, h1, _⟩ | ⟨h1, -, h2⟩
  · simp [hs] at h1
  · have g1 : Dict.has o'.attrs k = true := by
      rw [Dict.has_iff] at h1 ⊢
      rw [get?_perm h.data.attrs]; exact h1
    have g2 : delAttr o' k = ⟨.ok (), { o' with attrs := Dict.del o'.attrs k, custom := o'.custom.map (fun c => Dict.del c k) }, []⟩ := by
      have : o'.hasAttr k = true := by
        unfold Obj.hasAttr
        simp [g1]
      unfold delAttr removeAttr
      simp [this, h.second, g1]
    rw [h2, g2]
    exact ⟨rfl, h.del k, h1⟩

theorem Mixed.moveOne {o o' : Obj} (h : Mixed o o') {s : Str} {m : Move} (hs : (moveOne o s m).out = .ok ()) :
    (Sofar.moveOne o' s m).out = .ok () ∧ Mixed (Sofar.moveOne o s m).obj (Sofar.moveOne o' s m).obj := by
  unfold Sofar.moveOne at hs ⊢
  cases e1 : o.getAttr (toSofar s) with
  | error e => simp [e1] at hs
  | ok data =>
    simp only [e1] at hs ⊢
    cases e2 : (delAttr o (toSofar s)).out with
    | error e => simp [e2] at hs
    | ok _ =>
      obtain ⟨d1, d2, d3⟩ := h.delete e2
      have e1' : o'.getAttr (toSofar s) = .ok data := by
        rw [Dict.has_iff] at d3
        unfold Obj.getAttr at e1 ⊢
        rw [get?_perm h.data.attrs]
        cases hg : Dict.get? o.attrs (toSofar s) with
        | none => simp [hg] at d3
        | some v => simpa [hg] using e1
      simp only [e2] at hs
      simp only [e1', d1]
      cases e3 : moveData data m.moveaxis with
      | error e => simp [e3] at hs
      | ok v =>
        simp only [e3] at hs ⊢
        cases e4 : (setAttr (delAttr o (toSofar s)).obj (toSofar m.target) (.val v)).out with
        | error e => simp [e4] at hs
        | ok _ =>
          have hne : toSofar m.target ≠ py% "protected" := by
            intro hh
            rw [hh] at e4
            simp [setAttr, d2.first] at e4
          obtain ⟨s1, s2⟩ := d2.set hne e4
          simp only [s1]
          exact ⟨trivial, s2⟩

theorem Mixed.moveAll {l : Dict Move} : ∀ {o o' : Obj}, Mixed o o' → (moveAll l o).out = .ok () →
    (Sofar.moveAll l o').out = .ok () ∧ Mixed (Sofar.moveAll l o).obj (Sofar.moveAll l o').obj := by
  induction l with
  | nil => intro o o' h _; exact ⟨rfl, h⟩
  | cons p l ih =>
    obtain ⟨s, m⟩ := p
    intro o o' h hs
    simp only [Sofar.moveAll] at hs ⊢
    cases e1 : (Sofar.moveOne o s m).out with
    | error e => simp [e1] at hs
    | ok _ =>
      obtain ⟨a1, a2⟩ := h.moveOne e1
      simp only [e1] at hs
      simp only [a1]
      exact ih a2 hs

theorem Mixed.removeAll {l : List Str} : ∀ {o o' : Obj}, Mixed o o' → (removeAll l o).out = .ok () →
    (Sofar.removeAll l o').out = .ok () ∧ Mixed (Sofar.removeAll l o).obj (Sofar.removeAll l o').obj := by
  induction l with
  | nil => intro o o' h _; exact ⟨rfl, h⟩
  | cons s l ih =>
    intro o o' h hs
    simp only [Sofar.removeAll] at hs ⊢
    cases e1 : (delAttr o (toSofar s)).out with
    | error e => simp [e1] at hs
    | ok _ =>
      obtain ⟨a1, a2, -⟩ := h.delete e1
      simp only [e1] at hs
      simp only [a1]
      exact ih a2 hs

theorem Mixed.putTarget {l : List Str} (hl : py% "protected" ∉ l) : ∀ {o o' : Obj}, Mixed o o' → (putTarget l o).1 = .ok () →
    (Sofar.putTarget l o').1 = .ok () ∧ Mixed (Sofar.putTarget l o).2 (Sofar.putTarget l o').2 := by
  induction l with
  | nil => intro o o' h _; exact ⟨rfl, h⟩
  | cons s l ih =>
    intro o o' h hs
    simp only [List.mem_cons, not_or] at hl
    simp only [Sofar.putTarget, h.conv] at hs ⊢
    cases e0 : Dict.get? o.conv s with
    | none => simp [e0] at hs
    | some e =>
      simp only [e0] at hs ⊢
      cases e1 : (setAttr o s e.default).out with
      | error e => simp [e1] at hs
      | ok _ =>
        obtain ⟨a1, a2⟩ := h.set (Ne.symm hl.1) e1
        simp only [e1] at hs
        simp only [a1]
        exact ih hl.2 a2 hs

theorem reset_names {env : Env} (hp : ∀ f ∈ env.files, ∀ key e, (key, e) ∈ f.content → Spec.sofarName key ≠ py% "protected")
    {o o1 : Obj} (hc : ∀ c, o.custom = some c → py% "protected" ∉ c.map Prod.fst) (hr : resetConvention env o = .ok o1) :
    py% "protected" ∉ o1.conv.map Prod.fst := by
  obtain ⟨cv, c, v, conv, _, _, _, _, h5, h6⟩ := resetConvention_inv hr
  have h7 : py% "protected" ∉ conv.map Prod.fst :=
    (Dict.get?_eq_none_iff conv _).1 (loadConvention_unknown h5 hp)
  intro hm
  rw [h6] at hm
  cases hcu : o.custom with
  | none => simp only [hcu] at hm; exact h7 hm
  | some d =>
    simp only [hcu] at hm
    have hm' : py% "protected" ∈ Dict.keys (mergeCustom conv d).1 := hm
    rw [← Dict.has_iff_mem, Dict.has_iff] at hm'
    obtain ⟨e, he⟩ := hm'
    rcases get?_mergeCustom_or conv d _ e he with h | h
    · exact h7 (List.mem_map.2 ⟨_, Dict.mem_of_get? h, rfl⟩)
    · exact hc d hcu (List.mem_map.2 ⟨_, h, rfl⟩)

theorem reordered_upgradeVerify {env : Env} {o o' : Obj} (h : Spec.Reordered o o') {arg : VerifyArg} {r : Option (List Str)}
    (hs : arg ≠ .no → ∀ o1, resetConvention env o = .ok o1 → Spec.AgreeOnSizes o1 ∧ Spec.CustomNoMethod o1)
    (hv : (upgradeVerify env o arg).out = .ok r) :
    (upgradeVerify env o' arg).out = .ok r ∧ Spec.Reordered (upgradeVerify env o arg).obj (upgradeVerify env o' arg).obj := by
  have go : arg ≠ .no → (verify env o .raise .write).out = .ok none → (verify env o' .raise .write).out = .ok none ∧
      Spec.Reordered (verify env o .raise .write).obj (verify env o' .raise .write).obj := fun ha hok =>
    reordered_verified h (fun o1 o1' h1 _ h3 => h3.sameLast (hs ha o1 h1).2 (hs ha o1 h1).1) hok
  have key : arg ≠ .no → (match (verify env o .raise .write).out with
      | .error e => (⟨.error e, (verify env o .raise .write).obj, (verify env o .raise .write).ev⟩ : Ret (Option (List Str)))
      | .ok _ => ⟨.ok none, (verify env o .raise .write).obj, (verify env o .raise .write).ev⟩).out = .ok r →
      (match (verify env o' .raise .write).out with
      | .error e => (⟨.error e, (verify env o' .raise .write).obj, (verify env o' .raise .write).ev⟩ : Ret (Option (List Str)))
      | .ok _ => ⟨.ok none, (verify env o' .raise .write).obj, (verify env o' .raise .write).ev⟩).out = .ok r ∧
      Spec.Reordered (match (verify env o .raise .write).out with
      | .error e => (⟨.error e, (verify env o .raise .write).obj, (verify env o .raise .write).ev⟩ : Ret (Option (List Str)))
      | .ok _ => ⟨.ok none, (verify env o .raise .write).obj, (verify env o .raise .write).ev⟩).obj
      (match (verify env o' .raise .write).out with
      | .error e => (⟨.error e, (verify env o' .raise .write).obj, (verify env o' .raise .write).ev⟩ : Ret (Option (List Str)))
      | .ok _ => ⟨.ok none, (verify env o' .raise .write).obj, (verify env o' .raise .write).ev⟩).obj := by
    intro ha hk
    cases e : (verify env o .raise .write).out with
    | error x => simp [e] at hk
    | ok q =>
      have hq : q = none := ((verifyG_raise_ok_iff _ _ _ _ _).1 e).1
      subst hq
      obtain ⟨g1, g2⟩ := go ha e
      simp only [e] at hk
      simp only [g1]
      exact ⟨hk, g2⟩
  unfold upgradeVerify at hv ⊢
  cases arg with
  | no => exact ⟨hv, h⟩
  | yes => exact key (by simp) hv
  | auto =>
    simp only [reordered_public h (k := py% "GLOBAL_SOFAConventionsVersion") (by decide)]
    simp only at hv
    cases e1 : o.getAttr (py% "GLOBAL_SOFAConventionsVersion") with
    | error e => simp [e1] at hv
    | ok v =>
      simp only [e1] at hv ⊢
      cases e2 : v.asStr with
      | none => simp [e2] at hv
      | some s =>
        simp only [e2] at hv ⊢
        cases e3 : isStable s with
        | error e => simp [e3] at hv
        | ok b =>
          cases b with
          | false => simp only [e3] at hv ⊢; exact ⟨hv, h⟩
          | true => simp only [e3] at hv ⊢; exact key (by simp) hv

theorem Mixed.upgradeData {env : Env} (hp : ∀ f ∈ env.files, ∀ key e, (key, e) ∈ f.content → Spec.sofarName key ≠ py% "protected")
    {o o' : Obj} (h : Mixed o o') {u : UpgradeDef} {arg : VerifyArg} {r : Option (List Str)}
    (hs : arg ≠ .no → ∀ o1, resetConvention env (upgradeData env o u .no).obj = .ok o1 → Spec.AgreeOnSizes o1 ∧ Spec.CustomNoMethod o1)
    (hv : (upgradeData env o u arg).out = .ok r) :
    (Sofar.upgradeData env o' u arg).out = .ok r ∧
      Spec.Reordered (Sofar.upgradeData env o u arg).obj (Sofar.upgradeData env o' u arg).obj := by
  unfold Sofar.upgradeData at hs hv ⊢
  cases e1 : (Sofar.moveAll u.move o).out with
  | error e => simp [e1] at hv
  | ok _ =>
    obtain ⟨a1, a2⟩ := h.moveAll e1
    simp only [e1] at hs hv
    simp only [a1, e1]
    cases e2 : (Sofar.removeAll u.remove (Sofar.moveAll u.move o).obj).out with
    | error e => simp [e2] at hv
    | ok _ =>
      obtain ⟨b1, b2⟩ := a2.removeAll e2
      simp only [e2] at hs hv
      simp only [b1]
      cases e3 : (addMissing env (Sofar.removeAll u.remove (Sofar.moveAll u.move o).obj).obj true false true).out with
      | error e => simp [e3] at hv
      | ok _ =>
        obtain ⟨c1, c2⟩ := reordered_addMissing b2.data (vb' := true) (fun o1 hr => reset_names hp b2.free hr) e3
        simp only [e3] at hs hv
        simp only [c1]
        simp only [upgradeVerify] at hs
        generalize (addMissing env (Sofar.removeAll u.remove (Sofar.moveAll u.move o).obj).obj true false true).obj = q at c2 hs hv ⊢
        generalize (addMissing env (Sofar.removeAll u.remove (Sofar.moveAll u.move o').obj).obj true false true).obj = q' at c2 ⊢
        exact reordered_upgradeVerify (o := { q with prot := true }) (o' := { q' with prot := true }) ⟨c2.attrs, c2.custom⟩ hs hv

theorem reordered_upgrade {env : Env} (hp : ∀ f ∈ env.files, ∀ key e, (key, e) ∈ f.content → Spec.sofarName key ≠ py% "protected")
    {o o' : Obj} (h : Spec.Reordered o o') (hc : ∀ c, o.custom = some c → py% "protected" ∉ c.map Prod.fst)
    {target : Option Str} {arg : VerifyArg} {r : Option (List Str)}
    (hs : arg ≠ .no → ∀ o1, resetConvention env (upgradeConvention env o target .no).obj = .ok o1 →
      Spec.AgreeOnSizes o1 ∧ Spec.CustomNoMethod o1)
    (hv : (upgradeConvention env o target arg).out = .ok r) :
    (upgradeConvention env o' target arg).out = .ok r ∧
      Spec.Reordered (upgradeConvention env o target arg).obj (upgradeConvention env o' target arg).obj := by
  unfold upgradeConvention at hs hv ⊢
  rcases reordered_reset (env := env) h with ⟨x, h1, h2⟩ | ⟨o1, o1', h1, h2, h3, a1, a2⟩
  · simp [h1] at hv
  · have hR := reordered_loaded h h1 h2
    have hf : ∀ c, o1.custom = some c → py% "protected" ∉ c.map Prod.fst := by
      intro c hcc hm
      obtain ⟨_, _, _, conv, _, _, _, _, _, h6⟩ := resetConvention_inv h1
      cases hcu : o.custom with
      | none => simp [h6, hcu] at hcc
      | some d =>
        simp only [h6, hcu, Option.some.injEq] at hcc
        subst hcc
        obtain ⟨p, hp1, hp2⟩ := List.mem_map.1 hm
        exact hc d hcu (List.mem_map.2 ⟨p, List.mem_of_mem_filter hp1, hp2⟩)
    simp only [h1] at hs hv
    simp only [h2, h1]
    rw [reordered_public hR (k := py% "GLOBAL_SOFAConventions") (by decide),
      reordered_public hR (k := py% "GLOBAL_SOFAConventionsVersion") (by decide),
      reordered_public hR (k := py% "GLOBAL_Version") (by decide)]
    cases e1 : o1.getAttr (py% "GLOBAL_SOFAConventions") with
    | error e => simp [e1] at hv
    | ok cv =>
      cases e2 : o1.getAttr (py% "GLOBAL_SOFAConventionsVersion") with
      | error e => simp [e1, e2] at hv
      | ok v =>
        cases e3 : o1.getAttr (py% "GLOBAL_Version") with
        | error e => simp [e1, e2, e3] at hv
        | ok sv =>
          simp only [e1, e2, e3] at hs hv ⊢
          by_cases e4 : isOutdated env (pyStr env cv) v = true
          · simp only [e4, if_true] at hs hv ⊢
            cases e5 : Dict.get? env.upgrade (pyStr env cv) with
            | none => simp only [e5] at hv ⊢; exact ⟨hv, hR⟩
            | some up =>
              simp only [e5] at hs hv ⊢
              cases e6 : up.fromTo.find? (fun ft => versionIn v ft.1) with
              | none => simp [e6] at hv
              | some ft =>
                obtain ⟨f0, targets, tid⟩ := ft
                simp only [e6] at hs hv ⊢
                cases target with
                | none =>
                  simp only at hv ⊢
                  cases e7 : targetsText targets with
                  | error e => simp [e7] at hv
                  | ok s => simp only [e7] at hv ⊢; exact ⟨hv, hR⟩
                | some t =>
                  simp only at hs hv ⊢
                  by_cases e8 : targets.contains t = true
                  · simp only [e8, if_true] at hs hv ⊢
                    cases e9 : Dict.get? up.defs tid with
                    | none => simp [e9] at hv
                    | some u =>
                      simp only [e9] at hs hv ⊢
                      unfold upgradeTo at hs hv ⊢
                      split at hv
                      · rename_i ct vt hsp
                        simp only [hsp] at hs ⊢
                        cases g1 : loadConvention env ct (.exact vt) with
                        | error e => simp [g1] at hv
                        | ok conv =>
                          simp only [g1] at hs hv ⊢
                          cases g2 : Dict.get? conv (py% "GLOBAL_Version") with
                          | none => simp [g2] at hv
                          | some e =>
                            simp only [g2] at hs hv ⊢
                            have hM : Mixed { o1 with conv := conv, prot := false } { o1' with conv := conv, prot := false } :=
                              ⟨⟨hR.attrs, hR.custom⟩, rfl, rfl, rfl, hf⟩
                            cases g3 : (putTarget targetKeys { o1 with conv := conv, prot := false }).1 with
                            | error e => simp [g3] at hv
                            | ok _ =>
                              obtain ⟨k1, k2⟩ := hM.putTarget (by decide) g3
                              simp only [g3] at hs hv
                              simp only [k1]
                              exact k2.upgradeData hp hs hv
                      · simp at hv
                  · rw [if_neg e8] at hv
                    simp only [if_neg e8]
                    cases e7 : targetsText targets with
                    | error e => simp [e7] at hv
                    | ok s => simp only [e7] at hv ⊢; exact ⟨hv, hR⟩
          · rw [if_neg e4] at hv
            simp only [if_neg e4]
            exact ⟨hv, hR⟩

end Sofar
