import Verif.Lemmas.Text
import Verif.Lemmas.Conforms
import Verif.Lemmas.Congr
/-!
# Verification of objects with missing mandatory data
-/
namespace Sofar

/-- after adding the default values nothing is missing -/
theorem fillMissing_added {keys : List Str} {l : Dict Entry} {o : Obj} {s : Str}
    (h : (fillMissing true keys l o).1 = .ok s) (hp : py% "protected" ∉ l.map Prod.fst) :
    ∀ p ∈ l, mandatory p.2.flags = true → p.1 ∈ keys ∨ p.1 ∈ (fillMissing true keys l o).2.keys := by
  induction l generalizing o s with
  | nil => simp
  | cons q l ih =>
    obtain ⟨k, e⟩ := q
    have hp' : py% "protected" ∉ l.map Prod.fst := fun x => hp (List.mem_cons_of_mem _ x)
    have hk : k ≠ py% "protected" := fun x => hp (by simp [x])
    simp only [fillMissing, if_true] at h ⊢
    by_cases hc : (mandatory e.flags && ! keys.contains k) = true
    · simp only [hc, if_true] at h ⊢
      cases h1 : (addDefault o k e.default).1 with
      | error x => simp [h1] at h
      | ok u =>
        simp only [h1] at h ⊢
        have hkey : k ∈ (addDefault o k e.default).2.keys := by
          revert h1
          unfold addDefault
          simp only
          rcases setAttr_cases { o with prot := false } k e.default with
            ⟨x, h1, _, _⟩ | ⟨b, _, h2, _, _⟩ | ⟨w, _, _, _, _, h2, _⟩
          · simp [h1]
          · exact absurd h2 hk
          · intro _
            simp only [h2]
            exact mem_keys_of_get (v := w) (by simp)
        cases h2 : (fillMissing true keys l (addDefault o k e.default).2).1 with
        | error x => simp [h2] at h
        | ok t =>
          simp only
          intro p hpm hm
          rcases List.mem_cons.1 hpm with rfl | hpm
          · exact Or.inr ((fillMissing_frame true keys l _).1.keys.subset hkey)
          · exact ih h2 hp' p hpm hm
    · simp only [hc] at h ⊢
      intro p hpm hm
      rcases List.mem_cons.1 hpm with rfl | hpm
      · left
        simpa [hm] using hc
      · exact ih h hp' p hpm hm

theorem verifyTail_ret_none {env : Env} {o : Obj} {mode : Mode} {w e : Str} {ev : List Event}
    (h : (verifyTail env o .ret mode w e ev).out = .ok none) :
    e = [] ∧ phaseRules env o mode = .ok [] ∧ ∃ w8, phaseDeprecations env o mode = .ok ([], w8) := by
  have h1 := (tail_raise_ret env o mode w e ev).none h
  obtain ⟨a, b, c, _⟩ := (verifyTail_raise_ok_iff env o mode w e ev none).1 h1
  exact ⟨a, b, c⟩

theorem verifyBody_ret_none {inner : Inner} {env : Env} {o : Obj} {keys : List Str} {mode : Mode} {w e : Str}
    (h : (verifyBody inner env o keys .ret mode w e).out = .ok none) :
    e = [] ∧ phaseNames o keys = .ok [] ∧ (phaseCustomNames inner o).1 = .ok [] ∧ (phaseDims o).1 = .ok () ∧
    (phaseShapes (phaseDims o).2).1 = .ok [] ∧ phaseRules env (phaseShapes (phaseDims o).2).2 mode = .ok [] ∧
    (∃ w8, phaseDeprecations env (phaseShapes (phaseDims o).2).2 mode = .ok ([], w8)) ∧
    (verifyBody inner env o keys .ret mode w e).obj = (phaseShapes (phaseDims o).2).2 := by
  unfold verifyBody at h ⊢
  cases h1 : phaseNames o keys with
  | error x => simp [h1] at h
  | ok e3 =>
    simp only [h1] at h ⊢
    cases h2 : (phaseCustomNames inner o).1 with
    | error x => simp [h2] at h
    | ok e3' =>
      simp only [h2] at h ⊢
      cases h3 : (phaseDims o).1 with
      | error x => simp [h3] at h
      | ok u =>
        simp only [h3] at h ⊢
        cases h4 : (phaseShapes (phaseDims o).2).1 with
        | error x => simp [h4] at h
        | ok e5 =>
          simp only [h4] at h ⊢
          obtain ⟨a, b, c⟩ := verifyTail_ret_none h
          simp only [List.append_eq_nil_iff] at a
          obtain ⟨⟨⟨rfl, rfl⟩, rfl⟩, rfl⟩ := a
          exact ⟨rfl, rfl, rfl, trivial, rfl, b, c, verifyTail_obj _ _ _ _ _ _ _⟩

/-- The reset depends on the data only through convention and version. -/
theorem resetConvention_filled {env : Env} {o o1 o2 : Obj} (h : resetConvention env o = .ok o1)
    (hc : o2.conv = o1.conv) (hu : o2.custom = o1.custom)
    (hg : ∀ k v, Dict.get? o1.attrs k = some v → Dict.get? o2.attrs k = some v) : resetConvention env o2 = .ok o2 := by
  obtain ⟨cv, c, v, conv, h1, h2, h3, h4, h5, h6⟩ := resetConvention_inv h
  have ha : o1.attrs = o.attrs := by rw [h6]; cases o.custom <;> rfl
  have hget : ∀ {k v}, o.getAttr k = .ok v → isPrivate k = false → k ∉ publicMembers → o2.getAttr k = .ok v := by
    intro k v hk hp hm
    unfold Obj.getAttr at hk
    cases hq : Dict.get? o.attrs k with
    | some w =>
      simp only [hq, Except.ok.injEq] at hk
      subst hk
      exact getAttr_of_get (hg k w (ha ▸ hq))
    | none =>
      simp only [hq] at hk
      by_cases hh : o.hasAttr k = true
      · rcases (hasAttr_public o k hp).1 hh with h' | h'
        · rw [Dict.get?_eq_none_iff, ← Dict.has_iff_mem] at hq
          exact absurd h' hq
        · exact absurd h' hm
      · simp [hh] at hk
  unfold resetConvention
  rw [hget h1 (by decide) (by decide), hget h3 (by decide) (by decide)]
  simp only [h2, h4, h5]
  rw [hu]
  cases o2
  simp only at hc hu
  subst hc hu
  rw [h6]
  cases hcu : o.custom with
  | none => simp
  | some cu =>
    simp only
    rw [filter_filter_has]

/-- what a call with `issue_handling="return"` that returns None has found out -/
theorem verify_ret_none {env : Env} {o : Obj} {mode : Mode} (h : (verify env o .ret mode).out = .ok none) :
    ∃ o1 o2 o3 s, resetConvention env o = .ok o1 ∧ fillMissing true o1.keys o1.conv o1 = (.ok s, o2) ∧
      phaseTypes env o2 o1.keys = .ok [] ∧ phaseNames o2 o1.keys = .ok [] ∧
      (phaseCustomNames (referenceNames env o2) o2).1 = .ok [] ∧ (phaseDims o2).1 = .ok () ∧
      phaseShapes (phaseDims o2).2 = (.ok [], o3) ∧ phaseRules env o3 mode = .ok [] ∧
      (∃ w8, phaseDeprecations env o3 mode = .ok ([], w8)) ∧ (verify env o .ret mode).obj = o3 := by
  unfold verify verifyG at *
  cases hr : resetConvention env o with
  | error x => simp [hr] at h
  | ok o1 =>
    simp only [hr] at h ⊢
    have hd : decide (IH.ret ≠ IH.raise) = true := by decide
    simp only [hd] at h ⊢
    generalize hf : fillMissing true o1.keys o1.conv o1 = f at h ⊢
    obtain ⟨f1, o2⟩ := f
    cases f1 with
    | error x => simp at h
    | ok s =>
      simp only at h ⊢
      cases ht : phaseTypes env o2 o1.keys with
      | error x => simp [ht] at h
      | ok e2 =>
        have hne : (IH.ret = IH.raise) = False := by simp
        simp only [ht, hne, if_false, List.nil_append] at h ⊢
        by_cases he : e2 = []
        · subst he
          simp only [List.isEmpty_nil, Bool.not_true, Bool.false_and, Bool.false_eq_true, if_false] at h ⊢
          obtain ⟨_, a2, a3, a4, a5, a6, a7, a8⟩ := verifyBody_ret_none h
          exact ⟨o1, o2, _, s, rfl, hf, ht, a2, a3, a4, Prod.ext a5 rfl, a6, a7, a8⟩
        · exfalso
          have h1 : e2.isEmpty = false := by simpa [List.isEmpty_iff] using he
          rw [if_pos (by simp [h1])] at h
          unfold verifyEarly at h
          simp only [handle_err _ _ .ret he (by decide)] at h
          simp at h

theorem phaseTypes_more {env : Env} {o : Obj} {keys : List Str} (h : phaseTypes env o keys = .ok [])
    (hn : ∀ k ∈ o.keys, k ∉ keys → ∃ e v, Dict.get? o.conv k = some e ∧ o.getAttr k = .ok v ∧ Spec.HasType e.typ v) :
    phaseTypes env o o.keys = .ok [] := by
  rw [phaseTypes_nil] at h ⊢
  intro k hk
  by_cases hm : k ∈ keys
  · exact h k hm
  · exact hn k hk hm

/-- Verification after a call that returned None and possibly added data. -/
theorem verify_after_ret {env : Env} {o : Obj} {mode : Mode} (h : (verify env o .ret mode).out = .ok none)
    (hp : py% "protected" ∉ (verify env o .ret mode).obj.conv.map Prod.fst)
    (hn : ∀ k v, k ∉ o.keys → Dict.get? (verify env o .ret mode).obj.attrs k = some v →
      ∃ e, Dict.get? (verify env o .ret mode).obj.conv k = some e ∧ Spec.HasType e.typ v ∧
        Spec.LegalName (verify env o .ret mode).obj.conv k e) :
    (verify env (verify env o .ret mode).obj .raise mode).out = .ok none ∧
    (verify env (verify env o .ret mode).obj .raise mode).obj = (verify env o .ret mode).obj := by
  obtain ⟨o1, o2, o3, s, hr, hf, ht, hna, hcu, hd, hs, hru, hde, hobj⟩ := verify_ret_none h
  rw [hobj] at hp hn ⊢
  have hfr := fillMissing_frame true o1.keys o1.conv o1
  have hadd := fillMissing_added (keys := o1.keys) (l := o1.conv) (o := o1) (s := s) (by rw [hf])
  rw [hf] at hfr hadd
  simp only at hfr hadd
  have hr2 : resetConvention env o2 = .ok o2 := by
    refine resetConvention_filled hr hfr.1.conv hfr.1.custom ?_
    intro k v hk
    rcases hfr.2 k with h' | ⟨_, h', _⟩
    · rw [h', hk]
    · exact absurd (mem_keys_of_get hk) h'
  obtain ⟨a, ha⟩ := phaseDims_obj o2
  obtain ⟨d, hd'⟩ := phaseShapes_obj (phaseDims o2).2
  have ho3 : o3 = { o2 with prot := true, dims := d, api := a } := by
    have : (phaseShapes (phaseDims o2).2).2 = o3 := by rw [hs]
    rw [← this, hd', ha]
  have hattrs : o3.attrs = o2.attrs := by rw [ho3]
  have hconv : o3.conv = o2.conv := by rw [ho3]
  have hk1 : o1.keys = o.keys := by
    obtain ⟨cv, c, v, conv, _, _, _, _, _, h6⟩ := resetConvention_inv hr
    unfold Obj.keys
    rw [h6]; cases o.custom <;> rfl
  have hnew : ∀ k ∈ o2.keys, k ∉ o1.keys → ∃ e v, Dict.get? o2.conv k = some e ∧ Dict.get? o2.attrs k = some v ∧
      Spec.HasType e.typ v ∧ Spec.LegalName o2.conv k e := by
    intro k hk hk'
    obtain ⟨v, hv⟩ := get_of_mem_keys hk
    obtain ⟨e, h1, h2, h3⟩ := hn k v (hk1 ▸ hk') (by rw [hattrs]; exact hv)
    exact ⟨e, v, hconv ▸ h1, hv, h2, hconv ▸ h3⟩
  have hpass : Passes (referenceNames env o2) env o2 o3 mode := by
    refine ⟨?_, ?_, ?_, hcu, hd, hs, hru, hde⟩
    · intro p hpm hm
      rw [hfr.1.conv] at hpm
      rw [hconv, hfr.1.conv] at hp
      rcases hadd hp p hpm hm with h' | h'
      · exact hfr.1.keys.subset h'
      · exact h'
    · refine phaseTypes_more ht ?_
      intro k hk hk'
      obtain ⟨e, v, h1, h2, h3, _⟩ := hnew k hk hk'
      exact ⟨e, v, h1, getAttr_of_get h2, h3⟩
    · have hold : ∀ k ∈ o1.keys, ∃ e, Dict.get? o2.conv k = some e := by
        intro k hk
        obtain ⟨e, v, h1, _⟩ := (phaseTypes_nil env o2 o1.keys).1 ht k hk
        exact ⟨e, h1⟩
      have hall : ∀ k ∈ o2.keys, ∃ e, Dict.get? o2.conv k = some e := by
        intro k hk
        by_cases hk' : k ∈ o1.keys
        · exact hold k hk'
        · obtain ⟨e, v, h1, _⟩ := hnew k hk hk'
          exact ⟨e, h1⟩
      rw [phaseNames_nil _ _ hall]
      rw [phaseNames_nil _ _ hold] at hna
      intro k hk e he
      by_cases hk' : k ∈ o1.keys
      · exact hna k hk' e he
      · obtain ⟨e', v, h1, _, _, h4⟩ := hnew k hk hk'
        rw [he] at h1
        cases h1
        exact nameOk_of_legal h4
  have h2 : (verify env o2 .raise mode).out = .ok none := (verifyG_raise_ok_iff _ _ _ _ _).2 ⟨rfl, o2, o3, hr2, hpass⟩
  have h3 : (verify env o2 .raise mode).obj = o3 := verifyG_raise_ok_obj _ _ _ _ _ _ hr2 hpass
  have h4 := verify_again hr2 hpass.mandatory h2
  rw [h3] at h4
  rw [h4]
  exact ⟨h2, h3⟩

end Sofar
