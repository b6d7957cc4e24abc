import Verif.Spec.Same
import Verif.Lemmas.Verify
import Verif.Lemmas.Attr
import Verif.Model.IO
import Verif.Model.Text
/-!
# Objects with the same data behave in the same way
-/
namespace Sofar

/-- same data, custom entries and loaded convention -/
structure Alike (o o' : Obj) : Prop where
  attrs : o'.attrs = o.attrs
  custom : o'.custom = o.custom
  conv : o'.conv = o.conv

/-- everything is the same except for the list of read only data -/
def Twin (o o' : Obj) : Prop := ∃ r, o' = { o with readOnly := r }

theorem Twin.alike {o o' : Obj} (h : Twin o o') : Alike o o' := by
  obtain ⟨r, rfl⟩ := h
  exact ⟨rfl, rfl, rfl⟩

theorem sameData_hasAttr {o o' : Obj} (h : Spec.SameData o o') {k : Str} (hk : isPrivate k = false) :
    o'.hasAttr k = o.hasAttr k := by
  rw [Bool.eq_iff_iff, hasAttr_public _ _ hk, hasAttr_public _ _ hk, h.attrs]

theorem sameData_getAttr {o o' : Obj} (h : Spec.SameData o o') {k : Str} (hk : isPrivate k = false ∨ k ∈ o.keys) :
    o'.getAttr k = o.getAttr k := by
  unfold Obj.getAttr
  rw [h.attrs]
  cases hg : Dict.get? o.attrs k with
  | some v => rfl
  | none =>
    rcases hk with hk | hk
    · simp only [sameData_hasAttr h hk]
    · exact absurd hk ((Dict.get?_eq_none_iff _ _).1 hg)

theorem Alike.same {o o' : Obj} (h : Alike o o') : Spec.SameData o o' := ⟨h.attrs, h.custom⟩

theorem Alike.keys {o o' : Obj} (h : Alike o o') : o'.keys = o.keys := by unfold Obj.keys; rw [h.attrs]

theorem Alike.convEntry {o o' : Obj} (h : Alike o o') (k : Str) : convEntry o' k = convEntry o k := by
  unfold Sofar.convEntry; rw [h.conv]

theorem sameData_reset {env : Env} {o o' : Obj} (h : Spec.SameData o o') :
    (∃ x, resetConvention env o = .error x ∧ resetConvention env o' = .error x) ∨
    ∃ o1 o1', resetConvention env o = .ok o1 ∧ resetConvention env o' = .ok o1' ∧ Alike o1 o1' := by
  unfold resetConvention
  rw [sameData_getAttr h (k := py% "GLOBAL_SOFAConventions") (Or.inl (by decide)),
    sameData_getAttr h (k := py% "GLOBAL_SOFAConventionsVersion") (Or.inl (by decide)), h.custom]
  cases o.getAttr (py% "GLOBAL_SOFAConventions") with
  | error e => exact Or.inl ⟨_, rfl, rfl⟩
  | ok c =>
    simp only
    cases o.getAttr (py% "GLOBAL_SOFAConventionsVersion") with
    | error e => exact Or.inl ⟨_, rfl, rfl⟩
    | ok v =>
      simp only
      cases c.asStr with
      | none => exact Or.inl ⟨_, rfl, rfl⟩
      | some c =>
        simp only
        cases verifyConvention env (pyStr env v) c with
        | error e => exact Or.inl ⟨_, rfl, rfl⟩
        | ok _ =>
          simp only
          cases loadConvention env c (.exact (pyStr env v)) with
          | error e => exact Or.inl ⟨_, rfl, rfl⟩
          | ok conv =>
            cases hc : o.custom with
            | none => exact Or.inr ⟨_, _, rfl, rfl, h.attrs, rfl, rfl⟩
            | some c => exact Or.inr ⟨_, _, rfl, rfl, h.attrs, rfl, rfl⟩

theorem Alike.setFree {o o' : Obj} (h : Alike o o') (k : Str) (v : Inp) :
    (setAttr { o' with prot := false } k v).out = (setAttr { o with prot := false } k v).out ∧
    Alike (setAttr { o with prot := false } k v).obj (setAttr { o' with prot := false } k v).obj ∧
    (setAttr { o' with prot := false } k v).obj.prot = (setAttr { o with prot := false } k v).obj.prot := by
  unfold setAttr
  simp only [Bool.false_and, Bool.and_false, Bool.false_eq_true, if_false]
  split
  · split
    · exact ⟨rfl, ⟨h.attrs, h.custom, h.conv⟩, rfl⟩
    · exact ⟨rfl, ⟨h.attrs, h.custom, h.conv⟩, rfl⟩
  · split
    · exact ⟨rfl, ⟨h.attrs, h.custom, h.conv⟩, rfl⟩
    · split
      · exact ⟨rfl, ⟨h.attrs, h.custom, h.conv⟩, rfl⟩
      · split
        · exact ⟨rfl, ⟨h.attrs, h.custom, h.conv⟩, rfl⟩
        · refine ⟨rfl, ⟨?_, h.custom, h.conv⟩, rfl⟩
          simp only [h.attrs]

theorem Alike.addDefault {o o' : Obj} (h : Alike o o') (k : Str) (v : Inp) :
    (addDefault o' k v).1 = (addDefault o k v).1 ∧ Alike (addDefault o k v).2 (addDefault o' k v).2 := by
  obtain ⟨h1, h2, _⟩ := h.setFree k v
  unfold Sofar.addDefault
  simp only [h1]
  split
  · exact ⟨rfl, h2⟩
  · exact ⟨rfl, h2.attrs, h2.custom, h2.conv⟩

theorem Alike.fillMissing (b : Bool) (ks : List Str) (l : Dict Entry) : ∀ {o o' : Obj}, Alike o o' →
    (fillMissing b ks l o').1 = (fillMissing b ks l o).1 ∧ Alike (fillMissing b ks l o).2 (fillMissing b ks l o').2 := by
  induction l with
  | nil => exact fun h => ⟨rfl, h⟩
  | cons p l ih =>
    intro o o' h
    obtain ⟨k, e⟩ := p
    simp only [Sofar.fillMissing]
    split
    · have hr : (if b = true then Sofar.addDefault o' k e.default else (.ok (), o')).1 =
          (if b = true then Sofar.addDefault o k e.default else (.ok (), o)).1 ∧
          Alike (if b = true then Sofar.addDefault o k e.default else (.ok (), o)).2
            (if b = true then Sofar.addDefault o' k e.default else (.ok (), o')).2 := by
        split
        · exact h.addDefault k e.default
        · exact ⟨rfl, h⟩
      generalize (if b = true then Sofar.addDefault o k e.default else (.ok (), o)) = r at hr
      generalize (if b = true then Sofar.addDefault o' k e.default else (.ok (), o')) = r' at hr
      obtain ⟨r1, r2⟩ := r
      obtain ⟨r1', r2'⟩ := r'
      obtain ⟨h1, h2⟩ := hr
      simp only at h1 h2 ⊢
      subst h1
      cases r1' with
      | error x => exact ⟨rfl, h2⟩
      | ok u =>
        simp only
        obtain ⟨h3, h4⟩ := ih h2
        rw [h3]
        cases (Sofar.fillMissing b ks l r2).1 with
        | error x => exact ⟨rfl, h4⟩
        | ok s => exact ⟨rfl, h4⟩
    · exact ih h

theorem Alike.phaseTypes {env : Env} {o o' : Obj} (h : Alike o o') {ks : List Str} (hks : ∀ k ∈ ks, k ∈ o.keys) :
    phaseTypes env o' ks = phaseTypes env o ks := by
  unfold Sofar.phaseTypes
  rw [concatE_congr (g := typeErrorKey env o)]
  intro k hk
  unfold typeErrorKey
  rw [h.convEntry, sameData_getAttr h.same (Or.inr (hks k hk))]

theorem Alike.phaseNames {o o' : Obj} (h : Alike o o') (ks : List Str) : phaseNames o' ks = phaseNames o ks := by
  unfold Sofar.phaseNames nameNoVariable nameNoUnderscore nameVariable nameReserved Sofar.convEntry
  rw [h.conv]

theorem Alike.phaseCustomNames {o o' : Obj} (h : Alike o o') (i : Inner) : phaseCustomNames i o' = phaseCustomNames i o := by
  unfold Sofar.phaseCustomNames; rw [h.custom]

theorem Alike.referenceNames {env : Env} {o o' : Obj} (h : Alike o o') : referenceNames env o' = referenceNames env o := by
  unfold Sofar.referenceNames
  rw [sameData_getAttr h.same (k := py% "GLOBAL_SOFAConventions") (Or.inl (by decide)),
    sameData_getAttr h.same (k := py% "GLOBAL_SOFAConventionsVersion") (Or.inl (by decide))]

theorem Alike.dimKeys {o o' : Obj} (h : Alike o o') : dimKeys o' = dimKeys o := by
  unfold Sofar.dimKeys; rw [h.keys, h.conv, h.custom]

theorem dimKeys_known {o : Obj} {k : Str} (hk : k ∈ dimKeys o) : isPrivate k = false ∨ k ∈ o.keys := by
  unfold dimKeys at hk
  rcases List.mem_append.1 hk with hk | hk
  · exact Or.inr (List.mem_filter.1 hk).1
  · refine Or.inl ?_
    cases hc : o.custom with
    | none => rw [hc] at hk; simp at hk
    | some c =>
      rw [hc] at hk
      obtain ⟨p, hp, rfl⟩ := List.mem_map.1 hk
      have := (List.mem_filter.1 hp).2
      simp only [Bool.and_eq_true, Bool.not_eq_true'] at this
      exact this.1

theorem Alike.dimLoop {o o' : Obj} (h : Alike o o') (ks : List Str) (hks : ∀ k ∈ ks, isPrivate k = false ∨ k ∈ o.keys)
    (st : Dict Nat × Nat) : dimLoop o' ks st = dimLoop o ks st := by
  induction ks generalizing st with
  | nil => rfl
  | cons k ks ih =>
    simp only [Sofar.dimLoop]
    rw [sameData_getAttr h.same (hks k (by simp)), h.convEntry]
    have := ih (fun j hj => hks j (by simp [hj]))
    simp only [this]

theorem Alike.phaseDims {o o' : Obj} (h : Alike o o') :
    (phaseDims o').1 = (phaseDims o).1 ∧ Twin (phaseDims o).2 (phaseDims o').2 := by
  unfold Sofar.phaseDims
  rw [h.dimKeys, h.dimLoop _ (fun k hk => dimKeys_known hk)]
  obtain ⟨a, cu, c, d, ap, r, p⟩ := o
  obtain ⟨a', cu', c', d', ap', r', p'⟩ := o'
  obtain ⟨h1, h2, h3⟩ := h
  simp only at h1 h2 h3
  subst h1 h2 h3
  simp only
  split
  · exact ⟨rfl, r', rfl⟩
  · exact ⟨rfl, r', rfl⟩

theorem Twin.phaseShapes {o o' : Obj} (h : Twin o o') :
    (phaseShapes o').1 = (phaseShapes o).1 ∧ Twin (phaseShapes o).2 (phaseShapes o').2 := by
  obtain ⟨r, rfl⟩ := h
  have hl : ∀ api ks d, shapeLoop { o with readOnly := r } api ks d = shapeLoop o api ks d := by
    intro api ks
    induction ks with
    | nil => exact fun d => rfl
    | cons k ks ih =>
      intro d
      have hk : shapeKey { o with readOnly := r } api k = shapeKey o api k := rfl
      simp only [shapeLoop, hk, ih]
  have hd : dimKeys { o with readOnly := r } = dimKeys o := rfl
  unfold Sofar.phaseShapes
  simp only [hd, hl]
  split
  · exact ⟨rfl, r, rfl⟩
  · exact ⟨rfl, r, rfl⟩

theorem Twin.phaseRules {env : Env} {o o' : Obj} (h : Twin o o') (mode : Mode) :
    phaseRules env o' mode = phaseRules env o mode := by
  obtain ⟨r, rfl⟩ := h
  rfl

theorem Twin.phaseDeprecations {env : Env} {o o' : Obj} (h : Twin o o') (mode : Mode) :
    phaseDeprecations env o' mode = phaseDeprecations env o mode := by
  obtain ⟨r, rfl⟩ := h
  rfl

theorem Twin.verifyTail {env : Env} {o o' : Obj} (h : Twin o o') (ih : IH) (mode : Mode) (w e : Str) (ev : List Event) :
    (verifyTail env o' ih mode w e ev).out = (verifyTail env o ih mode w e ev).out ∧
    (verifyTail env o' ih mode w e ev).ev = (verifyTail env o ih mode w e ev).ev ∧
    Twin (verifyTail env o ih mode w e ev).obj (verifyTail env o' ih mode w e ev).obj := by
  unfold Sofar.verifyTail
  rw [h.phaseRules, h.phaseDeprecations]
  cases Sofar.phaseRules env o mode with
  | error x => exact ⟨rfl, rfl, h⟩
  | ok e6 =>
    simp only
    cases Sofar.phaseDeprecations env o mode with
    | error x => exact ⟨rfl, rfl, h⟩
    | ok q =>
      obtain ⟨e8, w8⟩ := q
      cases ih with
      | ignore => exact ⟨rfl, rfl, h⟩
      | _ =>
        simp only
        generalize handleIssues _ _ _ = hh
        cases hh.out with
        | error x => exact ⟨rfl, rfl, h⟩
        | ok q => exact ⟨rfl, rfl, h⟩

/-- both calls end in the same way; `done`: and leave twins, unless an exception is raised -/
structure AlikeRet {α : Type} (r r' : Ret α) : Prop where
  out : r'.out = r.out
  ev : r'.ev = r.ev
  alike : Alike r.obj r'.obj

theorem Alike.verifyBody {env : Env} {o o' : Obj} (h : Alike o o') (i : Inner) (ks : List Str) (ih : IH) (mode : Mode)
    (w e : Str) : AlikeRet (verifyBody i env o ks ih mode w e) (verifyBody i env o' ks ih mode w e) ∧
      (Twin (verifyBody i env o ks ih mode w e).obj (verifyBody i env o' ks ih mode w e).obj ∨
        ∃ x, (verifyBody i env o ks ih mode w e).out = .error x) := by
  unfold Sofar.verifyBody
  rw [h.phaseNames, h.phaseCustomNames]
  cases Sofar.phaseNames o ks with
  | error x => exact ⟨⟨rfl, rfl, h⟩, Or.inr ⟨_, rfl⟩⟩
  | ok e3 =>
    simp only
    cases (Sofar.phaseCustomNames i o).1 with
    | error x => exact ⟨⟨rfl, rfl, h⟩, Or.inr ⟨_, rfl⟩⟩
    | ok e3' =>
      simp only
      obtain ⟨h1, h2⟩ := h.phaseDims
      rw [h1]
      cases (Sofar.phaseDims o).1 with
      | error x => exact ⟨⟨rfl, rfl, h2.alike⟩, Or.inr ⟨_, rfl⟩⟩
      | ok u =>
        simp only
        obtain ⟨h3, h4⟩ := h2.phaseShapes
        rw [h3]
        cases (Sofar.phaseShapes (Sofar.phaseDims o).2).1 with
        | error x => exact ⟨⟨rfl, rfl, h4.alike⟩, Or.inr ⟨_, rfl⟩⟩
        | ok e5 =>
          obtain ⟨h5, h6, h7⟩ := h4.verifyTail (env := env) ih mode w (e ++ e3 ++ e3' ++ e5) (Sofar.phaseCustomNames i o).2
          exact ⟨⟨h5, h6, h7.alike⟩, Or.inl h7⟩

theorem verifyEarly_same (o o' : Obj) (ih : IH) (e : Str) :
    (verifyEarly o' ih e).out = (verifyEarly o ih e).out ∧ (verifyEarly o' ih e).ev = (verifyEarly o ih e).ev := by
  unfold verifyEarly
  generalize handleIssues [] e ih = h
  obtain ⟨o1, e1⟩ := h
  cases o1 <;> exact ⟨rfl, rfl⟩

/-- Objects with the same data are verified with the same result. Unless there is an exception or data of wrong type, also
the private data is the same afterwards. -/
theorem sameData_verify {env : Env} {o o' : Obj} (h : Spec.SameData o o') (ih : IH) (mode : Mode) :
    (verify env o' ih mode).out = (verify env o ih mode).out ∧ (verify env o' ih mode).ev = (verify env o ih mode).ev ∧
    Spec.SameData (verify env o ih mode).obj (verify env o' ih mode).obj ∧
    (Twin (verify env o ih mode).obj (verify env o' ih mode).obj ∨ (∃ x, (verify env o ih mode).out = .error x) ∨
      (ih ≠ .raise ∧ Alike (verify env o ih mode).obj (verify env o' ih mode).obj ∧
        ∃ o2 s, s ≠ [] ∧ (verify env o ih mode).out = (verifyEarly o2 ih (section_ (py% "Detected data of wrong type:\n") s)).out)) := by
  unfold verify verifyG
  rcases sameData_reset (env := env) h with ⟨x, h1, h2⟩ | ⟨o1, o1', h1, h2, ha⟩
  · rw [h1, h2]
    exact ⟨rfl, rfl, h, Or.inr (Or.inl ⟨_, rfl⟩)⟩
  · rw [h1, h2]
    simp only
    rw [ha.conv, ha.keys]
    obtain ⟨h3, h4⟩ := Alike.fillMissing (decide (ih ≠ .raise)) o1.keys o1.conv ha
    have hfr := (fillMissing_frame (decide (ih ≠ .raise)) o1.keys o1.conv o1).2
    have hks : ∀ k ∈ o1.keys, k ∈ (Sofar.fillMissing (decide (ih ≠ .raise)) o1.keys o1.conv o1).2.keys := by
      intro k hk
      have hk' : Dict.has o1.attrs k = true := (Dict.has_iff_mem _ _).2 hk
      obtain ⟨v, hv⟩ := (Dict.has_iff _ _).1 hk'
      rcases hfr k with e | ⟨_, hn, _⟩
      · exact (Dict.has_iff_mem _ _).1 ((Dict.has_iff _ _).2 ⟨v, e.trans hv⟩)
      · exact absurd hk hn
    rw [h3]
    cases hf : (Sofar.fillMissing (decide (ih ≠ .raise)) o1.keys o1.conv o1).1 with
    | error x => exact ⟨rfl, rfl, h4.same, Or.inr (Or.inl ⟨_, rfl⟩)⟩
    | ok missing =>
      simp only
      rw [h4.phaseTypes hks, h4.referenceNames]
      cases hp : Sofar.phaseTypes env (Sofar.fillMissing (decide (ih ≠ .raise)) o1.keys o1.conv o1).2 o1.keys with
      | error x => exact ⟨rfl, rfl, h4.same, Or.inr (Or.inl ⟨_, rfl⟩)⟩
      | ok e2 =>
        simp only
        generalize hw : (if ih = .raise then [] else section_ (py% "Added mandatory data with default values:\n") missing) = w1
        by_cases hr : ih = .raise
        · subst hr
          simp only [if_true]
          split
          · rename_i hc
            have hne : ¬ (section_ (py% "Detected missing mandatory data call sofa.add_missing() to fix this):\n") missing ++ e2).isEmpty = true := by
              simp only [Bool.and_eq_true, Bool.not_eq_true'] at hc
              simp [hc.1]
            unfold verifyEarly handleIssues
            rw [if_neg hne]
            exact ⟨rfl, rfl, h4.same, Or.inr (Or.inl ⟨_, rfl⟩)⟩
          · obtain ⟨⟨h5, h6, h7⟩, h8⟩ := h4.verifyBody (env := env) (Sofar.referenceNames env (Sofar.fillMissing (decide (IH.raise ≠ .raise)) o1.keys o1.conv o1).2) o1.keys .raise mode w1 (section_ (py% "Detected missing mandatory data call sofa.add_missing() to fix this):\n") missing ++ e2)
            exact ⟨h5, h6, h7.same, h8.imp id Or.inl⟩
        · simp only [if_neg hr, List.nil_append]
          split
          · rename_i hc
            obtain ⟨g1, g2⟩ := verifyEarly_same (Sofar.fillMissing (decide (ih ≠ .raise)) o1.keys o1.conv o1).2
              (Sofar.fillMissing (decide (ih ≠ .raise)) o1.keys o1.conv o1').2 ih e2
            refine ⟨g1, g2, ?_, ?_⟩
            · rw [verifyEarly_obj, verifyEarly_obj]; exact h4.same
            · refine Or.inr (Or.inr ⟨hr, ?_, ?_⟩)
              · rw [verifyEarly_obj, verifyEarly_obj]; exact h4
              · unfold Sofar.phaseTypes at hp
                cases hc2 : concatE (typeErrorKey env (Sofar.fillMissing (decide (ih ≠ .raise)) o1.keys o1.conv o1).2) o1.keys with
                | error x => rw [hc2] at hp; cases hp
                | ok s =>
                  rw [hc2] at hp
                  cases hp
                  refine ⟨_, s, ?_, rfl⟩
                  rintro rfl
                  simp [section_] at hc
          · obtain ⟨⟨h5, h6, h7⟩, h8⟩ := h4.verifyBody (env := env) (Sofar.referenceNames env (Sofar.fillMissing (decide (ih ≠ .raise)) o1.keys o1.conv o1).2) o1.keys ih mode w1 e2
            exact ⟨h5, h6, h7.same, h8.imp id Or.inl⟩

end Sofar
