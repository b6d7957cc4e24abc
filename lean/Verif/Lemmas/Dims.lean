import Verif.Lemmas.VerifyOk
/-!
# Dimensions detected by `verify(issue_handling="return")`
-/
namespace Sofar

theorem hasSub_iff (s p : Str) : Str.hasSub s p = true ↔ p <:+: s := by
  induction s with
  | nil => simp [Str.hasSub, List.isEmpty_iff]
  | cons c t ih =>
    simp only [Str.hasSub, Bool.or_eq_true, List.isPrefixOf_iff_prefix, ih, List.infix_cons_iff]

/-- the state after `verify(issue_handling="return")` without errors in types and shapes -/
structure DimsOk (o o1 o2 : Obj) (api : Dict Nat) (dims : Dict Str) (o' : Obj) (env : Env) : Prop where
  reset : resetConvention env o = .ok o1
  fill : (fillMissing true o1.keys o1.conv o1).2 = o2
  types : phaseTypes env o2 o1.keys = .ok []
  obj : o' = { o2 with prot := true, dims := some dims, api := some api }
  apiOk : ApiOk o2 api
  shapes : ∀ k ∈ dimKeys o2, ∃ m, Dict.get? dims k = some m ∧
    ShapeOk { o2 with prot := true, dims := some [], api := some api } api k m

theorem tail_ret {env : Env} {o : Obj} {mode : Mode} {w e : Str} {ev : List Event} {r : Option Str}
    (h : (verifyTail env o .ret mode w e ev).out = .ok r) (he : e ≠ []) : ∃ t, r = some t ∧ e <:+: t := by
  unfold verifyTail at h
  cases h6 : phaseRules env o mode with
  | error x => simp [h6] at h
  | ok e6 =>
    cases h8 : phaseDeprecations env o mode with
    | error x => simp [h6, h8] at h
    | ok p =>
      obtain ⟨e8, w8⟩ := p
      simp only [h6, h8] at h
      rw [handle_err _ _ _ (by simp [he]) (by decide)] at h
      simp only [beq_self_eq_true, Bool.and_self, if_true, Except.ok.injEq] at h
      refine ⟨_, h.symm, ?_⟩
      refine ⟨errorHeader, e6 ++ e8 ++
        (if (w ++ w8).isEmpty = true then [] else py% "\n" ++ (warningHeader ++ (w ++ w8))), ?_⟩
      simp only [List.append_assoc]

theorem verify_ret_dims {env : Env} {o : Obj} {mode : Mode} {r : Option Str}
    (h : (verify env o .ret mode).out = .ok r)
    (h1 : ∀ t, r = some t → ¬ (py% "data of wrong type") <:+: t ∧ ¬ (py% "variables of wrong shape") <:+: t) :
    ∃ o1 o2 api dims, DimsOk o o1 o2 api dims (verify env o .ret mode).obj env := by
  unfold verify verifyG at h ⊢
  cases hr : resetConvention env o with
  | error x => simp [hr] at h
  | ok o1 =>
    simp only [hr] at h ⊢
    generalize hf : fillMissing (decide (IH.ret ≠ .raise)) o1.keys o1.conv o1 = f at h
    obtain ⟨f1, o2⟩ := f
    cases f1 with
    | error x => simp at h
    | ok missing =>
      simp only [reduceCtorEq, if_false, List.nil_append] at h ⊢
      cases ht : phaseTypes env o2 o1.keys with
      | error x => simp [ht] at h
      | ok e2 =>
        simp only [ht] at h ⊢
        by_cases he : e2 = []
        · subst he
          simp only [List.isEmpty_nil, Bool.not_true, Bool.false_and, Bool.false_eq_true, if_false] at h ⊢
          unfold verifyBody at h ⊢
          cases hn : phaseNames o2 o1.keys with
          | error x => simp [hn] at h
          | ok e3 =>
            simp only [hn] at h ⊢
            cases hc : (phaseCustomNames (referenceNames env o2) o2).1 with
            | error x => simp [hc] at h
            | ok e3' =>
              simp only [hc] at h ⊢
              cases hd : (phaseDims o2).1 with
              | error x => simp [hd] at h
              | ok u =>
                simp only [hd] at h ⊢
                obtain ⟨api, ha, hapi⟩ := phaseDims_ok hd
                rw [ha] at h ⊢
                cases hs : (phaseShapes { o2 with prot := true, dims := some [], api := some api }).1 with
                | error x => simp [hs] at h
                | ok e5 =>
                  simp only [hs, verifyTail_obj] at h ⊢
                  have h5 : e5 = [] := by
                    by_cases h5 : e5 = []
                    · exact h5
                    · exfalso
                      obtain ⟨t, h2, h3⟩ := tail_ret h (by simp [h5])
                      refine (h1 t h2).2 (List.IsInfix.trans ?_ h3)
                      have h6 : (py% "variables of wrong shape") <:+: e5 := by
                        unfold phaseShapes at hs
                        simp only at hs
                        split at hs
                        · simp at hs
                        · simp only [Except.ok.injEq] at hs
                          rw [← hs]
                          unfold section_
                          split
                          · rename_i hb
                            rw [section_, if_pos hb] at hs
                            exact absurd hs.symm h5
                          · exact ⟨py% "Detected ", py% ":\n" ++ _, by simp; rfl⟩
                      exact h6.trans (List.suffix_append _ _).isInfix
                  subst h5
                  have hp : phaseShapes { o2 with prot := true, dims := some [], api := some api } =
                      (.ok [], (phaseShapes { o2 with prot := true, dims := some [], api := some api }).2) :=
                    Prod.ext hs rfl
                  obtain ⟨dims, hdd, hk⟩ := phaseShapes_nil hp
                  refine ⟨o1, o2, api, dims, hr, (congrArg Prod.snd hf :),
                    ht, by rw [hdd], hapi, hk⟩
        · exfalso
          have he' : e2.isEmpty = false := by simpa [List.isEmpty_iff] using he
          rw [if_pos (by simp [he'])] at h
          unfold verifyEarly at h
          simp only at h
          rw [handle_err _ _ _ he (by decide)] at h
          simp only [Except.ok.injEq] at h
          refine (h1 _ h.symm).1 ?_
          have h6 : (py% "data of wrong type") <:+: e2 := by
            unfold phaseTypes at ht
            split at ht
            · simp at ht
            · simp only [Except.ok.injEq] at ht
              rw [← ht]
              unfold section_
              split
              · rename_i hb
                rw [section_, if_pos hb] at ht
                exact absurd ht.symm he
              · exact ⟨py% "Detected ", py% ":\n" ++ _, by simp; rfl⟩
          simp only [List.isEmpty_nil, if_true, List.append_nil]
          exact h6.trans (List.suffix_append _ _).isInfix

theorem ShapeOk.use {o : Obj} {api : Dict Nat} {k m : Str} {e : Entry} {v : Val} {d : Str} (h : ShapeOk o api k m)
    (hv : Dict.get? o.attrs k = some v) (he : Dict.get? o.conv k = some e) (hd : e.dims = some d) :
    ∃ alt act, alt ∈ Str.splitCommaSpace d ∧ m = Str.upper alt ∧
      actualShape k e.typ d v = .ok act ∧
      compareShape act alt.length = alt.map (fun c => if c = 'S' then 1 else sizeIn api (Str.upperC c)) ∧
      ∀ c ∈ alt, c ≠ 'S' → ∃ n, Dict.get? api [Str.upperC c] = some n := by
  obtain ⟨e', v', d', alt, act, a1, a2, a3, a4, a5, a6, a7⟩ := h.ex
  rw [getAttr_of_get hv] at a2
  cases a2
  rw [he] at a1
  cases a1
  rw [hd] at a3
  cases a3
  obtain ⟨b1, b2⟩ := refShape_ok a7
  exact ⟨alt, act, a5, a6, a4, b1, b2⟩

theorem getElem?_compareShape {act : List Nat} {n i : Nat} (h : i < n) :
    (compareShape act n)[i]? = some (act.getD i 1) := by
  unfold compareShape Arr.padOnes
  rw [List.getElem?_append]
  by_cases hi : i < act.length
  · rw [if_pos (by simp; omega), List.getElem?_take_of_lt h]
    simp [hi]
  · rw [if_neg (by simp; omega), List.getElem?_replicate]
    simp only [List.length_take]
    rw [if_pos (by omega)]
    simp only [List.getD_eq_getElem?_getD, Option.some.injEq]
    rw [List.getElem?_eq_none (by omega)]
    rfl

theorem prod_eq (s : List Nat) : s.foldr (· * ·) 1 = Spec.prod s := by
  induction s with
  | nil => rfl
  | cons n s ih => simp [Spec.prod, ih]

theorem getD_padOnes (n : Nat) (s : List Nat) (i : Nat) : (Arr.padOnes n s).getD i 1 = s.getD i 1 := by
  unfold Arr.padOnes
  simp only [List.getD_eq_getElem?_getD]
  rw [List.getElem?_append]
  split
  · rfl
  · rename_i h
    rw [List.getElem?_replicate, List.getElem?_eq_none (by omega : s.length ≤ i)]
    split <;> rfl

/-- the shapes that are compared are the sizes of the axes -/
theorem actualShape_axis {k typ d : Str} {v : Val} {act : List Nat} (h : actualShape k typ d v = .ok act)
    (hc : ',' ∉ firstAlt d) (i : Nat) :
    act.getD i 1 =
      Spec.axisSize (decide (typ = py% "attribute" ∨ typ = py% "string")) (firstAlt d).length v.shape i := by
  unfold actualShape at h
  unfold Spec.axisSize
  by_cases hs : typ = py% "attribute" ∨ typ = py% "string"
  · rw [if_pos hs] at h
    rw [if_pos (by simpa using hs)]
    cases hv : stringVar v k with
    | error x => simp [hv] at h
    | ok p =>
      obtain ⟨m, s⟩ := p
      simp only [hv, Except.ok.injEq] at h
      subst h
      rcases stringVar_shape hv with ⟨h1, h2⟩ | h
      rotate_left
      · rw [h]
      · rw [h1, h2]
        match i with
        | 0 => rfl
        | 1 => rfl
        | i + 2 => simp
  · rw [if_neg hs] at h
    rw [if_neg (by simpa using hs), ]
    rw [splitChar_head hc] at h
    by_cases hl : 1 < (firstAlt d).length
    · rw [if_pos hl] at h
      rw [if_neg (by omega)]
      simp only [Except.ok.injEq] at h
      have h4 : Arr.atleastNdShape 4 v.shape = Arr.padOnes 4 (Arr.atleast3 v.shape) := rfl
      rw [← h, h4, getD_padOnes]
      generalize v.shape = s
      match s, i with
      | [], 0 => rfl
      | [], 1 => rfl
      | [], 2 => rfl
      | [], i + 3 => simp [Arr.atleast3]
      | [n], 0 => rfl
      | [n], 1 => rfl
      | [n], 2 => rfl
      | [n], i + 3 => simp [Arr.atleast3]
      | [m, n], 0 => rfl
      | [m, n], 1 => rfl
      | [m, n], 2 => rfl
      | [m, n], i + 3 => simp [Arr.atleast3]
      | a :: b :: c :: l, i => rfl
    · rw [if_neg hl] at h
      rw [if_pos (by omega)]
      simp only [Except.ok.injEq] at h
      rw [← h, prod_eq]
      match i with
      | 0 => rfl
      | i + 1 => simp

theorem longest_eq (v : Val) : maxLen v = Spec.longest (Spec.elems v) := by
  unfold maxLen
  generalize Spec.elems v = l
  induction l with
  | nil => rfl
  | cons e l ih => cases e <;> simp [elemLen, Spec.longest, List.filterMap_cons, ih]

theorem firstAlt_of_isFirst {d a : Str} (h : Spec.IsFirstAlternative d a) : firstAlt d = a := by
  obtain ⟨after, h1, h2⟩ := h
  have := splitCommaSpace_join (a :: after) (by simp) h2
  rw [h1] at this
  simp [firstAlt, this]

theorem updateDimensions_ok {env : Env} {o : Obj} (h : (updateDimensions env o).out = .ok ()) :
    (updateDimensions env o).obj = (verify env o .ret .write).obj ∧
    ∃ o1 o2 api dims, DimsOk o o1 o2 api dims (updateDimensions env o).obj env := by
  unfold updateDimensions at h ⊢
  simp only at h ⊢
  cases hv : (verify env o .ret .write).out with
  | error x => simp [hv] at h
  | ok r =>
    cases r with
    | none =>
      simp only [hv] at h ⊢
      exact ⟨trivial, verify_ret_dims hv (by simp)⟩
    | some t =>
      simp only [hv] at h ⊢
      split at h
      · simp at h
      · rename_i hc
        rw [if_neg hc]
        refine ⟨rfl, verify_ret_dims hv ?_⟩
        rintro t' ht
        cases ht
        simp only [Bool.or_eq_true, hasSub_iff, not_or] at hc
        exact hc.1

theorem getDimension_ok {env : Env} {o : Obj} {d : Str} {n : Nat} (h : (getDimension env o d).out = .ok n) :
    ∃ o1 o2 api dims, DimsOk o o1 o2 api dims (getDimension env o d).obj env ∧ Dict.get? api d = some n := by
  unfold getDimension at h ⊢
  simp only at h ⊢
  cases hu : (updateDimensions env o).out with
  | error x => simp [hu] at h
  | ok u =>
    obtain ⟨_, o1, o2, api, dims, hd⟩ := updateDimensions_ok hu
    have ha : (updateDimensions env o).obj.api = some api := by rw [hd.obj]
    simp only [hu, ha] at h ⊢
    cases hg : Dict.get? api d with
    | none => simp [hg] at h
    | some m =>
      simp only [hg, Except.ok.injEq] at h ⊢
      exact ⟨o1, o2, api, dims, hd, by rw [hg, h]⟩

theorem getAttr_ok {o : Obj} {k : Str} {v : Val} (h : o.getAttr k = .ok v) :
    Dict.get? o.attrs k = some v ∨ (Dict.get? o.attrs k = none ∧ v = .obj 0 ∧ o.hasAttr k = true) := by
  unfold Obj.getAttr at h
  cases hg : Dict.get? o.attrs k with
  | some w => simp only [hg, Except.ok.injEq] at h; rw [h]; exact Or.inl rfl
  | none =>
    simp only [hg] at h
    split at h
    · rename_i hh
      simp only [Except.ok.injEq] at h
      exact Or.inr ⟨rfl, h.symm, hh⟩
    · simp at h

end Sofar
