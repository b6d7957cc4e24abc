import Verif.Model.Init
import Verif.Lemmas.Custom
/-! # Lemmas on verification -/
namespace Sofar

theorem concatE_nil_iff {α : Type} (f : α → Except Exc Str) (l : List α) :
    concatE f l = .ok [] ↔ ∀ x ∈ l, f x = .ok [] := by
  induction l with
  | nil => simp [concatE]
  | cons x l ih =>
    simp only [concatE, List.mem_cons, forall_eq_or_imp]
    cases hx : f x with
    | error e => simp
    | ok s =>
      cases hl : concatE f l with
      | error e => simp only [hl] at ih; simp [← ih]
      | ok t =>
        simp only [hl] at ih
        simp only [Except.ok.injEq, List.append_eq_nil_iff]
        simp only [Except.ok.injEq] at ih
        rw [ih]

theorem concatE_congr {α : Type} {f g : α → Except Exc Str} {l : List α} (h : ∀ x ∈ l, f x = g x) :
    concatE f l = concatE g l := by
  induction l with
  | nil => rfl
  | cons x l ih =>
    simp only [concatE]
    rw [h x (by simp), ih (fun y hy => h y (by simp [hy]))]

theorem section_nil_iff (h b : Str) (hh : h ≠ []) : section_ h b = [] ↔ b = [] := by
  unfold section_
  cases b with
  | nil => simp
  | cons a t => simp [hh]

/-! ## Phase 1 -/

theorem keys_prefix_put {V : Type} (d : Dict V) (k : Str) (v : V) : Dict.keys d <+: Dict.keys (Dict.put d k v) := by
  rw [Dict.keys_put]
  split
  · exact List.prefix_refl _
  · exact List.prefix_append _ _

/-- What an object keeps when default values are added to it. -/
structure SameApi (o o' : Obj) : Prop where
  conv : o'.conv = o.conv
  custom : o'.custom = o.custom
  readOnly : o'.readOnly = o.readOnly
  dims : o'.dims = o.dims
  api : o'.api = o.api
  keys : o.keys <+: o'.keys

theorem SameApi.refl (o : Obj) : SameApi o o := ⟨rfl, rfl, rfl, rfl, rfl, List.prefix_refl _⟩

theorem SameApi.trans {a b c : Obj} (h : SameApi a b) (g : SameApi b c) : SameApi a c :=
  ⟨g.conv.trans h.conv, g.custom.trans h.custom, g.readOnly.trans h.readOnly, g.dims.trans h.dims,
    g.api.trans h.api, h.keys.trans g.keys⟩

theorem addDefault_frame (o : Obj) (k : Str) (d : Inp) :
    SameApi o (addDefault o k d).2 ∧
    (∀ j, Dict.get? (addDefault o k d).2.attrs j = Dict.get? o.attrs j ∨
      (j = k ∧ ∃ v, normalise d = .ok v ∧ Dict.get? (addDefault o k d).2.attrs j = some v)) := by
  unfold addDefault
  simp only
  rcases setAttr_cases { o with prot := false } k d with ⟨e, h1, h2, _⟩ | ⟨b, _, _, _, h2⟩ | ⟨w, hw, _, _, _, h2, _⟩
  · simp only [h1, h2]
    exact ⟨⟨rfl, rfl, rfl, rfl, rfl, List.prefix_refl _⟩, fun j => Or.inl trivial⟩
  · simp only [h2]
    exact ⟨⟨rfl, rfl, rfl, rfl, rfl, List.prefix_refl _⟩, fun j => Or.inl trivial⟩
  · simp only [h2]
    refine ⟨⟨rfl, rfl, rfl, rfl, rfl, keys_prefix_put _ _ _⟩, ?_⟩
    intro j
    by_cases hj : j = k
    · subst hj; right; exact ⟨rfl, w, hw, by simp⟩
    · left; exact Dict.get?_put_ne _ _ hj

theorem fillMissing_frame (b : Bool) (keys : List Str) (l : Dict Entry) (o : Obj) :
    SameApi o (fillMissing b keys l o).2 ∧
    (∀ j, Dict.get? (fillMissing b keys l o).2.attrs j = Dict.get? o.attrs j ∨
      (b = true ∧ j ∉ keys ∧ ∃ e v, (j, e) ∈ l ∧ mandatory e.flags = true ∧ normalise e.default = .ok v ∧
        Dict.get? (fillMissing b keys l o).2.attrs j = some v)) := by
  induction l generalizing o with
  | nil => exact ⟨SameApi.refl _, fun j => Or.inl rfl⟩
  | cons p l ih =>
    obtain ⟨k, e⟩ := p
    simp only [fillMissing]
    by_cases hc : (mandatory e.flags && ! keys.contains k) = true
    · simp only [hc, if_true]
      have hk : k ∉ keys := by simpa using (Bool.and_eq_true_iff.1 hc).2
      have hm : mandatory e.flags = true := (Bool.and_eq_true_iff.1 hc).1
      generalize hr : (if b = true then addDefault o k e.default else (Except.ok (), o)) = r
      have hf : SameApi o r.2 ∧ (∀ j, Dict.get? r.2.attrs j = Dict.get? o.attrs j ∨
          (b = true ∧ j = k ∧ ∃ v, normalise e.default = .ok v ∧ Dict.get? r.2.attrs j = some v)) := by
        cases b with
        | true =>
          simp only [if_true] at hr; rw [← hr]
          have := addDefault_frame o k e.default
          exact ⟨this.1, fun j => (this.2 j).imp id (fun h => ⟨rfl, h⟩)⟩
        | false =>
          simp only [Bool.false_eq_true, if_false] at hr
          rw [← hr]
          exact ⟨SameApi.refl _, fun j => Or.inl rfl⟩
      obtain ⟨f1, f2⟩ := hf
      cases h1 : r.1 with
      | error x =>
        simp only
        refine ⟨f1, fun j => (f2 j).imp id ?_⟩
        rintro ⟨hb, rfl, v, hv, hg⟩
        exact ⟨hb, hk, e, v, by simp, hm, hv, hg⟩
      | ok u =>
        simp only
        have ih' := ih r.2
        generalize hq : fillMissing b keys l r.2 = q at ih'
        have key : SameApi o q.2 ∧ (∀ j, Dict.get? q.2.attrs j = Dict.get? o.attrs j ∨
            (b = true ∧ j ∉ keys ∧ ∃ e' v, (j, e') ∈ (k, e) :: l ∧ mandatory e'.flags = true ∧
              normalise e'.default = .ok v ∧ Dict.get? q.2.attrs j = some v)) := by
          refine ⟨f1.trans ih'.1, fun j => ?_⟩
          rcases ih'.2 j with h | ⟨hb, hj, e', v, h6, h7⟩
          · rcases f2 j with h' | ⟨hb, rfl, v, hv, hg⟩
            · exact Or.inl (h.trans h')
            · exact Or.inr ⟨hb, hk, e, v, by simp, hm, hv, h.trans hg⟩
          · exact Or.inr ⟨hb, hj, e', v, List.mem_cons_of_mem _ h6, h7⟩
        cases q.1 with
        | error x => exact key
        | ok s => exact key
    · simp only [hc]
      obtain ⟨g1, g2⟩ := ih o
      refine ⟨g1, fun j => (g2 j).imp id ?_⟩
      rintro ⟨hb, hj, e', v, h6, h7⟩
      exact ⟨hb, hj, e', v, List.mem_cons_of_mem _ h6, h7⟩

theorem fillMissing_raise (keys : List Str) (l : Dict Entry) (o : Obj) : (fillMissing false keys l o).2 = o := by
  induction l with
  | nil => rfl
  | cons p l ih =>
    obtain ⟨k, e⟩ := p
    simp only [fillMissing]
    split
    · simp only [Bool.false_eq_true, if_false]
      cases h : (fillMissing false keys l o).1 <;> simp [ih]
    · exact ih

theorem fillMissing_nil_iff (b : Bool) (keys : List Str) (l : Dict Entry) (o : Obj) :
    (fillMissing b keys l o).1 = .ok [] ↔ ∀ p ∈ l, mandatory p.2.flags = true → p.1 ∈ keys := by
  induction l generalizing o with
  | nil => simp [fillMissing]
  | cons p l ih =>
    obtain ⟨k, e⟩ := p
    simp only [fillMissing, List.mem_cons, forall_eq_or_imp]
    by_cases hc : (mandatory e.flags && ! keys.contains k) = true
    · simp only [hc, if_true]
      have hk : k ∉ keys := by simpa using (Bool.and_eq_true_iff.1 hc).2
      have hm : mandatory e.flags = true := (Bool.and_eq_true_iff.1 hc).1
      have h1 : ¬ ((mandatory e.flags = true → k ∈ keys) ∧ ∀ p ∈ l, mandatory p.2.flags = true → p.1 ∈ keys) :=
        fun h => hk (h.1 hm)
      simp only [h1, iff_false]
      split
      · simp
      · split
        · simp
        · simp [line]
    · simp only [hc]
      rw [if_neg (by simp), ih]
      have : mandatory e.flags = true → k ∈ keys := by
        intro hm
        simpa [hm] using hc
      exact ⟨fun h => ⟨this, h⟩, fun h => h.2⟩

theorem fillMissing_noop (b : Bool) (keys : List Str) (l : Dict Entry) (o : Obj)
    (h : ∀ p ∈ l, mandatory p.2.flags = true → p.1 ∈ keys) : fillMissing b keys l o = (.ok [], o) := by
  induction l with
  | nil => rfl
  | cons p l ih =>
    obtain ⟨k, e⟩ := p
    simp only [fillMissing]
    have h1 : (mandatory e.flags && ! keys.contains k) = false := by
      cases hm : mandatory e.flags with
      | false => rfl
      | true => simpa using h (k, e) (by simp) hm
    rw [h1]
    simp only [Bool.false_eq_true, if_false]
    exact ih (fun p hp => h p (List.mem_cons_of_mem _ hp))

/-! ## The whole method -/

theorem verifyEarly_obj (o : Obj) (ih : IH) (e : Str) : (verifyEarly o ih e).obj = o := by
  unfold verifyEarly
  simp only
  split <;> rfl

theorem verifyTail_obj (env : Env) (o : Obj) (ih : IH) (mode : Mode) (w e : Str) (ev : List Event) :
    (verifyTail env o ih mode w e ev).obj = o := by
  unfold verifyTail
  split
  · rfl
  · split
    · rfl
    · split
      · rfl
      · simp only
        split <;> rfl

theorem phaseDims_obj (o : Obj) : ∃ a, (phaseDims o).2 = { o with prot := true, dims := some [], api := a } := by
  unfold phaseDims
  simp only
  split <;> exact ⟨_, rfl⟩

theorem phaseShapes_obj (o : Obj) : ∃ d, (phaseShapes o).2 = { o with dims := d } := by
  unfold phaseShapes
  simp only
  split <;> exact ⟨_, rfl⟩

theorem verifyBody_obj (inner : Inner) (env : Env) (o : Obj) (keys : List Str) (ih : IH) (mode : Mode) (w e : Str) :
    ∃ p d a, (verifyBody inner env o keys ih mode w e).obj = { o with prot := p, dims := d, api := a } := by
  unfold verifyBody
  obtain ⟨a, ha⟩ := phaseDims_obj o
  obtain ⟨d, hd⟩ := phaseShapes_obj (phaseDims o).2
  simp only
  split
  · exact ⟨_, _, _, rfl⟩
  · split
    · exact ⟨_, _, _, rfl⟩
    · split
      · exact ⟨_, _, _, ha⟩
      · split
        · rw [hd, ha]; exact ⟨_, _, _, rfl⟩
        · rw [verifyTail_obj, hd, ha]; exact ⟨_, _, _, rfl⟩

/-- What `verify` can change. -/
structure VerifyFrame (env : Env) (o : Obj) (ih : IH) (o' : Obj) : Prop where
  readOnly : o'.readOnly = o.readOnly
  keys : o.keys <+: o'.keys
  customSome : o'.custom.isSome = o.custom.isSome
  attrs : ∀ j, Dict.get? o'.attrs j = Dict.get? o.attrs j ∨
      (ih ≠ .raise ∧ j ∉ o.keys ∧ ∃ o1 e v, resetConvention env o = .ok o1 ∧ (j, e) ∈ o1.conv ∧
        mandatory e.flags = true ∧ normalise e.default = .ok v ∧ Dict.get? o'.attrs j = some v)
  raise : ih = .raise → o'.attrs = o.attrs
  conv : o' = o ∨ ∃ o1, resetConvention env o = .ok o1 ∧ o'.conv = o1.conv ∧ o'.custom = o1.custom
  loaded : ∀ o1, resetConvention env o = .ok o1 → o'.conv = o1.conv ∧ o'.custom = o1.custom

theorem verifyG_frame (inner : Env → Obj → Inner) (env : Env) (o : Obj) (ih : IH) (mode : Mode) :
    VerifyFrame env o ih (verifyG inner env o ih mode).obj := by
  unfold verifyG
  cases hr : resetConvention env o with
  | error x =>
    exact ⟨rfl, List.prefix_refl _, rfl, fun j => Or.inl rfl, fun _ => rfl, Or.inl rfl,
      fun o1 h => by rw [hr] at h; cases h⟩
  | ok o1 =>
    obtain ⟨c, k, h1, h2⟩ := resetConvention_frame hr
    have hf := fillMissing_frame (decide (ih ≠ .raise)) o1.keys o1.conv o1
    have hf' := fillMissing_raise o1.keys o1.conv o1
    simp only
    generalize hfm : fillMissing (decide (ih ≠ .raise)) o1.keys o1.conv o1 = f at hf
    obtain ⟨f1, f2⟩ := hf
    have hkeys : o1.keys = o.keys := by rw [h1]; rfl
    have hattrs : o1.attrs = o.attrs := by rw [h1]
    have base : ∀ o' : Obj, o'.attrs = f.2.attrs → o'.conv = f.2.conv → o'.custom = f.2.custom →
        o'.readOnly = f.2.readOnly → VerifyFrame env o ih o' := by
      intro o' a1 a2 a3 a4
      refine ⟨?_, ?_, ?_, ?_, ?_, Or.inr ⟨o1, hr, a2.trans f1.conv, a3.trans f1.custom⟩,
        fun o2 h => by rw [hr] at h; cases h; exact ⟨a2.trans f1.conv, a3.trans f1.custom⟩⟩
      · rw [a4, f1.readOnly, h1]
      · have := f1.keys
        rw [hkeys] at this
        simpa [Obj.keys, a1] using this
      · rw [a3, f1.custom, h1]; exact h2
      · intro j
        rw [a1]
        rcases f2 j with h | ⟨hb, hj, e, v, he, hm, hn, hg⟩
        · left; rw [h, hattrs]
        · right; exact ⟨by simpa using hb, hkeys ▸ hj, o1, e, v, hr, he, hm, hn, hg⟩
      · rintro rfl
        rw [a1, ← hattrs, ← hfm]
        exact congrArg Obj.attrs hf'
    split
    · exact base _ rfl rfl rfl rfl
    · rename_i missing _
      split
      · exact base _ rfl rfl rfl rfl
      · rename_i e2 _
        generalize (if ih = IH.raise then [] else _) = w
        generalize (if ih = IH.raise then _ else _) ++ e2 = e
        by_cases hc : (!e.isEmpty && ih != IH.ignore) = true
        · rw [if_pos hc, verifyEarly_obj]; exact base _ rfl rfl rfl rfl
        · rw [if_neg hc]
          obtain ⟨p, d, a, hb⟩ := verifyBody_obj (inner env f.2) env f.2 o1.keys ih mode w e
          rw [hb]; exact base _ rfl rfl rfl rfl

/-! ## When verification with `issue_handling="raise"` succeeds -/

theorem handleIssues_raise_ok (w e : Str) (x : Bool × Option Str) :
    (handleIssues w e .raise).out = .ok x → e = [] ∧ x.1 = false := by
  unfold handleIssues
  cases e with
  | nil => simp; rintro rfl; rfl
  | cons a t => simp

theorem handleIssues_nil (w : Str) (ih : IH) : ∃ i, (handleIssues w [] ih).out = .ok (false, i) := by
  unfold handleIssues
  cases w <;> cases ih <;> simp

/-- All phases succeed without error text. -/
structure Passes (inner : Inner) (env : Env) (o1 o3 : Obj) (mode : Mode) : Prop where
  mandatory : ∀ p ∈ o1.conv, mandatory p.2.flags = true → p.1 ∈ o1.keys
  types : phaseTypes env o1 o1.keys = .ok []
  names : phaseNames o1 o1.keys = .ok []
  custom : (phaseCustomNames inner o1).1 = .ok []
  dims : (phaseDims o1).1 = .ok ()
  shapes : phaseShapes (phaseDims o1).2 = (.ok [], o3)
  rules : phaseRules env o3 mode = .ok []
  deprec : ∃ w, phaseDeprecations env o3 mode = .ok ([], w)

theorem verifyTail_raise_ok_iff (env : Env) (o : Obj) (mode : Mode) (w e : Str) (ev : List Event)
    (r : Option Str) :
    (verifyTail env o .raise mode w e ev).out = .ok r ↔
      e = [] ∧ phaseRules env o mode = .ok [] ∧ (∃ w8, phaseDeprecations env o mode = .ok ([], w8)) ∧ r = none := by
  unfold verifyTail
  cases h1 : phaseRules env o mode with
  | error x => simp
  | ok e6 =>
    simp only
    cases h2 : phaseDeprecations env o mode with
    | error x => simp
    | ok p =>
      obtain ⟨e8, w8⟩ := p
      simp only
      constructor
      · intro h
        cases h3 : (handleIssues (w ++ w8) (e ++ e6 ++ e8) .raise).out with
        | error x => simp only [h3] at h; simp at h
        | ok x =>
          have h4 := handleIssues_raise_ok _ _ _ h3
          simp only [List.append_eq_nil_iff] at h4
          obtain ⟨⟨⟨rfl, rfl⟩, rfl⟩, h5⟩ := h4
          simp only [h3, h5] at h
          refine ⟨rfl, rfl, ⟨w8, rfl⟩, ?_⟩
          simpa using h.symm
      · rintro ⟨rfl, h3, ⟨w8', h4⟩, rfl⟩
        simp only [Except.ok.injEq] at h3
        simp only [Except.ok.injEq, Prod.mk.injEq] at h4
        obtain ⟨rfl, rfl⟩ := h4
        subst h3
        obtain ⟨i, hi⟩ := handleIssues_nil (w ++ w8) .raise
        simp [hi]

theorem verifyBody_raise_ok_iff (inner : Inner) (env : Env) (o : Obj) (mode : Mode) (w e : Str) (r : Option Str) :
    (verifyBody inner env o o.keys .raise mode w e).out = .ok r ↔
      e = [] ∧ phaseNames o o.keys = .ok [] ∧ (phaseCustomNames inner o).1 = .ok [] ∧ (phaseDims o).1 = .ok () ∧
      (phaseShapes (phaseDims o).2).1 = .ok [] ∧ phaseRules env (phaseShapes (phaseDims o).2).2 mode = .ok [] ∧
      (∃ w8, phaseDeprecations env (phaseShapes (phaseDims o).2).2 mode = .ok ([], w8)) ∧ r = none := by
  unfold verifyBody
  cases h1 : phaseNames o o.keys with
  | error x => simp
  | ok e3 =>
    simp only
    cases h2 : (phaseCustomNames inner o).1 with
    | error x => simp
    | ok e3' =>
      simp only
      cases h3 : (phaseDims o).1 with
      | error x => simp
      | ok u =>
        simp only
        cases h4 : (phaseShapes (phaseDims o).2).1 with
        | error x => simp
        | ok e5 =>
          simp only [verifyTail_raise_ok_iff, List.append_eq_nil_iff, Except.ok.injEq]
          grind

theorem verifyG_raise_ok_iff (inner : Env → Obj → Inner) (env : Env) (o : Obj) (mode : Mode) (r : Option Str) :
    (verifyG inner env o .raise mode).out = .ok r ↔
      r = none ∧ ∃ o1 o3, resetConvention env o = .ok o1 ∧ Passes (inner env o1) env o1 o3 mode := by
  unfold verifyG
  cases hr : resetConvention env o with
  | error x => simp
  | ok o1 =>
    have hf := fillMissing_raise o1.keys o1.conv o1
    have hn := fillMissing_nil_iff false o1.keys o1.conv o1
    simp only [ne_eq, not_true_eq_false, decide_false, if_true]
    generalize fillMissing false o1.keys o1.conv o1 = f at hf hn
    obtain ⟨f1, f2⟩ := f
    simp only at hf hn
    subst hf
    cases f1 with
    | error x =>
      simp only
      constructor
      · simp
      · rintro ⟨_, o1', o3, h1, h2⟩
        cases h1
        have := hn.2 h2.mandatory
        simp at this
    | ok missing =>
      simp only
      cases ht : phaseTypes env f2 f2.keys with
      | error x =>
        simp only
        constructor
        · simp
        · rintro ⟨_, o1', o3, h1, h2⟩
          cases h1
          have := h2.types
          simp [ht] at this
      | ok e2 =>
        simp only
        generalize he1 : section_ (py% "Detected missing mandatory data call sofa.add_missing() to fix this):\n") missing = e1
        have he1' : e1 = [] ↔ missing = [] := by rw [← he1]; exact section_nil_iff _ _ (by simp)
        by_cases he : e1 ++ e2 = []
        · simp only [he, List.isEmpty_nil, Bool.not_true, Bool.false_and, Bool.false_eq_true, if_false]
          rw [verifyBody_raise_ok_iff]
          rw [List.append_eq_nil_iff] at he
          constructor
          · rintro ⟨_, h1, h2, h3, h4, h5, h6, h7⟩
            refine ⟨h7, f2, (phaseShapes (phaseDims f2).2).2, rfl, ?_⟩
            exact ⟨hn.1 (by simp [he1'.1 he.1]), by rw [ht, he.2], h1, h2, h3, Prod.ext h4 rfl, h5, h6⟩
          · rintro ⟨h7, o1', o3, h1, h2⟩
            cases h1
            have h3 := h2.shapes
            exact ⟨rfl, h2.names, h2.custom, h2.dims, by rw [h3], by rw [h3]; exact h2.rules,
              by rw [h3]; exact h2.deprec, h7⟩
        · have hne : (e1 ++ e2).isEmpty = false := by
            simpa [List.isEmpty_iff] using he
          simp only [hne]
          constructor
          · intro h
            exfalso
            simp only [Bool.not_false, Bool.true_and] at h
            have : (IH.raise != IH.ignore) = true := by decide
            rw [if_pos this] at h
            unfold verifyEarly at h
            simp only at h
            cases h3 : (handleIssues [] (e1 ++ e2) .raise).out with
            | error x => simp [h3] at h
            | ok x => exact he (handleIssues_raise_ok _ _ _ h3).1
          · rintro ⟨_, o1', o3, h1, h2⟩
            cases h1
            exfalso
            apply he
            have h3 := h2.types
            rw [ht] at h3
            have h4 := hn.2 h2.mandatory
            simp only [Except.ok.injEq] at h3 h4
            rw [List.append_eq_nil_iff]
            exact ⟨he1'.2 h4, h3⟩

/-- the object after a successful verification -/
theorem verifyG_raise_ok_obj (inner : Env → Obj → Inner) (env : Env) (o o1 o3 : Obj) (mode : Mode)
    (hr : resetConvention env o = .ok o1) (hp : Passes (inner env o1) env o1 o3 mode) :
    (verifyG inner env o .raise mode).obj = o3 := by
  unfold verifyG
  rw [hr]
  simp only [ne_eq, not_true_eq_false, decide_false, if_true]
  rw [fillMissing_noop false _ _ _ hp.mandatory]
  simp only
  rw [hp.types]
  simp only [section_, List.isEmpty_nil, if_true, List.append_nil, Bool.not_true, Bool.false_and,
    Bool.false_eq_true, if_false]
  unfold verifyBody
  rw [hp.names]
  simp only
  rw [hp.custom]
  simp only
  rw [hp.dims]
  simp only
  rw [hp.shapes]
  simp only
  rw [verifyTail_obj]

end Sofar
