import Verif.Lemmas.Free
import Verif.Spec.Spelling
import Verif.Props.Rules
import Verif.Props.Free
import Verif.Lemmas.Checkers
/-!
# C94: the spelling of values does not matter
-/
namespace Sofar
namespace Spelling

theorem symm {F : Str → Prop} {o o' : Obj} (h : Free F o o') : Free F o' o where
  keys := h.keys.symm
  same k hk := (h.same k hk).symm
  text k hk := by
    rcases h.text k hk with h1 | ⟨s, s', h1, h2⟩
    · exact Or.inl h1.symm
    · exact Or.inr ⟨s', s, h2, h1⟩
  conv := h.conv.symm
  custom := h.custom.symm
  dims := h.dims.symm
  api := h.api.symm
  readOnly := h.readOnly.symm
  prot := h.prot.symm

/-- every rule that allows the one text allows the other -/
structure Fine (env : Env) (mode : Mode) (k s s' : Str) : Prop where
  values : ∀ l, Spec.Restricts env k l → Spec.Allowed env.aliases k (.str s) l → Spec.Allowed env.aliases k (.str s') l
  specific : ∀ key rule, (key, rule) ∈ env.rules → Spec.sofarName key = k → rule.specific ≠ none →
    Spec.ruleValue s' = Spec.ruleValue s
  write : mode = .write → (py% "Units") <:+ k → Str.lower s' = s'

theorem get {F : Str → Prop} {o o' : Obj} (h : Free F o o') {k : Str} {v' : Val} (hv : Dict.get? o'.attrs k = some v') :
    Dict.get? o.attrs k = some v' ∨ (F k ∧ ∃ s s', Dict.get? o.attrs k = some (.str s) ∧ v' = .str s') := by
  by_cases hk : F k
  · rcases h.text k hk with h1 | ⟨s, s', h1, h2⟩
    · exact Or.inl (by rw [← h1, hv])
    · rw [hv, Option.some.injEq] at h2
      exact Or.inr ⟨hk, s, s', h1, h2⟩
  · exact Or.inl (by rw [← h.same k hk, hv])

theorem some {F : Str → Prop} {o o' : Obj} (h : Free F o o') {k : Str} {v : Val} (hv : Dict.get? o.attrs k = some v) :
    ∃ v', Dict.get? o'.attrs k = some v' := by
  by_cases hk : F k
  · rcases h.text k hk with h1 | ⟨s, s', _, h2⟩
    · exact ⟨v, by rw [h1, hv]⟩
    · exact ⟨_, h2⟩
  · exact ⟨v, by rw [h.same k hk, hv]⟩

theorem rules {F : Str → Prop} {env : Env} {o o' : Obj} {mode : Mode} (h : Free F o o')
    (hord : ∀ p ∈ env.rules, Spec.OrdinaryRule p.1 p.2)
    (hfine : ∀ k s s', F k → Dict.get? o.attrs k = .some (.str s) → Dict.get? o'.attrs k = .some (.str s') → Fine env mode k s s')
    (hr : phaseRules env o mode = .ok []) : phaseRules env o' mode = .ok [] := by
  rw [phaseRules_nil hord] at hr ⊢
  obtain ⟨h1, h2⟩ := hr
  have allowed : ∀ k l w w', Spec.Restricts env k l → Dict.get? o.attrs k = .some w → Dict.get? o'.attrs k = .some w' →
      Spec.Allowed env.aliases k w l → Spec.Allowed env.aliases k w' l := by
    intro k l w w' hl hw hw' ha
    rcases get h hw' with h3 | ⟨hF, s, s', h3, rfl⟩
    · rw [h3, Option.some.injEq] at hw
      exact hw ▸ ha
    · rw [h3, Option.some.injEq] at hw
      subst hw
      exact (hfine k s s' hF h3 hw').values l hl ha
  refine ⟨?_, ?_⟩
  · rintro ⟨key, rule⟩ hp
    obtain ⟨h3, h4⟩ := h1 _ hp
    refine ⟨?_, ?_⟩
    · intro v' hv'
      obtain ⟨v, hv⟩ := some (symm h) hv'
      obtain ⟨a1, a2, a3⟩ := h3 v hv
      refine ⟨fun l hl => allowed _ l v v' (Or.inl ⟨key, rule, hp, rfl, hl⟩) hv hv' (a1 l hl), ?_, ?_⟩
      · intro g hg
        obtain ⟨w, hw⟩ := a2 g hg
        exact some h hw
      · intro sp t items hsp ht hi i him
        have key2 : ∃ t0, Spec.text v = .some t0 ∧ Spec.ruleValue t = Spec.ruleValue t0 := by
          rcases get h hv' with h5 | ⟨hF, s, s', h5, rfl⟩
          · rw [h5, Option.some.injEq] at hv
            exact ⟨t, hv ▸ ht, rfl⟩
          · rw [h5, Option.some.injEq] at hv
            subst hv
            simp only [Spec.text, Option.some.injEq] at ht
            subst ht
            exact ⟨s, rfl, (hfine _ s s' hF h5 hv').specific key rule hp rfl (by rw [hsp]; simp)⟩
        obtain ⟨t0, ht0, hrv⟩ := key2
        rw [hrv] at hi
        have := a3 sp t0 items hsp ht0 hi i him
        cases i with
        | dims l =>
          intro d sizes str hd
          rw [h.api]
          exact this d sizes str hd
        | dep k ref =>
          obtain ⟨w, hw, hl⟩ := this
          obtain ⟨w', hw'⟩ := some h hw
          refine ⟨w', hw', fun l hr => allowed _ l w w' (Or.inr ⟨key, rule, sp, _, items, k, hp, hsp, hi, ?_, rfl⟩) hw hw' (hl l hr)⟩
          rw [← hr]
          exact him
    · intro v' hv' hsp
      rcases get h hv' with h5 | ⟨hF, s, s', h5, rfl⟩
      · exact h4 v' h5 hsp
      · exact ⟨by simp, by simp⟩
  · intro hm k v' hv' hu
    rcases get h hv' with h5 | ⟨hF, s, s', h5, rfl⟩
    · exact h2 hm k v' h5 hu
    · exact ⟨s', rfl, (hfine k s s' hF h5 hv').write hm hu⟩

theorem attrs (o : Obj) : (phaseShapes (phaseDims o).2).2.attrs = o.attrs := by
  have h1 : (phaseDims o).2.attrs = o.attrs := by
    unfold phaseDims
    simp only
    split <;> rfl
  rw [← h1]
  unfold phaseShapes
  simp only
  repeat' split
  all_goals rfl

theorem passes {F : Str → Prop} {env : Env} {o o' : Obj} {mode : Mode} (h : Free F o o')
    (hn : ¬ F (py% "GLOBAL_SOFAConventions")) (hv : ¬ F (py% "GLOBAL_SOFAConventionsVersion"))
    (hc : ∀ o1, resetConvention env o = .ok o1 → FreeConv F o1.conv)
    (hord : ∀ p ∈ env.rules, Spec.OrdinaryRule p.1 p.2)
    (hfine : ∀ k s s', F k → Dict.get? o.attrs k = .some (.str s) → Dict.get? o'.attrs k = .some (.str s') → Fine env mode k s s')
    (hok : (verify env o .raise mode).out = .ok none) : (verify env o' .raise mode).out = .ok none := by
  obtain ⟨_, o1, o3, hr, hp⟩ := (verifyG_raise_ok_iff _ _ _ _ _).1 hok
  rcases h.resetConvention hn hv with ⟨e, h1, _⟩ | ⟨p, p', h1, h2, hf⟩
  · rw [hr] at h1; cases h1
  rw [hr, Except.ok.injEq] at h1
  subst h1
  have hcv := hc o1 hr
  obtain ⟨d1, d2, d3⟩ := hf.phaseDims hcv
  have hcv3 : FreeConv F (phaseDims o1).2.conv := by rw [d3]; exact hcv
  obtain ⟨s1, s2⟩ := d2.phaseShapes hcv3
  have hsh := hp.shapes
  rw [hsh] at s1 s2
  simp only at s1 s2
  have ha : o3.attrs = o.attrs := by
    have h3 : (phaseShapes (phaseDims o1).2).2.attrs = o.attrs := by
      obtain ⟨c, cu, hfr, _⟩ := resetConvention_frame hr
      rw [attrs, hfr]
    rwa [hsh] at h3
  have hres := resetConvention_frame h2
  refine (verifyG_raise_ok_iff _ _ _ _ _).2 ⟨rfl, p', (phaseShapes (phaseDims p').2).2, h2, ?_, ?_, ?_, ?_, ?_, ?_, ?_, ?_⟩
  · intro q hq hm
    rw [hf.conv] at hq
    rw [hf.objKeys]
    exact hp.mandatory q hq hm
  · rw [hf.objKeys, hf.phaseTypes hcv]
    exact hp.types
  · rw [hf.objKeys, hf.phaseNames]
    exact hp.names
  · rw [hf.referenceNames hn hv, hf.phaseCustomNames]
    exact hp.custom
  · rw [d1]; exact hp.dims
  · exact Prod.ext s1 rfl
  · refine rules s2 hord ?_ hp.rules
    intro k s s' hF hs hs'
    rw [ha] at hs
    refine hfine k s s' hF hs ?_
    rw [attrs] at hs'
    obtain ⟨c, cu, hfr, _⟩ := hres
    rw [hfr] at hs'
    exact hs'
  · rw [s2.phaseDeprecations hn hv]
    exact hp.deprec

/-- the object with the other text -/
theorem put {o : Obj} {k t t' : Str} (hs : Dict.get? o.attrs k = .some (.str t)) (h : (setAttr o k (.val (.str t'))).out = .ok ()) :
    Free (· = k) o (setAttr o k (.val (.str t'))).obj ∧ Dict.get? (setAttr o k (.val (.str t'))).obj.attrs k = .some (.str t') := by
  rcases setAttr_cases o k (.val (.str t')) with ⟨e, he, _⟩ | ⟨b, hb, _⟩ | ⟨w, hw, _, _, _, h5, _⟩
  · rw [h] at he; simp at he
  · simp at hb
  · rw [h5]
    obtain rfl : Val.str t' = w := by simpa [normalise] using hw
    refine ⟨⟨?_, ?_, ?_, rfl, rfl, rfl, rfl, rfl, rfl⟩, Dict.get?_put_self _ _ _⟩
    · have hm : k ∈ Dict.keys o.attrs := (Dict.has_iff_mem _ _).1 ((Dict.has_iff _ _).2 ⟨_, hs⟩)
      simp [Dict.keys_put, hm]
    · intro j hj
      exact Dict.get?_put_ne _ _ hj
    · rintro j rfl
      exact Or.inr ⟨t, t', hs, Dict.get?_put_self _ _ _⟩

/-- both directions -/
theorem same {env : Env} {o : Obj} {mode : Mode} {k t t' : Str} (ha : Spec.PlainAttribute env o k)
    (hord : ∀ p ∈ env.rules, Spec.OrdinaryRule p.1 p.2) (h1 : Fine env mode k t t') (h2 : Fine env mode k t' t)
    (hs : Dict.get? o.attrs k = .some (.str t)) (h : (setAttr o k (.val (.str t'))).out = .ok ()) :
    (verify env (setAttr o k (.val (.str t'))).obj .raise mode).out = .ok none ↔ (verify env o .raise mode).out = .ok none := by
  obtain ⟨hf, hs'⟩ := put hs h
  have conv : ∀ p p1, Free (· = k) o p → resetConvention env p = .ok p1 → FreeConv (· = k) p1.conv := by
    intro p p1 hp hr
    refine freeConv_reset_attr (fun j hj => by subst hj; exact ha.files) ?_ hr
    rintro c j e hc hm rfl
    rw [hp.custom] at hc
    exact ha.custom c e hc hm
  constructor
  · refine passes (F := (· = k)) (symm hf) (fun hk => ha.notName hk.symm) (fun hk => ha.notVersion hk.symm) (fun o1 => conv _ o1 hf) hord ?_
    rintro j s s' rfl g1 g2
    rw [hs'] at g1
    rw [hs] at g2
    cases g1; cases g2
    exact h2
  · refine passes (F := (· = k)) hf (fun hk => ha.notName hk.symm) (fun hk => ha.notVersion hk.symm)
      (fun o1 => conv _ o1 ⟨rfl, fun _ _ => rfl, fun _ _ => Or.inl rfl, rfl, rfl, rfl, rfl, rfl, rfl⟩) hord ?_
    rintro j s s' rfl g1 g2
    rw [hs] at g1
    rw [hs'] at g2
    cases g1; cases g2
    exact h1

theorem sameUnits_symm {aliases : Dict Str} {t t' : Str} (h : Spec.SameUnits aliases t t') : Spec.SameUnits aliases t' t := by
  obtain ⟨us, us', h1, h2, h3, h4⟩ := h
  refine ⟨us', us, h2, h1, h3.symm, fun i u u' hu hu' => ?_⟩
  obtain ⟨c, g1, g2⟩ := h4 i u' u hu' hu
  exact ⟨c, g2, g1⟩

theorem aliasOf {aliases : Dict Str} : ∀ {us us' ur : List Str}, us.length = us'.length →
    (∀ (i : Nat) u u', us[i]? = .some u → us'[i]? = .some u' → ∃ c, Dict.get? aliases u = .some c ∧ Dict.get? aliases u' = .some c) →
    Spec.AliasOf aliases us ur → Spec.AliasOf aliases us' ur
  | _, [], _, hl, _, h => by
    cases h with
    | nil => exact .nil
    | cons t r ts rs _ _ => simp at hl
  | _, u' :: us', _, hl, ha, h => by
    cases h with
    | nil => simp at hl
    | cons t r ts rs g1 g2 =>
      obtain ⟨c, c1, c2⟩ := ha 0 t u' rfl rfl
      rw [g1, Option.some.injEq] at c1
      subst c1
      exact .cons _ _ _ _ c2 (aliasOf (by simpa using hl) (fun i u v hu hv => ha (i + 1) u v hu hv) g2)

theorem aliasOf_self {aliases : Dict Str} : ∀ {ur : List Str}, (∀ u ∈ ur, Dict.get? aliases u = .some u) →
    Spec.AliasOf aliases ur ur
  | [], _ => .nil
  | u :: ur, h => .cons _ _ _ _ (h u (by simp)) (aliasOf_self (fun v hv => h v (by simp [hv])))

theorem fineUnits {env : Env} {mode : Mode} {k t t' : Str} (hu : (py% "Units") <:+ k)
    (hrefs : ∀ l, Spec.Restricts env k l → Spec.UnitReference env.aliases l)
    (hspec : ∀ key rule, (key, rule) ∈ env.rules → Spec.sofarName key = k → rule.specific = none)
    (hsame : Spec.SameUnits env.aliases t t') (hw : mode = .write → Str.lower t' = t') : Fine env mode k t t' where
  values l hl ha := by
    obtain ⟨r, ur, rfl, hr, hur, hal⟩ := hrefs l hl
    obtain ⟨us, us', h1, h2, h3, h4⟩ := hsame
    have hne : k ≠ py% "GLOBAL_DataType" ∧ k ≠ py% "GLOBAL_SOFAConventions" := by
      constructor <;> (rintro rfl; exact absurd (List.isSuffixOf_iff_suffix.2 hu) (by decide))
    refine ⟨t', rfl, Or.inr ⟨hne.1, hne.2, Or.inr ⟨hu, r, us', ur, rfl, h2, hur, aliasOf h3 h4 ?_⟩⟩⟩
    have lit : Str.lower t = r → Spec.AliasOf env.aliases us ur := by
      intro h
      rw [h] at h1
      rw [(units_iff _ _).1 hur |>.symm.trans ((units_iff _ _).1 h1)] at hal ⊢
      exact aliasOf_self hal
    obtain ⟨t0, ht0, ha⟩ := ha
    simp only [Spec.text, Option.some.injEq] at ht0
    subst ht0
    rcases ha with ha | ⟨_, _, ha | ⟨_, r', ut, ur', hr', hut, hur', hal'⟩⟩
    · simp only [List.mem_singleton] at ha
      subst ha
      exact lit hr
    · simp only [List.mem_singleton] at ha
      exact lit ha
    · simp only [List.cons.injEq, and_true] at hr'
      subst hr'
      rw [← (units_iff _ _).1 h1, ← (units_iff _ _).1 hur, (units_iff _ _).1 hut, (units_iff _ _).1 hur']
      exact hal'
  specific key rule hm hk hs := absurd (hspec key rule hm hk) hs
  write hm _ := hw hm

end Spelling

/-- C94: The spelling of units does not matter: an object passes `verify` with one list of units exactly if it passes with another list that
names the same units (in capital letters, by an alias, with or without spaces after the commas). For writing, both must be in lower case. -/
theorem C94_units (env : Env) (o : Obj) (mode : Mode) (k t t' : Str) (ha : Spec.PlainAttribute env o k)
    (hord : ∀ p ∈ env.rules, Spec.OrdinaryRule p.1 p.2) (hu : (py% "Units") <:+ k)
    (hrefs : ∀ l, Spec.Restricts env k l → Spec.UnitReference env.aliases l)
    (hspec : ∀ key rule, (key, rule) ∈ env.rules → Spec.sofarName key = k → rule.specific = none)
    (hsame : Spec.SameUnits env.aliases t t') (hw : mode = .write → Str.lower t = t ∧ Str.lower t' = t')
    (hs : Dict.get? o.attrs k = some (.str t)) (h : (setAttr o k (.val (.str t'))).out = .ok ()) :
    (verify env (setAttr o k (.val (.str t'))).obj .raise mode).out = .ok none ↔ (verify env o .raise mode).out = .ok none :=
  Spelling.same ha hord (Spelling.fineUnits hu hrefs hspec hsame (fun hm => (hw hm).2))
    (Spelling.fineUnits hu hrefs hspec (Spelling.sameUnits_symm hsame) (fun hm => (hw hm).1)) hs h

/-- the units of the example in another spelling -/
example : (verify exEnv (setAttr exSofa (py% "SourcePosition_Units") (.val (.str (py% "Degrees,DEGREE, meter")))).obj .raise .read).out =
    .ok none ∧
    (verify exEnv (setAttr exSofa (py% "SourcePosition_Units") (.val (.str (py% "degrees,degree, meter")))).obj .raise .write).out =
    .ok none := by
  have ha : Spec.PlainAttribute exEnv exSofa (py% "SourcePosition_Units") := by
    refine ⟨?_, ?_, by decide, by decide⟩
    · have h : ∀ f ∈ exEnv.files, ∀ p ∈ f.content, Spec.sofarName p.1 = py% "SourcePosition_Units" →
        p.2.typ = py% "attribute" ∧ p.2.dims = none := by decide +kernel
      exact fun f hf key e hm hk => h f hf (key, e) hm hk
    · intro c e hc
      rw [show exSofa.custom = none by decide +kernel] at hc
      cases hc
  have hrefs : ∀ l, Spec.Restricts exEnv (py% "SourcePosition_Units") l → Spec.UnitReference exEnv.aliases l := by
    rintro l (⟨key, rule, hm, hk, hl⟩ | ⟨key, rule, sp, t, items, key', hm, hsp, hg, hi, hk⟩)
    · simp only [exEnv, List.mem_cons, List.not_mem_nil, or_false, Prod.mk.injEq] at hm
      rcases hm with ⟨rfl, rfl⟩ | ⟨rfl, rfl⟩
      · cases hl
        refine ⟨_, _, rfl, by decide, (units_iff _ _).2 rfl, by decide +kernel⟩
      · exact absurd hk (by decide)
    · simp only [exEnv, List.mem_cons, List.not_mem_nil, or_false, Prod.mk.injEq] at hm
      rcases hm with ⟨rfl, rfl⟩ | ⟨rfl, rfl⟩
      · cases hsp
      · simp only [Option.some.injEq] at hsp
        subst hsp
        have := Dict.mem_of_get? hg
        simp only [List.mem_cons, Prod.mk.injEq, List.not_mem_nil, or_false] at this
        obtain ⟨_, rfl⟩ := this
        simp at hi
  have hspec : ∀ key rule, (key, rule) ∈ exEnv.rules → Spec.sofarName key = py% "SourcePosition_Units" → rule.specific = none := by
    intro key rule hm hk
    have h : ∀ p ∈ exEnv.rules, Spec.sofarName p.1 = py% "SourcePosition_Units" → p.2.specific.isNone = true := by decide +kernel
    simpa using h _ hm hk
  have hsame : ∀ t', Str.reSplitComma (Str.lower t') = [py% "degrees", py% "degree", py% "meter"] →
      Spec.SameUnits exEnv.aliases (py% "degree, degree, metre") t' := by
    intro t' ht
    refine ⟨[py% "degree", py% "degree", py% "metre"], _, (units_iff _ _).2 (by decide), (units_iff _ _).2 ht, rfl, ?_⟩
    intro i u u' hu hu'
    rcases i with _ | _ | _ | i <;> simp at hu hu' <;> subst hu hu'
    · exact ⟨py% "degree", by decide, by decide⟩
    · exact ⟨py% "degree", by decide, by decide⟩
    · exact ⟨py% "metre", by decide, by decide⟩
  have hord : ∀ p ∈ exEnv.rules, Spec.OrdinaryRule p.1 p.2 :=
    fun p hp => (regularRulesB_sound (env := exEnv) (o := exSofa) (by decide +kernel)).ordinary p hp
  constructor
  · exact (C94_units exEnv exSofa .read _ (py% "degree, degree, metre") (py% "Degrees,DEGREE, meter") ha hord ⟨py% "SourcePosition_", rfl⟩
      hrefs hspec (hsame _ (by decide)) (by simp) (by decide +kernel) (by decide +kernel)).2 (by decide +kernel)
  · exact (C94_units exEnv exSofa .write _ (py% "degree, degree, metre") (py% "degrees,degree, meter") ha hord ⟨py% "SourcePosition_", rfl⟩
      hrefs hspec (hsame _ (by decide)) (fun _ => by decide) (by decide +kernel) (by decide +kernel)).2 (by decide +kernel)

/-- C94: Capital letters do not matter for other restricted texts: an object passes `verify` with one text exactly if it passes with a text that
is the same in lower case. This is claimed for data other than the data type and for values that are coordinate types or that have no
consequences for other data. -/
theorem C94_case_partial (env : Env) (o : Obj) (mode : Mode) (k t t' : Str) (ha : Spec.PlainAttribute env o k)
    (hord : ∀ p ∈ env.rules, Spec.OrdinaryRule p.1 p.2) (hu : ¬ (py% "Units") <:+ k) (hd : k ≠ py% "GLOBAL_DataType")
    (hrefs : ∀ l, Spec.Restricts env k l → ∀ r ∈ l, Str.lower r = r)
    (hspec : ∀ key rule, (key, rule) ∈ env.rules → Spec.sofarName key = k → rule.specific ≠ none →
      Str.lower t ∈ [py% "cartesian", py% "spherical", py% "spherical harmonics"])
    (hsame : Str.lower t = Str.lower t')
    (hs : Dict.get? o.attrs k = some (.str t)) (h : (setAttr o k (.val (.str t'))).out = .ok ()) :
    (verify env (setAttr o k (.val (.str t'))).obj .raise mode).out = .ok none ↔ (verify env o .raise mode).out = .ok none := by
  have fine : ∀ s s', Str.lower s = Str.lower t → Str.lower s' = Str.lower t → Spelling.Fine env mode k s s' := by
    intro s s' g1 g2
    refine ⟨?_, ?_, fun _ hk => absurd hk hu⟩
    · rintro l hl ⟨t0, ht0, hal⟩
      simp only [Spec.text, Option.some.injEq] at ht0
      subst ht0
      refine ⟨s', rfl, Or.inr ⟨hd, ha.notName, Or.inl ?_⟩⟩
      rw [g2, ← g1]
      rcases hal with hal | ⟨_, _, hal | ⟨hk, _⟩⟩
      · rw [hrefs l hl s hal]; exact hal
      · exact hal
      · exact absurd hk hu
    · intro key rule hm hk hsp
      unfold Spec.ruleValue
      rw [g1, g2, if_pos (hspec key rule hm hk hsp), if_pos (hspec key rule hm hk hsp)]
  exact Spelling.same ha hord (fine t t' rfl hsame.symm) (fine t' t hsame.symm rfl) hs h

/-- the rules of the example and a rule as in the rule set of sofar: the type of the room is `free field` or `reverberant`, and reverberant
rooms must be described; source positions are cartesian or spherical, and units depend on this -/
def exRoomEnv : Env :=
  { exEnv with rules := exEnv.rules ++ [(py% "GLOBAL:RoomType", ⟨some [py% "free field", py% "reverberant"], [],
      some [(py% "reverberant", [.dep (py% "GLOBAL:RoomDescription") none])]⟩),
    (py% "SourcePosition:Type", ⟨some [py% "cartesian", py% "spherical"], [],
      some [(py% "spherical", [.dep (py% "SourcePosition:Units") (some [py% "degree, degree, metre"])])]⟩)] }

/-- the example with the type of the room -/
def exRoom : Obj := (addAttribute exSofa (py% "GLOBAL_RoomType") (.val (.str (py% "free field")))).obj

/-- the example with the type of source positions -/
def exPolar : Obj := (addAttribute exSofa (py% "SourcePosition_Type") (.val (.str (py% "spherical")))).obj

/-- capital letters in a type of coordinates -/
example : (verify exRoomEnv (setAttr exPolar (py% "SourcePosition_Type") (.val (.str (py% "Spherical")))).obj .raise .write).out =
    .ok none := by
  have hcu : exPolar.custom = some [(py% "SourcePosition_Type", customEntry none none (py% "attribute"))] := by decide +kernel
  refine (C94_case_partial exRoomEnv exPolar .write (py% "SourcePosition_Type") (py% "spherical") (py% "Spherical") ⟨?_, ?_, by decide, by decide⟩ ?_ ?_ (by decide) ?_ ?_
    (by decide) (by decide +kernel) (by decide +kernel)).2 (by decide +kernel)
  · have h : ∀ f ∈ exRoomEnv.files, ∀ p ∈ f.content, Spec.sofarName p.1 = py% "SourcePosition_Type" →
      p.2.typ = py% "attribute" ∧ p.2.dims = none := by decide +kernel
    exact fun f hf key e hm hk => h f hf (key, e) hm hk
  · intro c e hc hm
    rw [hcu, Option.some.injEq] at hc
    subst hc
    simp only [List.mem_cons, List.not_mem_nil, or_false, Prod.mk.injEq, true_and] at hm
    subst hm
    exact ⟨rfl, rfl⟩
  · exact fun p hp => (regularRulesB_sound (env := exRoomEnv) (o := exPolar) (by decide +kernel)).ordinary p hp
  · exact fun h => absurd (List.isSuffixOf_iff_suffix.2 h) (by decide)
  · rintro l (⟨key, rule, hm, hk, hl⟩ | ⟨key, rule, sp, t, items, key', hm, hsp, hg, hi, hk⟩)
    · have h : ∀ p ∈ exRoomEnv.rules, Spec.sofarName p.1 = py% "SourcePosition_Type" →
        p.2.value = some [py% "cartesian", py% "spherical"] := by decide +kernel
      rw [h _ hm hk] at hl
      cases hl
      decide
    · have h : ∀ p ∈ exRoomEnv.rules, ∀ q ∈ p.2.specific.getD [], ∀ i ∈ q.2, (match i with
        | .dep k (some _) => decide (Spec.sofarName k ≠ py% "SourcePosition_Type")
        | _ => true) = true := by decide +kernel
      have h1 := h _ hm (t, items) (by rw [hsp]; exact Dict.mem_of_get? hg) _ hi
      simp only [decide_eq_true_eq] at h1
      exact absurd hk h1
  · exact fun _ _ _ _ _ => by decide

/-- The claim is false for values with consequences for other data that are no types of coordinates: a room that is `reverberant` must be
described, but with a capital letter the description may be missing. -/
theorem C94_refuted : ∃ (env : Env) (o : Obj) (t t' : Str), Str.lower t = Str.lower t' ∧
    (verify env (setAttr o (py% "GLOBAL_RoomType") (.val (.str t))).obj .raise .write).out = .error (.valueError
      (py% "\nERRORS\n------\nDetected violations of the SOFA convention:\n- GLOBAL_RoomDescription must be given if GLOBAL_RoomType is reverberant\n")) ∧
    (verify env (setAttr o (py% "GLOBAL_RoomType") (.val (.str t'))).obj .raise .write).out = .ok none :=
  ⟨exRoomEnv, exRoom, py% "reverberant", py% "Reverberant", by decide, by decide +kernel, by decide +kernel⟩

end Sofar
