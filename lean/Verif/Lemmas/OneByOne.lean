import Verif.Lemmas.Free
import Verif.Lemmas.Rules
import Verif.Spec.OneByOne
/-!
# The rules of the verification one by one
-/
namespace Sofar

/-- a condition that holds for a set of rules exactly if it holds for no rules and for every rule alone -/
def Single (Q : List (Str × Rule) → Prop) : Prop := ∀ R, Q R ↔ Q [] ∧ ∀ r ∈ R, Q [r]

theorem Single.const (P : Prop) : Single (fun _ => P) := fun _ => ⟨fun h => ⟨h, fun _ _ => h⟩, fun h => h.1⟩

theorem Single.and {P Q : List (Str × Rule) → Prop} (hp : Single P) (hq : Single Q) : Single (fun R => P R ∧ Q R) := by
  intro R
  have h1 := hp R
  have h2 := hq R
  constructor
  · rintro ⟨a, b⟩
    exact ⟨⟨(h1.1 a).1, (h2.1 b).1⟩, fun r hr => ⟨(h1.1 a).2 r hr, (h2.1 b).2 r hr⟩⟩
  · rintro ⟨⟨a, b⟩, c⟩
    exact ⟨h1.2 ⟨a, fun r hr => (c r hr).1⟩, h2.2 ⟨b, fun r hr => (c r hr).2⟩⟩

theorem Single.congr {P Q : List (Str × Rule) → Prop} (hp : Single P) (h : ∀ R, Q R ↔ P R) : Single Q := by
  intro R
  rw [h R, h [], hp R]
  simp only [h]

/-- the sixth phase -/
theorem single_phaseRules (env : Env) (o : Obj) (mode : Mode) :
    Single (fun R => phaseRules { env with rules := R } o mode = .ok []) := by
  have h : ∀ R, phaseRules { env with rules := R } o mode = .ok [] ↔
      (∀ r ∈ R, ruleKey env o r = .ok []) ∧ phaseUnits env o mode = .ok [] := by
    intro R
    have h1 : ∀ r, ruleKey { env with rules := R } o r = ruleKey env o r := fun _ => rfl
    have h2 : phaseUnits { env with rules := R } o mode = phaseUnits env o mode := rfl
    rw [← concatE_nil_iff]
    unfold phaseRules
    rw [h2, show ruleKey { env with rules := R } o = ruleKey env o from funext h1]
    cases concatE (ruleKey env o) R with
    | error x => simp
    | ok s1 =>
      cases phaseUnits env o mode with
      | error x => simp
      | ok s2 =>
        simp only [Except.ok.injEq]
        rw [section_nil_iff _ _ (by simp), List.append_eq_nil_iff]
  refine Single.congr ?_ h
  refine Single.and ?_ (Single.const _)
  intro R
  simp

/-- all phases -/
theorem single_verifyG (inner : Env → Obj → Inner) (env : Env) (mode : Mode)
    (hi : ∀ o, Single (fun R => (phaseCustomNames (inner { env with rules := R } o) o).1 = .ok [])) (o : Obj) :
    Single (fun R => (verifyG inner { env with rules := R } o .raise mode).out = .ok none) := by
  cases hr : resetConvention env o with
  | error x =>
    refine Single.congr (Single.const False) ?_
    intro R
    rw [verifyG_raise_ok_iff]
    have h1 : resetConvention { env with rules := R } o = resetConvention env o := rfl
    simp [h1, hr]
  | ok o1 =>
    refine Single.congr (P := fun R =>
      ((phaseCustomNames (inner { env with rules := R } o1) o1).1 = .ok [] ∧
        phaseRules { env with rules := R } (phaseShapes (phaseDims o1).2).2 mode = .ok []) ∧
      ((∀ p ∈ o1.conv, mandatory p.2.flags = true → p.1 ∈ o1.keys) ∧ phaseTypes env o1 o1.keys = .ok [] ∧
        phaseNames o1 o1.keys = .ok [] ∧ (phaseDims o1).1 = .ok () ∧ (phaseShapes (phaseDims o1).2).1 = .ok [] ∧
        ∃ w, phaseDeprecations env (phaseShapes (phaseDims o1).2).2 mode = .ok ([], w)))
      (((hi o1).and (single_phaseRules _ _ _)).and (Single.const _)) ?_
    intro R
    rw [verifyG_raise_ok_iff]
    have h1 : resetConvention { env with rules := R } o = resetConvention env o := rfl
    constructor
    · rintro ⟨_, o1', o3, h2, h3⟩
      rw [h1, hr] at h2
      cases h2
      have h4 := h3.shapes
      have h5 : o3 = (phaseShapes (phaseDims o1).2).2 := by rw [h4]
      subst h5
      exact ⟨⟨h3.custom, h3.rules⟩, h3.mandatory, h3.types, h3.names, h3.dims, by rw [h4], h3.deprec⟩
    · rintro ⟨⟨a1, a2⟩, a3, a4, a5, a6, a7, a8⟩
      exact ⟨rfl, o1, _, h1.trans hr, a3, a4, a5, a1, a6, Prod.ext a7 rfl, a2, a8⟩

/-- the object after a successful verification does not depend on the rules -/
theorem verifyG_obj_rules (inner inner' : Env → Obj → Inner) (env : Env) (R R' : List (Str × Rule)) (o : Obj) (mode : Mode)
    (h : (verifyG inner { env with rules := R } o .raise mode).out = .ok none)
    (h' : (verifyG inner' { env with rules := R' } o .raise mode).out = .ok none) :
    (verifyG inner { env with rules := R } o .raise mode).obj = (verifyG inner' { env with rules := R' } o .raise mode).obj := by
  obtain ⟨_, o1, o3, h1, h2⟩ := (verifyG_raise_ok_iff _ _ _ _ _).1 h
  obtain ⟨_, o1', o3', h1', h2'⟩ := (verifyG_raise_ok_iff _ _ _ _ _).1 h'
  rw [verifyG_raise_ok_obj _ _ _ _ _ _ h1 h2, verifyG_raise_ok_obj _ _ _ _ _ _ h1' h2']
  have h3 : o1 = o1' := by
    have h4 : resetConvention { env with rules := R } o = resetConvention { env with rules := R' } o := rfl
    rw [h1, h1'] at h4
    cases h4
    rfl
  subst h3
  have h4 := h2.shapes
  rw [h2'.shapes] at h4
  cases h4
  rfl

theorem single_verifyNew (env : Env) (o : Obj) (mode : Mode) :
    Single (fun R => (verifyNew { env with rules := R } o .raise mode).out = .ok none) := by
  refine single_verifyG _ _ _ ?_ _
  intro p
  exact Single.const _

/-- the end of the constructor -/
theorem single_finishInit (env : Env) (m : Bool) (v : Str) (b : Bool) (o n : Obj) :
    Single (fun R => (finishInit { env with rules := R } m v b o).out = .ok n) := by
  unfold finishInit
  split
  · refine Single.congr (P := fun R => (verifyNew { env with rules := R } o .raise .read).out = .ok none ∧
      ∀ R', (verifyNew { env with rules := R' } o .raise .read).out = .ok none →
        { (verifyNew { env with rules := R' } o .raise .read).obj with prot := true } = n)
      ((single_verifyNew _ _ _).and (Single.const _)) ?_
    intro R
    simp only
    cases h : (verifyNew { env with rules := R } o .raise .read).out with
    | error x => simp
    | ok s =>
      have hs : s = none := ((verifyG_raise_ok_iff _ _ _ _ _).1 h).1
      subst hs
      simp only [Except.ok.injEq, true_and]
      constructor
      · rintro h1 R' h2
        rw [← h1]
        rw [show (verifyNew { env with rules := R' } o .raise .read).obj = (verifyNew { env with rules := R } o .raise .read).obj
          from verifyG_obj_rules _ _ env R' R o .read h2 h]
      · intro h1
        exact h1 R h
  · exact Single.const _

/-- the constructor -/
theorem single_initSofa (env : Env) (c : Str) (m : Bool) (ver : VersionArg) (a : VerifyArg) (n : Obj) :
    Single (fun R => (initSofa { env with rules := R } c m ver a).out = .ok n) := by
  unfold initSofa
  have h1 : ∀ R, loadConvention { env with rules := R } c ver = loadConvention env c ver := fun _ => rfl
  have h2 : ∀ R o, conventionToSofa { env with rules := R } m o = conventionToSofa env m o := fun _ _ => rfl
  simp only [h1, h2]
  cases loadConvention env c ver with
  | error x => simp only; exact Single.const _
  | ok conv =>
    simp only
    cases conventionToSofa env m (emptyObj conv) with
    | error x => simp only; exact Single.const _
    | ok o =>
      simp only
      cases conventionVersion conv with
      | error x => simp only; exact Single.const _
      | ok v =>
        cases a with
        | yes => exact single_finishInit _ _ _ _ _ _
        | no => exact single_finishInit _ _ _ _ _ _
        | auto =>
          simp only
          cases isStable v with
          | error x => simp only; exact Single.const _
          | ok b => exact single_finishInit _ _ _ _ _ _

/-- the object of a successful constructor does not depend on the rules -/
theorem initSofa_rules {env : Env} {c : Str} {m : Bool} {ver : VersionArg} {a : VerifyArg} {R R' : List (Str × Rule)}
    {n n' : Obj} (h : (initSofa { env with rules := R } c m ver a).out = .ok n)
    (h' : (initSofa { env with rules := R' } c m ver a).out = .ok n') : n = n' := by
  have h1 := ((single_initSofa env c m ver a n R).1 h).1
  have h2 := ((single_initSofa env c m ver a n' R').1 h').1
  simp only at h1 h2
  rw [h1] at h2
  cases h2
  rfl

/-- the reference object -/
theorem single_reference (env : Env) (o : Obj) :
    Single (fun R => (phaseCustomNames (referenceNames { env with rules := R } o) o).1 = .ok []) := by
  cases hcu : o.custom with
  | none =>
    unfold phaseCustomNames
    simp only [hcu]
    exact Single.const _
  | some cu =>
    by_cases hs : ∃ c v c' v', o.getAttr (py% "GLOBAL_SOFAConventions") = .ok c ∧
        o.getAttr (py% "GLOBAL_SOFAConventionsVersion") = .ok v ∧ c.asStr = some c' ∧ v.asStr = some v'
    · obtain ⟨c, v, c', v', h1, h2, h3, h4⟩ := hs
      generalize hver : (if v' = py% "latest" then VersionArg.latest else VersionArg.exact v') = ver
      refine Single.congr (P := fun R => ∃ n, (initSofa { env with rules := R } c' false ver .auto).out = .ok n ∧
        nameCustom (Dict.keys n.conv) cu = []) ?_ ?_
      · intro R
        constructor
        · rintro ⟨n, h1, h2⟩
          have h3 := (single_initSofa env c' false ver .auto n R).1 h1
          exact ⟨⟨n, h3.1, h2⟩, fun r hr => ⟨n, h3.2 r hr, h2⟩⟩
        · rintro ⟨⟨n, h1, h2⟩, h3⟩
          refine ⟨n, (single_initSofa env c' false ver .auto n R).2 ⟨h1, ?_⟩, h2⟩
          intro r hr
          obtain ⟨n', h4, _⟩ := h3 r hr
          rw [initSofa_rules h1 h4]
          exact h4
      · intro R
        unfold phaseCustomNames referenceNames
        simp only [hcu, h1, h2, h3, h4, hver]
        cases (initSofa { env with rules := R } c' false ver .auto).out with
        | error x => simp
        | ok n =>
          simp only [Except.ok.injEq, exists_eq_left']
          rw [section_nil_iff _ _ (by simp)]
    · refine Single.congr (Single.const False) ?_
      intro R
      simp only [iff_false]
      intro h
      apply hs
      unfold phaseCustomNames referenceNames at h
      simp only [hcu] at h
      cases h1 : o.getAttr (py% "GLOBAL_SOFAConventions") with
      | error x => simp [h1] at h
      | ok c =>
        cases h2 : o.getAttr (py% "GLOBAL_SOFAConventionsVersion") with
        | error x => simp [h1, h2] at h
        | ok v =>
          cases h3 : c.asStr with
          | none => simp [h1, h2, h3] at h
          | some c' =>
            cases h4 : v.asStr with
            | none => simp [h1, h2, h3, h4] at h
            | some v' => exact ⟨c, v, c', v', rfl, rfl, h3, h4⟩

theorem single_verify (env : Env) (o : Obj) (mode : Mode) :
    Single (fun R => (verify { env with rules := R } o .raise mode).out = .ok none) :=
  single_verifyG _ _ _ (fun p => single_reference env p) _

/-! ## Rules about unknown data -/

theorem concatE_skip {α : Type} {f : α → Except Exc Str} {x : α} (hx : f x = .ok []) (a b : List α) :
    concatE f (a ++ x :: b) = concatE f (a ++ b) := by
  induction a with
  | nil =>
    simp only [List.nil_append, concatE, hx]
    cases concatE f b <;> simp
  | cons y a ih => simp only [List.cons_append, concatE, ih]

theorem get_none_of_keys {V : Type} {d : Dict V} {k : Str} (h : k ∉ Dict.keys d) : Dict.get? d k = none := by
  cases hg : Dict.get? d k with
  | none => rfl
  | some v => exact absurd (List.mem_map.mpr ⟨_, Dict.mem_of_get? hg, rfl⟩) h

theorem hasAttr_none {o : Obj} {k : Str} (hk : Spec.OrdinaryName k) (h : Dict.get? o.attrs k = none) : o.hasAttr k = false := by
  rw [← Bool.not_eq_true, hasAttr_data hk.1 hk.2, h]
  rintro ⟨v, hv⟩
  cases hv

theorem phaseRules_skip (env : Env) (A B : List (Str × Rule)) (r : Str × Rule) (o : Obj) (mode : Mode)
    (hk : Spec.OrdinaryName (Spec.sofarName r.1)) (h : Dict.get? o.attrs (Spec.sofarName r.1) = none) :
    phaseRules { env with rules := A ++ r :: B } o mode = phaseRules { env with rules := A ++ B } o mode := by
  unfold phaseRules
  simp only
  have h1 : ∀ R, ruleKey { env with rules := R } o = ruleKey env o := fun _ => rfl
  have h2 : ∀ R, phaseUnits { env with rules := R } o mode = phaseUnits env o mode := fun _ => rfl
  have h3 : ruleKey env o r = .ok [] := by
    unfold ruleKey
    simp only [toSofar_eq, hasAttr_none hk h, Bool.not_false, if_true]
  simp only [h1, h2, concatE_skip h3]

/-- names of a loaded convention come from a file -/
theorem loadConvention_unknown {env : Env} {c : Str} {ver : VersionArg} {conv : Dict Entry} {k : Str}
    (h : loadConvention env c ver = .ok conv) (hk : ∀ f ∈ env.files, ∀ key e, (key, e) ∈ f.content → Spec.sofarName key ≠ k) :
    Dict.get? conv k = none := by
  unfold loadConvention at h
  cases hs : selectFile env c ver with
  | error x => simp [hs] at h
  | ok f =>
    simp only [hs, Except.ok.injEq] at h
    subst h
    cases hg : Dict.get? (convertKeys f.content) k with
    | none => rfl
    | some e =>
      obtain ⟨k0, h0, hk0⟩ := convertKeys_get hg
      exact absurd hk0.symm (hk f (selectFile_mem hs) k0 e h0)

theorem resetConvention_unknown {env : Env} {o o1 : Obj} {k : Str} (h : resetConvention env o = .ok o1)
    (hk : ∀ f ∈ env.files, ∀ key e, (key, e) ∈ f.content → Spec.sofarName key ≠ k)
    (hc : ∀ c e, o.custom = some c → (k, e) ∉ c) : Dict.get? o1.conv k = none := by
  obtain ⟨_, c, v, conv, _, _, _, _, hl, h6⟩ := resetConvention_inv h
  have h1 := loadConvention_unknown hl hk
  cases hcu : o.custom with
  | none => rw [h6, hcu]; exact h1
  | some cu =>
    rw [h6, hcu]
    cases hg : Dict.get? (mergeCustom conv cu).1 k with
    | none => rfl
    | some e =>
      rcases get?_mergeCustom_or _ _ _ _ hg with h2 | h2
      · rw [h1] at h2; cases h2
      · exact absurd h2 (hc cu e hcu)

theorem verifyG_skip {inner : Env → Obj → Inner} {env : Env} {A B : List (Str × Rule)} {r : Str × Rule} {o : Obj}
    (hi : ∀ p, inner { env with rules := A ++ r :: B } p = inner { env with rules := A ++ B } p)
    (hk : Spec.OrdinaryName (Spec.sofarName r.1)) (ha : Dict.get? o.attrs (Spec.sofarName r.1) = none)
    (hf : ∀ f ∈ env.files, ∀ key e, (key, e) ∈ f.content → Spec.sofarName key ≠ Spec.sofarName r.1)
    (hc : ∀ c e, o.custom = some c → (Spec.sofarName r.1, e) ∉ c) (ih : IH) (mode : Mode) :
    verifyG inner { env with rules := A ++ r :: B } o ih mode = verifyG inner { env with rules := A ++ B } o ih mode := by
  unfold verifyG
  have h1 : ∀ R, resetConvention { env with rules := R } o = resetConvention env o := fun _ => rfl
  simp only [h1]
  cases hr : resetConvention env o with
  | error x => simp only
  | ok o1 =>
    have hn := resetConvention_unknown hr hf hc
    have ha1 : Dict.get? o1.attrs (Spec.sofarName r.1) = none := by
      obtain ⟨c, k, h2, _⟩ := resetConvention_frame hr
      rw [h2]; exact ha
    have hfm := (fillMissing_frame (decide (ih ≠ .raise)) o1.keys o1.conv o1).2 (Spec.sofarName r.1)
    have ha2 : Dict.get? (fillMissing (decide (ih ≠ .raise)) o1.keys o1.conv o1).2.attrs (Spec.sofarName r.1) = none := by
      rcases hfm with h | ⟨_, _, e, v, he, _⟩
      · rw [h]; exact ha1
      · have := (Dict.has_iff_mem _ _).2 (List.mem_map.mpr ⟨_, he, rfl⟩ : Spec.sofarName r.1 ∈ Dict.keys o1.conv)
        rw [Dict.has, hn] at this
        cases this
    simp only [hi]
    have ht : ∀ R o' k, phaseTypes { env with rules := R } o' k = phaseTypes env o' k := fun _ _ _ => rfl
    simp only [ht]
    generalize fillMissing (decide (ih ≠ .raise)) o1.keys o1.conv o1 = f at ha2
    have hb : ∀ i o' w e, Dict.get? o'.attrs (Spec.sofarName r.1) = none →
        verifyBody i { env with rules := A ++ r :: B } o' o1.keys ih mode w e =
          verifyBody i { env with rules := A ++ B } o' o1.keys ih mode w e := by
      intro i o' w e h
      unfold verifyBody verifyTail
      have h3 : Dict.get? (phaseShapes (phaseDims o').2).2.attrs (Spec.sofarName r.1) = none := by
        rw [show (phaseShapes (phaseDims o').2).2.attrs = o'.attrs by
          unfold phaseShapes phaseDims
          simp only
          repeat' split
          all_goals rfl]
        exact h
      simp only [phaseRules_skip env A B r _ mode hk h3]
      have h4 : ∀ R o', phaseDeprecations { env with rules := R } o' mode = phaseDeprecations env o' mode := fun _ _ => rfl
      simp only [h4]
    simp only [hb _ _ _ _ ha2]

theorem addDefaults_unknown {m : Bool} {l : Dict Entry} {o o' : Obj} {k : Str} (h : addDefaults m l o = .ok o')
    (hk : k ∉ Dict.keys l) : Dict.get? o'.attrs k = Dict.get? o.attrs k := by
  induction l generalizing o with
  | nil => cases h; rfl
  | cons p l ih =>
    obtain ⟨k', e⟩ := p
    simp only [Dict.keys, List.map_cons, List.mem_cons, not_or] at hk
    unfold addDefaults at h
    split at h
    · exact ih h hk.2
    · cases hd : initDefault e with
      | error x => simp [hd] at h
      | ok d =>
        simp only [hd] at h
        cases hs : (setAttr o k' d).out with
        | error x => simp [hs] at h
        | ok u =>
          simp only [hs] at h
          rw [ih h hk.2]
          rcases setAttr_cases o k' d with ⟨x, _, hx, _⟩ | ⟨b, _, _, _, hb⟩ | ⟨w, hw, _, _, _, hb, _⟩
          · rw [hx]
          · rw [hb]
          · rw [hb]; exact Dict.get?_put_ne _ _ hk.1

theorem stamps_unknown (env : Env) (o : Obj) {k : Str} (hk : k ∉ Spec.stampNames) :
    Dict.get? (putStamps (stamps env) o).attrs k = Dict.get? o.attrs k := by
  simp only [Spec.stampNames, List.mem_cons, List.not_mem_nil, or_false, not_or] at hk
  obtain ⟨h1, h2, h3, h4, h5, h6⟩ := hk
  simp only [putStamps, stamps, List.foldl_cons, List.foldl_nil]
  rw [Dict.get?_put_ne _ _ h6, Dict.get?_put_ne _ _ h5, Dict.get?_put_ne _ _ h4, Dict.get?_put_ne _ _ h3,
    Dict.get?_put_ne _ _ h2, Dict.get?_put_ne _ _ h1]

theorem initSofa_skip {env : Env} {A B : List (Str × Rule)} {r : Str × Rule}
    (hk : Spec.OrdinaryName (Spec.sofarName r.1))
    (hf : ∀ f ∈ env.files, ∀ key e, (key, e) ∈ f.content → Spec.sofarName key ≠ Spec.sofarName r.1)
    (hs : Spec.sofarName r.1 ∉ Spec.stampNames) (c : Str) (m : Bool) (ver : VersionArg) (a : VerifyArg) :
    initSofa { env with rules := A ++ r :: B } c m ver a = initSofa { env with rules := A ++ B } c m ver a := by
  unfold initSofa
  have h1 : ∀ R, loadConvention { env with rules := R } c ver = loadConvention env c ver := fun _ => rfl
  have h2 : ∀ R o, conventionToSofa { env with rules := R } m o = conventionToSofa env m o := fun _ _ => rfl
  simp only [h1, h2]
  cases hl : loadConvention env c ver with
  | error x => rfl
  | ok conv =>
    simp only
    cases hd : conventionToSofa env m (emptyObj conv) with
    | error x => rfl
    | ok o =>
      simp only
      have hu := loadConvention_unknown hl hf
      have hfin : ∀ v b, finishInit { env with rules := A ++ r :: B } m v b o = finishInit { env with rules := A ++ B } m v b o := by
        intro v b
        unfold finishInit
        have : verifyNew { env with rules := A ++ r :: B } o .raise .read = verifyNew { env with rules := A ++ B } o .raise .read := by
          unfold conventionToSofa at hd
          cases hd' : addDefaults m (emptyObj conv).conv (emptyObj conv) with
          | error x => simp [hd'] at hd
          | ok o' =>
            simp only [hd', Except.ok.injEq] at hd
            subst hd
            refine verifyG_skip (fun _ => rfl) hk ?_ hf ?_ _ _
            · show Dict.get? (putStamps (stamps env) o').attrs _ = none
              rw [stamps_unknown _ _ hs, addDefaults_unknown hd']
              · rfl
              · intro hm
                have := (Dict.has_iff_mem _ _).2 hm
                rw [Dict.has] at this
                rw [show Dict.get? (emptyObj conv).conv (Spec.sofarName r.1) = none from hu] at this
                cases this
            · intro cu e hcu
              have : o'.custom = none := (addDefaults_conv hd').2
              have h3 : o'.custom = some cu := hcu
              rw [this] at h3
              cases h3
        rw [this]
      cases conventionVersion conv with
      | error x => rfl
      | ok v =>
        cases a with
        | yes => exact hfin _ _
        | no => exact hfin _ _
        | auto =>
          simp only
          cases isStable v with
          | error x => rfl
          | ok b => exact hfin _ _

theorem verify_skip {env : Env} {A B : List (Str × Rule)} {r : Str × Rule} {o : Obj}
    (h : Spec.Unknown env o (Spec.sofarName r.1)) (ih : IH) (mode : Mode) :
    verify { env with rules := A ++ r :: B } o ih mode = verify { env with rules := A ++ B } o ih mode := by
  refine verifyG_skip ?_ h.ordinary h.absent h.files h.custom ih mode
  intro p
  unfold referenceNames
  simp only [initSofa_skip h.ordinary h.files h.stamps]

end Sofar
