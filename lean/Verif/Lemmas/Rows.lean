import Verif.Spec.Rows
import Verif.Lemmas.Assign
import Verif.Lemmas.Order
import Verif.Lemmas.Extended
import Verif.Lemmas.WriteOrder
/-!
# The order of the rows of conventions
-/
namespace Sofar

/-! ## Loading conventions -/

theorem Rearranged.load {env env' : Env} (h : Spec.Rearranged env env') (c : Str) (ver : VersionArg) :
    (∃ x, loadConvention env c ver = .error x ∧ loadConvention env' c ver = .error x) ∨
    ∃ f f', f ∈ env.files ∧ f' ∈ env'.files ∧ Spec.SameRows f f' ∧ loadConvention env c ver = .ok (convertKeys f.content) ∧
      loadConvention env' c ver = .ok (convertKeys f'.content) := by
  have key : (∃ x, selectFile env c ver = .error x ∧ selectFile env' c ver = .error x) ∨
      ∃ f f', Spec.SameRows f f' ∧ selectFile env c ver = .ok f ∧ selectFile env' c ver = .ok f' := by
    unfold selectFile
    have hfil : ∀ (Q : Str → Bool) {l l' : List ConvFile}, List.Forall₂ (Spec.SameRows) l l' →
        List.Forall₂ (Spec.SameRows) (l.filter (fun f => Q f.base)) (l'.filter (fun f => Q f.base)) := by
      intro Q l l' hl
      induction hl with
      | nil => exact .nil
      | @cons f f' l l' hf _ ih =>
        cases hq : Q f.base
        · simpa [List.filter_cons, hf.base, hq] using ih
        · simpa [List.filter_cons, hf.base, hq] using ⟨hf, ih⟩
    have hp := hfil (fun b => Str.startsWith b (c ++ py% "_")) h.files
    simp only
    generalize env.files.filter (fun f => Str.startsWith f.base (c ++ py% "_")) = path at hp ⊢
    generalize env'.files.filter (fun f => Str.startsWith f.base (c ++ py% "_")) = path' at hp ⊢
    cases hp with
    | nil => exact Or.inl ⟨_, rfl, rfl⟩
    | @cons f f' fs fs' hf hfs =>
      cases ver with
      | exact v =>
        simp only
        have hfind : ∀ {l l' : List ConvFile}, List.Forall₂ (Spec.SameRows) l l' →
            (l.find? (fun g => fileVersion g.base = v) = none ∧ l'.find? (fun g => fileVersion g.base = v) = none) ∨
            ∃ g g', Spec.SameRows g g' ∧ l.find? (fun g => fileVersion g.base = v) = some g ∧
              l'.find? (fun g => fileVersion g.base = v) = some g' := by
          intro l l' hl
          induction hl with
          | nil => exact Or.inl ⟨rfl, rfl⟩
          | @cons g g' l l' hg _ ih =>
            by_cases hv : fileVersion g.base = v
            · exact Or.inr ⟨g, g', hg, by simp [hv], by simp [hg.base, hv]⟩
            · simpa [List.find?_cons, hg.base, hv] using ih
        rcases hfind (List.Forall₂.cons hf hfs) with ⟨h1, h2⟩ | ⟨g, g', hg, h1, h2⟩
        · rw [h1, h2]; exact Or.inl ⟨_, rfl, rfl⟩
        · rw [h1, h2]; exact Or.inr ⟨g, g', hg, rfl, rfl⟩
      | latest =>
        simp only
        have hmap : ∀ {l l' : List ConvFile}, List.Forall₂ (Spec.SameRows) l l' →
            (l.mapM (fun g => (pyFloat (fileVersion g.base)).map (fun q => (g, q))) = none ∧
              l'.mapM (fun g => (pyFloat (fileVersion g.base)).map (fun q => (g, q))) = none) ∨
            ∃ r r', l.mapM (fun g => (pyFloat (fileVersion g.base)).map (fun q => (g, q))) = some r ∧
              l'.mapM (fun g => (pyFloat (fileVersion g.base)).map (fun q => (g, q))) = some r' ∧
              List.Forall₂ (fun p p' => Spec.SameRows p.1 p'.1 ∧ p'.2 = p.2) r r' := by
          intro l l' hl
          induction hl with
          | nil => exact Or.inr ⟨[], [], rfl, rfl, .nil⟩
          | @cons g g' l l' hg _ ih =>
            simp only [List.mapM_cons, hg.base]
            cases pyFloat (fileVersion g.base) with
            | none => exact Or.inl ⟨rfl, rfl⟩
            | some q =>
              rcases ih with ⟨h1, h2⟩ | ⟨r, r', h1, h2, h3⟩
              · rw [h1, h2]; exact Or.inl ⟨rfl, rfl⟩
              · rw [h1, h2]
                exact Or.inr ⟨(g, q) :: r, (g', q) :: r', rfl, rfl, .cons ⟨hg, rfl⟩ h3⟩
        have hmax : ∀ {r r' : List (ConvFile × Rat)},
            List.Forall₂ (fun p p' => Spec.SameRows p.1 p'.1 ∧ p'.2 = p.2) r r' → ∀ b b' : ConvFile × Rat,
            Spec.SameRows b.1 b'.1 ∧ b'.2 = b.2 → Spec.SameRows (argmaxFile b r) (argmaxFile b' r') := by
          intro r r' hr
          induction hr with
          | nil => exact fun b b' hb => hb.1
          | @cons p p' r r' hp _ ih =>
            intro b b' hb
            unfold argmaxFile
            apply ih
            rw [hp.2, hb.2]
            split
            · exact hp
            · exact hb
        rcases hmap (List.Forall₂.cons hf hfs) with ⟨h1, h2⟩ | ⟨r, r', h1, h2, h3⟩
        · rw [h1, h2]; exact Or.inl ⟨_, rfl, rfl⟩
        · rw [h1, h2]
          cases h3 with
          | nil => exact Or.inl ⟨_, rfl, rfl⟩
          | cons hb hr => exact Or.inr ⟨_, _, hmax hr _ _ hb, rfl, rfl⟩
  unfold loadConvention
  rcases key with ⟨x, h1, h2⟩ | ⟨f, f', hf, h1, h2⟩
  · rw [h1, h2]; exact Or.inl ⟨x, rfl, rfl⟩
  · exact Or.inr ⟨f, f', selectFile_mem h1, selectFile_mem h2, hf, by rw [h1], by rw [h2]⟩

theorem Rearranged.verifyConvention {env env' : Env} (h : Spec.Rearranged env env') (v c : Str) :
    verifyConvention env' v c = verifyConvention env v c := by
  unfold Sofar.verifyConvention getConventions
  have : ∀ {l l' : List ConvFile}, List.Forall₂ (Spec.SameRows) l l' →
      l'.mapM (fun f => nameVersion f.base) = l.mapM (fun f => nameVersion f.base) := by
    intro l l' hl
    induction hl with
    | nil => rfl
    | @cons g g' l l' hg _ ih => simp only [List.mapM_cons, hg.base, ih]
  rw [this h.files]

theorem convertKeys_plain {d : Dict Entry} (h : (d.map (fun p => Spec.sofarName p.1)).Nodup) :
    convertKeys d = d.map (fun p => (Spec.sofarName p.1, p.2)) := by
  unfold convertKeys
  have e2 : (d.map (fun p => (Str.replaceChar p.1 ':' '_', p.2))).map (fun p => (Str.replaceChar p.1 '.' '_', p.2)) =
      d.map (fun p => (Spec.sofarName p.1, p.2)) := by
    rw [List.map_map]
    apply List.map_congr_left
    intro p _
    simp only [Function.comp, sofarName_colon]
  have n2 : ((d.map (fun p => (Spec.sofarName p.1, p.2))).map Prod.fst).Nodup := by
    rw [List.map_map]
    exact h
  have n1 : ((d.map (fun p => (Str.replaceChar p.1 ':' '_', p.2))).map Prod.fst).Nodup := by
    rw [List.map_map]
    have : (((d.map (fun p => Str.replaceChar p.1 ':' '_'))).map (fun k => Str.replaceChar k '.' '_')).Nodup := by
      rw [List.map_map]
      have e : (fun k => Str.replaceChar k '.' '_') ∘ (fun p : Str × Entry => Str.replaceChar p.1 ':' '_') =
          fun p => Spec.sofarName p.1 := by
        funext p
        simp only [Function.comp, sofarName_colon]
      rw [e]
      exact h
    exact List.Nodup.of_map _ this
  simp only [Dict.ofList_nodup _ n1]
  rw [e2, Dict.ofList_nodup _ n2]

theorem SameRows.entries {f f' : ConvFile} (h : Spec.SameRows f f') :
    Spec.SameEntries (convertKeys f.content) (convertKeys f'.content) := by
  have hn' : (f'.content.map (fun p => Spec.sofarName p.1)).Nodup := (h.rows.map _).nodup_iff.2 h.names
  rw [convertKeys_plain h.names, convertKeys_plain hn']
  refine ⟨h.rows.map _, ?_⟩
  rw [List.map_map]
  exact h.names

theorem Spec.SameRows.symm {f f' : ConvFile} (h : Spec.SameRows f f') : Spec.SameRows f' f :=
  ⟨h.base.symm, h.rows.symm, (h.rows.map _).nodup_iff.2 h.names⟩

theorem Spec.Rearranged.symm {env env' : Env} (h : Spec.Rearranged env env') : Spec.Rearranged env' env :=
  ⟨(h.files.imp fun _ _ g => g.symm).flip, by rw [h.rest]⟩

theorem Rearranged.conv {env env' : Env} (h : Spec.Rearranged env env') {c : Str} {ver : VersionArg} {conv : Dict Entry}
    (hl : loadConvention env c ver = .ok conv) : ∃ conv', loadConvention env' c ver = .ok conv' ∧ Spec.SameEntries conv conv' := by
  rcases Rearranged.load h c ver with ⟨x, hx, _⟩ | ⟨f, f', _, _, hR, h1, h2⟩
  · rw [hl] at hx; cases hx
  · rw [hl] at h1
    cases h1
    exact ⟨_, h2, SameRows.entries hR⟩

theorem Rearranged.reset {env env' : Env} (h : Spec.Rearranged env env') {o o1 : Obj}
    (hcu : ∀ c, o.custom = some c → (c.map Prod.fst).Nodup) (hr : resetConvention env o = .ok o1) :
    ∃ o1', resetConvention env' o = .ok o1' ∧ Shuffled o1 o1' ∧ o1'.attrs = o.attrs ∧ o1.attrs = o.attrs ∧
      (o.custom = none → o1.custom = none ∧ o1'.custom = none) := by
  obtain ⟨cv, c, v, conv, h1, h2, h3, h4, h5, h8⟩ := resetConvention_inv hr
  obtain ⟨conv', h6, hS⟩ := Rearranged.conv h h5
  have hv : Sofar.verifyConvention env' (pyStr env v) c = .ok () := (Rearranged.verifyConvention h _ _).trans h4
  have hps : pyStr env' v = pyStr env v := by rw [h.rest]; rfl
  have hget := get?_perm hS
  cases hc : o.custom with
  | none =>
    simp only [hc] at h8
    subst h8
    refine ⟨{ o with conv := conv', custom := none }, ?_,
      ⟨fun _ => rfl, rfl, fun _ => Iff.rfl, hget, fun p => hS.1.mem_iff⟩, rfl, rfl, fun _ => ⟨rfl, rfl⟩⟩
    unfold resetConvention
    simp only [h1, h2, h3, hps, hv, h6, hc]
  | some cu =>
    simp only [hc] at h8
    subst h8
    have hn := hcu cu hc
    have n1 := nodup_mergeCustom conv cu hS.2 hn
    have n2 := nodup_mergeCustom conv' cu (sameEntries_nodup hS) hn
    have e1 : ∀ k, Dict.get? (mergeCustom conv' cu).1 k = Dict.get? (mergeCustom conv cu).1 k := fun k => by
      rw [(get?_mergeCustom conv cu k hn).1, (get?_mergeCustom conv' cu k hn).1, hget]
    have e2 : ∀ k, Dict.get? (mergeCustom conv' cu).2 k = Dict.get? (mergeCustom conv cu).2 k := fun k => by
      rw [(get?_mergeCustom conv cu k hn).2, (get?_mergeCustom conv' cu k hn).2, hget]
    refine ⟨{ o with conv := (mergeCustom conv' cu).1, custom := some (mergeCustom conv' cu).2 }, ?_,
      ⟨fun _ => rfl, rfl, ?_, e1, ?_⟩, rfl, rfl, fun e => by cases e⟩
    · unfold resetConvention
      simp only [h1, h2, h3, hps, hv, h6, hc]
    · rintro ⟨k, e⟩
      simp only [Option.getD_some]
      exact mem_iff_of_get? n1.2 n2.2 e2 k e
    · rintro ⟨k, e⟩
      exact mem_iff_of_get? n1.1 n2.1 e1 k e

theorem Shuffled.trans {a b c : Obj} (h : Shuffled a b) (h' : Shuffled b c) : Shuffled a c :=
  ⟨fun k => (h'.get k).trans (h.get k), h'.customSome.trans h.customSome, fun p => (h'.customMem p).trans (h.customMem p),
    fun k => (h'.convGet k).trans (h.convGet k), fun p => (h'.convMem p).trans (h.convMem p)⟩

theorem Rearranged.resetBoth {env env' : Env} (h : Spec.Rearranged env env') {o o' o1 : Obj} (hR : Spec.Reordered o o')
    (hr : resetConvention env o = .ok o1) :
    ∃ o1', resetConvention env' o' = .ok o1' ∧ Shuffled o1 o1' ∧ o1'.attrs = o'.attrs ∧ o1.attrs = o.attrs := by
  rcases reordered_reset (env := env) hR with ⟨x, h1, _⟩ | ⟨p, p', h1, h2, h3, h4, h5⟩
  · rw [hr] at h1; cases h1
  rw [hr] at h1
  cases h1
  obtain ⟨q, g1, g2, g3, g4, _⟩ := Rearranged.reset h (o := o') (fun c hc => by
    rcases hR.custom with ⟨_, g⟩ | ⟨x, y, _, g, hS⟩
    · rw [hc] at g; cases g
    · rw [hc] at g
      cases g
      exact sameEntries_nodup hS) h2
  exact ⟨q, g1, h3.trans g2, g3, h4⟩

/-! ## The verification -/

theorem Passes.files {inner inner' : Inner} {env env' : Env} {o o3 : Obj} {mode : Mode} (he : env' = { env with files := env'.files })
    (hi : (phaseCustomNames inner' o).1 = .ok []) (h : Passes inner env o o3 mode) : Passes inner' env' o o3 mode := by
  refine ⟨h.mandatory, ?_, h.names, hi, h.dims, h.shapes, ?_, ?_⟩
  · rw [he]; exact h.types
  · rw [he]; exact h.rules
  · rw [he]; exact h.deprec

theorem phaseCustomNames_none (i : Inner) {o : Obj} (h : o.custom = none) : (phaseCustomNames i o).1 = .ok [] := by
  unfold phaseCustomNames
  simp [h]

theorem defines_congr {o o' : Obj} (ha : ∀ k, Dict.get? o'.attrs k = Dict.get? o.attrs k)
    (hc : ∀ k, Dict.get? o'.conv k = Dict.get? o.conv k) (h : Spec.AgreeOnSizes o) : Spec.AgreeOnSizes o' := by
  intro k k' c n n' h1 h2 hne
  have key : ∀ {k c n}, Spec.Defines o' k c n → Spec.Defines o k c n := by
    rintro k c n ⟨v, e, d, a, i, x, ⟨g1, g2, g3⟩, hr⟩
    exact ⟨v, e, d, a, i, x, ⟨by rw [← ha]; exact g1, by rw [← hc]; exact g2, g3⟩, hr⟩
  exact h k k' c n n' (key h1) (key h2) hne

/-- verification of objects without custom data -/
theorem Rearranged.verifyNew {env env' : Env} (h : Spec.Rearranged env env') {o o' : Obj} {mode : Mode}
    (hR : Spec.Reordered o o') (hc : o.custom = none)
    (hv : (verifyNew env o .raise mode).out = .ok none) (ha : Spec.AgreeOnSizes (verifyNew env o .raise mode).obj) :
    (Sofar.verifyNew env' o' .raise mode).out = .ok none ∧ (Sofar.verifyNew env' o' .raise mode).obj.attrs = o'.attrs ∧
      (Sofar.verifyNew env o .raise mode).obj.attrs = o.attrs ∧
      (Sofar.verifyNew env' o' .raise mode).obj.custom = none ∧ (Sofar.verifyNew env o .raise mode).obj.custom = none ∧
      ∀ p, p ∈ (Sofar.verifyNew env' o' .raise mode).obj.conv ↔ p ∈ (Sofar.verifyNew env o .raise mode).obj.conv := by
  unfold Sofar.verifyNew at hv ha ⊢
  obtain ⟨_, o1, o3, h1, h2⟩ := (verifyG_raise_ok_iff _ _ _ _ _).1 hv
  obtain ⟨o1', h3, h4, h5, h6⟩ := Rearranged.resetBoth h hR h1
  have hc' : o'.custom = none := by
    rcases hR.custom with ⟨_, g⟩ | ⟨x, y, g, _⟩
    · exact g
    · rw [hc] at g; cases g
  have fr := verifyG_frame (fun _ _ => (⟨.error .unmodelled, []⟩ : Inner)) env o .raise mode
  have fr' := verifyG_frame (fun _ _ => (⟨.error .unmodelled, []⟩ : Inner)) env' o' .raise mode
  have d1 : (verifyG (fun _ _ => (⟨.error .unmodelled, []⟩ : Inner)) env o .raise mode).obj.custom = none := by
    have := fr.customSome
    rw [hc] at this
    simpa using this
  have d2 : (verifyG (fun _ _ => (⟨.error .unmodelled, []⟩ : Inner)) env' o' .raise mode).obj.custom = none := by
    have := fr'.customSome
    rw [hc'] at this
    simpa using this
  have c1 : o1.custom = none := by rw [← (fr.loaded o1 h1).2]; exact d1
  have c2 : o1'.custom = none := by rw [← (fr'.loaded o1' h3).2]; exact d2
  have ha1 : Spec.AgreeOnSizes o1 := by
    refine defines_congr (fun k => ?_) (fun k => ?_) ha
    · rw [h6, fr.raise rfl]
    · rw [(fr.loaded o1 h1).1]
  have hcm : Spec.CustomNoMethod o1 := fun c k e hcu _ => by rw [c1] at hcu; cases hcu
  obtain ⟨o3', h8, h9⟩ := h4.passes hcm ha1 (env := env) (h2.files (inner' := referenceNames env o1) rfl (phaseCustomNames_none _ c1))
  have hp' := h8.files (env' := env') (inner' := ⟨.error .unmodelled, []⟩) h.rest (phaseCustomNames_none _ c2)
  refine ⟨(verifyG_raise_ok_iff _ _ _ _ _).2 ⟨rfl, o1', o3', h3, hp'⟩, fr'.raise rfl, fr.raise rfl, d2, d1, ?_⟩
  intro p
  rw [(fr.loaded o1 h1).1, (fr'.loaded o1' h3).1]
  exact h4.convMem p

/-! ## New objects -/

/-- the rows that give data -/
def chosen (m : Bool) (l : Dict Entry) : Dict Entry := l.filter (fun p => ! (! mandatory p.2.flags && m))

/-- the default values -/
def defaultOf (e : Entry) : Inp := (initDefault e).toOption.getD .ragged

/-- the assignments of the default values -/
def defaultsOf (m : Bool) (l : Dict Entry) : List (Str × Inp) := (chosen m l).map (fun p => (p.1, defaultOf p.2))

theorem addDefaults_iff (m : Bool) : ∀ (l : Dict Entry) (o o2 : Obj), addDefaults m l o = .ok o2 ↔
    (∀ p ∈ chosen m l, ∃ d, initDefault p.2 = .ok d) ∧ Spec.Assigned o (defaultsOf m l) o2 := by
  intro l
  induction l with
  | nil =>
    intro o o2
    constructor
    · intro h
      cases h
      exact ⟨by simp [chosen], .nil _⟩
    · rintro ⟨_, h⟩
      cases h
      rfl
  | cons p l ih =>
    obtain ⟨k, e⟩ := p
    intro o o2
    by_cases hm : (! mandatory e.flags && m) = true
    · have hch : chosen m ((k, e) :: l) = chosen m l := by
        unfold chosen
        rw [List.filter_cons_of_neg (by simp [hm])]
      unfold defaultsOf
      rw [addDefaults, if_pos hm, hch]
      exact ih o o2
    · have hch : chosen m ((k, e) :: l) = (k, e) :: chosen m l := by
        unfold chosen
        rw [List.filter_cons_of_pos (by cases h1 : mandatory e.flags <;> cases m <;> simp_all)]
      unfold defaultsOf
      rw [addDefaults, if_neg hm, hch]
      constructor
      · intro h
        cases hi : initDefault e with
        | error x => simp [hi] at h
        | ok d =>
          simp only [hi] at h
          cases hs : (setAttr o k d).out with
          | error x => simp [hs] at h
          | ok u =>
            simp only [hs] at h
            obtain ⟨g1, g2⟩ := (ih _ _).1 h
            refine ⟨fun p hp => ?_, ?_⟩
            · rcases List.mem_cons.1 hp with rfl | hp
              · exact ⟨d, hi⟩
              · exact g1 p hp
            · have hd : defaultOf e = d := by simp [defaultOf, hi, Except.toOption]
              rw [List.map_cons]
              simp only [hd]
              exact .cons hs g2
      · rintro ⟨g1, g2⟩
        obtain ⟨d, hi⟩ := g1 (k, e) List.mem_cons_self
        have hd : defaultOf e = d := by simp only [defaultOf]; simp only at hi; simp [hi, Except.toOption]
        rw [List.map_cons] at g2
        simp only [hd] at g2
        cases g2 with
        | cons h ht =>
          simp only at hi
          simp only [hi, h]
          exact (ih _ _).2 ⟨fun p hp => g1 p (List.mem_cons_of_mem _ hp), ht⟩

theorem setAttr_unprotected {o o' : Obj} (h : o.prot = false) (h' : o'.prot = false) {n : Str} {v : Inp}
    (hs : (setAttr o n v).out = .ok ()) : (setAttr o' n v).out = .ok () := by
  unfold setAttr at hs ⊢
  simp only [h, h', Bool.false_and, Bool.and_false, Bool.false_eq_true, if_false] at hs ⊢
  split
  · rename_i hn
    rw [if_pos hn] at hs
    cases v <;> simp_all
  · rename_i hn
    rw [if_neg hn] at hs
    cases hv : normalise v with
    | error e => rw [hv] at hs; simp at hs
    | ok w =>
      rw [hv] at hs
      simp only at hs ⊢
      split
      · rename_i g; rw [if_pos g] at hs; simp at hs
      · rename_i g
        rw [if_neg g] at hs
        split
        · rename_i g2; rw [if_pos g2] at hs; simp at hs
        · rfl

theorem mem_of_samePairs {V : Type} {d d' : Dict V} (hn : (Dict.keys d).Nodup) (hn' : (Dict.keys d').Nodup)
    (h : ∀ k, Dict.get? d' k = Dict.get? d k) : Spec.SameEntries d d' := by
  refine ⟨(List.perm_ext_iff_of_nodup (List.Nodup.of_map _ hn') (List.Nodup.of_map _ hn)).2 ?_, hn⟩
  rintro ⟨k, v⟩
  exact mem_iff_of_get? hn hn' h k v

theorem Rearranged.defaults {conv conv' : Dict Entry} (hS : Spec.SameEntries conv conv') {m : Bool} {o2 : Obj}
    (hp : py% "protected" ∉ conv.map Prod.fst) (h : addDefaults m conv (emptyObj conv) = .ok o2) :
    ∃ o2', addDefaults m conv' (emptyObj conv') = .ok o2' ∧ Spec.SameEntries o2.attrs o2'.attrs ∧
      o2.conv = conv ∧ o2'.conv = conv' ∧ o2.custom = none ∧ o2'.custom = none := by
  obtain ⟨h1, h2⟩ := (addDefaults_iff _ _ _ _).1 h
  have hsub : ∀ {c : Dict Entry} {k : Str}, k ∈ (defaultsOf m c).map Prod.fst → k ∈ c.map Prod.fst := by
    intro c k hk
    simp only [defaultsOf, List.map_map, List.mem_map, Function.comp] at hk
    obtain ⟨p, hp, rfl⟩ := hk
    exact List.mem_map.2 ⟨p, (List.mem_filter.1 hp).1, rfl⟩
  have hperm : (defaultsOf m conv').Perm (defaultsOf m conv) := (hS.1.filter _).map _
  have hpd : py% "protected" ∉ (defaultsOf m conv).map Prod.fst := fun hm => hp (hsub hm)
  have hnd : ((defaultsOf m conv).map Prod.fst).Nodup := by
    have : (defaultsOf m conv).map Prod.fst = (chosen m conv).map Prod.fst := by
      simp [defaultsOf, Function.comp_def]
    rw [this]
    exact Dict.nodup_filter _ hS.2
  obtain ⟨g1, g2⟩ := (assigned_iff hpd).1 h2
  have hpd' : py% "protected" ∉ (defaultsOf m conv').map Prod.fst := fun hm => hpd ((hperm.map _).mem_iff.1 hm)
  obtain ⟨o3, k1, k2, k3, -⟩ := assigned_order (o := emptyObj conv) (by simp [emptyObj]) hperm hnd hpd h2
  obtain ⟨q1, q2⟩ := (assigned_iff hpd').1 k1
  refine ⟨_, (addDefaults_iff _ _ _ _).2 ⟨fun p hp => h1 p ((hS.1.filter _).mem_iff.1 hp),
    (assigned_iff hpd').2 ⟨fun p hp => setAttr_unprotected rfl rfl (q1 p hp), rfl⟩⟩, ?_, ?_, rfl, ?_, rfl⟩
  · rw [q2] at k2
    refine ⟨k2, ?_⟩
    rw [g2]
    exact Dict.nodup_foldl_put _ _ (by simp [emptyObj, Dict.keys])
  · rw [g2]; rfl
  · rw [g2]; rfl

theorem Rearranged.fresh {env env' : Env} (h : Spec.Rearranged env env') {conv conv' : Dict Entry} (hS : Spec.SameEntries conv conv')
    {m : Bool} {o : Obj} (hp : py% "protected" ∉ conv.map Prod.fst) (hc : conventionToSofa env m (emptyObj conv) = .ok o) :
    ∃ o', conventionToSofa env' m (emptyObj conv') = .ok o' ∧ Spec.SameEntries o.attrs o'.attrs ∧
      o.conv = conv ∧ o'.conv = conv' ∧ o.custom = none ∧ o'.custom = none := by
  unfold conventionToSofa at hc ⊢
  have hs : stamps env' = stamps env := by rw [h.rest]; rfl
  cases hd : addDefaults m conv (emptyObj conv) with
  | error x => rw [show (emptyObj conv).conv = conv from rfl, hd] at hc; simp at hc
  | ok o1 =>
    rw [show (emptyObj conv).conv = conv from rfl, hd] at hc
    simp only [Except.ok.injEq] at hc
    obtain ⟨o1', g1, g2, g3, g4, g5, g6⟩ := Rearranged.defaults hS hp hd
    rw [show (emptyObj conv').conv = conv' from rfl, g1, hs]
    refine ⟨_, rfl, ?_, by rw [← hc]; exact g3, g4, by rw [← hc]; exact g5, g6⟩
    rw [← hc]
    have e : ∀ x : Obj, (putStamps (stamps env) x).attrs =
        ((stamps env).map (fun p => (p.1, Val.str p.2))).foldl (fun d p => Dict.put d p.1 p.2) x.attrs := by
      intro x
      simp only [putStamps, List.foldl_map]
    simp only [e]
    refine mem_of_samePairs (Dict.nodup_foldl_put _ _ g2.2) (Dict.nodup_foldl_put _ _ (sameEntries_nodup g2)) (fun k => ?_)
    rw [Dict.get?_foldl_put, Dict.get?_foldl_put, get?_perm g2]

/-- The constructor with the rows in another order. -/
theorem Rearranged.created {env env' : Env} (h : Spec.Rearranged env env') {c : Str} {m : Bool} {ver : VersionArg} {a : VerifyArg}
    {n : Obj} (hp : ∀ f ∈ env.files, ∀ key e, (key, e) ∈ f.content → Spec.sofarName key ≠ py% "protected")
    (hn : (initSofa env c m ver a).out = .ok n) (ha : Spec.AgreeOnSizes n) :
    ∃ n', (initSofa env' c m ver a).out = .ok n' ∧ Spec.Reordered n n' ∧ (∀ p, p ∈ n'.conv ↔ p ∈ n.conv) := by
  unfold initSofa at hn ⊢
  rcases Rearranged.load h c ver with ⟨x, hx, _⟩ | ⟨f, f', hf, _, hR, hl, hl'⟩
  · simp [hx] at hn
  have hS := SameRows.entries hR
  have hpr : py% "protected" ∉ (convertKeys f.content).map Prod.fst := by
    intro hm
    obtain ⟨⟨k, e⟩, hke, rfl⟩ := List.mem_map.1 hm
    obtain ⟨k0, h0, hk⟩ := convertKeys_get (Dict.get?_of_mem hS.2 hke)
    exact hp f hf k0 e h0 hk.symm
  simp only [hl] at hn
  simp only [hl']
  cases hc : conventionToSofa env m (emptyObj (convertKeys f.content)) with
  | error x => simp [hc] at hn
  | ok o =>
    simp only [hc] at hn
    obtain ⟨o', hc', hA, hv1, hv2, hu1, hu2⟩ := Rearranged.fresh h hS hpr hc
    simp only [hc']
    have hcv : conventionVersion (convertKeys f'.content) = conventionVersion (convertKeys f.content) := by
      unfold conventionVersion
      rw [get?_perm hS]
    rw [hcv]
    have hfin : ∀ v b, (finishInit env m v b o).out = .ok n →
        ∃ n', (finishInit env' m v b o').out = .ok n' ∧ Spec.Reordered n n' ∧ (∀ p, p ∈ n'.conv ↔ p ∈ n.conv) := by
      intro v b hf
      unfold finishInit at hf ⊢
      by_cases hb : (b && ! m) = true
      · rw [if_pos hb] at hf ⊢
        simp only at hf ⊢
        cases hr : (Sofar.verifyNew env o .raise .read).out with
        | error x => simp [hr] at hf
        | ok r =>
          have hr0 : r = none := ((verifyG_raise_ok_iff _ _ _ _ _).1 hr).1
          subst hr0
          simp only [hr, Except.ok.injEq] at hf
          have haw : Spec.AgreeOnSizes (Sofar.verifyNew env o .raise .read).obj := by
            refine defines_congr (o := n) (fun k => ?_) (fun k => ?_) ha
            · rw [← hf]
            · rw [← hf]
          obtain ⟨w1, w2, w3, w4, w5, w6⟩ := Rearranged.verifyNew h ⟨hA, .inl ⟨hu1, hu2⟩⟩ hu1 hr haw
          simp only [w1]
          refine ⟨_, rfl, ⟨?_, .inl ⟨?_, ?_⟩⟩, fun p => ?_⟩
          · rw [← hf]
            simp only [w2, w3]
            exact hA
          · rw [← hf]; exact w5
          · exact w4
          · rw [← hf]; exact w6 p
      · rw [if_neg hb] at hf ⊢
        cases hst : isStable v with
        | error x => simp [hst] at hf
        | ok t =>
          cases t <;>
          · simp only [hst, Except.ok.injEq] at hf ⊢
            refine ⟨_, rfl, ⟨by rw [← hf]; exact hA, .inl ⟨by rw [← hf]; exact hu1, hu2⟩⟩, fun p => ?_⟩
            rw [← hf]
            simp only [hv1, hv2]
            exact hS.1.mem_iff
    cases hv : conventionVersion (convertKeys f.content) with
    | error x => simp [hv] at hn
    | ok v =>
      simp only [hv] at hn ⊢
      cases a with
      | yes => exact hfin _ _ hn
      | no => exact hfin _ _ hn
      | auto =>
        simp only at hn ⊢
        cases hb : isStable v with
        | error x => simp [hb] at hn
        | ok b =>
          simp only [hb] at hn ⊢
          exact hfin _ _ hn

/-! ## Objects with custom data -/

theorem Rearranged.reference {env env' : Env} (h : Spec.Rearranged env env') {o : Obj}
    (hp : ∀ f ∈ env.files, ∀ key e, (key, e) ∈ f.content → Spec.sofarName key ≠ py% "protected")
    (hd : ∀ c ver n, (initSofa env c false ver .auto).out = .ok n → Spec.AgreeOnSizes n)
    (hi : (phaseCustomNames (referenceNames env o) o).1 = .ok []) : (phaseCustomNames (referenceNames env' o) o).1 = .ok [] := by
  have href : ∀ names, (referenceNames env o).out = .ok names → ∃ names', (referenceNames env' o).out = .ok names' ∧
      ∀ k ∈ names', k ∈ names := by
    intro names hr
    unfold referenceNames at hr ⊢
    cases e1 : o.getAttr (py% "GLOBAL_SOFAConventions") with
    | error x => simp [e1] at hr
    | ok cv =>
      cases e2 : o.getAttr (py% "GLOBAL_SOFAConventionsVersion") with
      | error x => simp [e1, e2] at hr
      | ok v =>
        simp only [e1, e2] at hr ⊢
        cases e3 : cv.asStr with
        | none => simp [e3] at hr
        | some s =>
          cases e4 : v.asStr with
          | none => simp [e3, e4] at hr
          | some t =>
            simp only [e3, e4] at hr ⊢
            cases e5 : (initSofa env s false (if t = py% "latest" then .latest else .exact t) .auto).out with
            | error x => simp [e5] at hr
            | ok n =>
              simp only [e5, Except.ok.injEq] at hr
              obtain ⟨n', e6, _, e7⟩ := Rearranged.created h hp e5 (hd _ _ _ e5)
              rw [e6]
              refine ⟨_, rfl, ?_⟩
              rw [← hr]
              intro k hk
              obtain ⟨q, hq, rfl⟩ := List.mem_map.1 hk
              exact List.mem_map.2 ⟨q, (e7 q).1 hq, rfl⟩
  unfold phaseCustomNames at hi ⊢
  cases hcc : o.custom with
  | none => rfl
  | some cu =>
    simp only [hcc] at hi ⊢
    cases hr : (referenceNames env o).out with
    | error x => simp [hr] at hi
    | ok names =>
      simp only [hr, Except.ok.injEq] at hi
      rw [section_nil_iff _ _ (by simp)] at hi
      obtain ⟨names', g1, g2⟩ := href names hr
      simp only [g1, Except.ok.injEq]
      rw [section_nil_iff _ _ (by simp)]
      rw [nameCustom_nil_iff] at hi ⊢
      intro p hpm
      have := hi p hpm
      cases hcon : (names'.map (fun n => Str.replace n (py% "GLOBAL_") [])).contains (Str.replace p.1 (py% "GLOBAL_") []) with
      | false => rfl
      | true =>
        rw [List.contains_iff_mem] at hcon
        obtain ⟨k, hk, hke⟩ := List.mem_map.1 hcon
        have : (names.map (fun n => Str.replace n (py% "GLOBAL_") [])).contains (Str.replace p.1 (py% "GLOBAL_") []) = true := by
          rw [List.contains_iff_mem]
          exact List.mem_map.2 ⟨k, g2 k hk, hke⟩
        rw [hi p hpm] at this
        cases this

/-- The verification with the rows and the data in another order. -/
theorem Rearranged.verify {env env' : Env} (h : Spec.Rearranged env env') {o o' : Obj} {mode : Mode} (hR : Spec.Reordered o o')
    (hv : (verify env o .raise mode).out = .ok none) (ha : Spec.AgreeOnSizes (verify env o .raise mode).obj)
    (hm : Spec.CustomNoMethod (verify env o .raise mode).obj)
    (hd : o.custom ≠ none → (∀ f ∈ env.files, ∀ key e, (key, e) ∈ f.content → Spec.sofarName key ≠ py% "protected") ∧
      ∀ c ver n, (initSofa env c false ver .auto).out = .ok n → Spec.AgreeOnSizes n) :
    (Sofar.verify env' o' .raise mode).out = .ok none ∧
      Settled (Sofar.verify env o .raise mode).obj (Sofar.verify env' o' .raise mode).obj ∧
      (Sofar.verify env o .raise mode).obj.attrs = o.attrs ∧ (Sofar.verify env' o' .raise mode).obj.attrs = o'.attrs := by
  unfold Sofar.verify at hv ha hm ⊢
  obtain ⟨_, o1, o3, h1, h2⟩ := (verifyG_raise_ok_iff _ _ _ _ _).1 hv
  obtain ⟨o1', h3, h4, h5, h6⟩ := Rearranged.resetBoth h hR h1
  have fr := verifyG_frame referenceNames env o .raise mode
  have fr' := verifyG_frame referenceNames env' o' .raise mode
  have ha1 : Spec.AgreeOnSizes o1 := by
    refine defines_congr (fun k => ?_) (fun k => ?_) ha
    · rw [h6, fr.raise rfl]
    · rw [(fr.loaded o1 h1).1]
  have hm1 : Spec.CustomNoMethod o1 := fun c k e hcu hmem => hm c k e (by rw [(fr.loaded o1 h1).2]; exact hcu) hmem
  obtain ⟨o3', h8, h9⟩ := h4.passes hm1 ha1 h2
  have hp' : Passes (referenceNames env' o1') env' o1' o3' mode := by
    refine h8.files h.rest ?_
    cases hc : o.custom with
    | none =>
      refine phaseCustomNames_none _ ?_
      have g1 := fr.customSome
      have g2 := h4.customSome
      rw [(fr.loaded o1 h1).2, hc] at g1
      rw [g1] at g2
      simpa using g2
    | some cu =>
      obtain ⟨q1, q2⟩ := hd (by rw [hc]; simp)
      exact Rearranged.reference h q1 q2 h8.custom
  refine ⟨(verifyG_raise_ok_iff _ _ _ _ _).2 ⟨rfl, o1', o3', h3, hp'⟩, ?_, fr.raise rfl, fr'.raise rfl⟩
  rw [verifyG_raise_ok_obj _ _ _ _ _ _ h1 h2, verifyG_raise_ok_obj _ _ _ _ _ _ h3 hp']
  exact h9

end Sofar
