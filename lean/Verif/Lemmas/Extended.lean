import Verif.Lemmas.OneByOne
import Verif.Spec.Extended
/-!
# Verification with extended conventions
-/
namespace Sofar

/-! ## Dictionaries -/

theorem Dict.put_filter {V : Type} (Q : Str → Bool) (d : Dict V) (k : Str) (v : V) :
    (Dict.put d k v).filter (fun p => Q p.1) =
      if Q k then Dict.put (d.filter (fun p => Q p.1)) k v else d.filter (fun p => Q p.1) := by
  induction d with
  | nil => cases hq : Q k <;> simp [Dict.put, hq]
  | cons p d ih =>
    obtain ⟨k', v'⟩ := p
    by_cases he : k' = k
    · subst he
      cases hq : Q k' <;> simp [Dict.put, hq]
    · cases hq : Q k' <;> cases hk : Q k <;> simp [Dict.put, he, hq, hk] at ih ⊢ <;> exact ih

theorem Dict.ofList_filter {V : Type} (Q : Str → Bool) (l : List (Str × V)) :
    Dict.ofList (l.filter (fun p => Q p.1)) = (Dict.ofList l).filter (fun p => Q p.1) := by
  unfold Dict.ofList
  have : ∀ (l : List (Str × V)) (d : Dict V),
      (l.filter (fun p => Q p.1)).foldl (fun d p => Dict.put d p.1 p.2) (d.filter (fun p => Q p.1)) =
        (l.foldl (fun d p => Dict.put d p.1 p.2) d).filter (fun p => Q p.1) := by
    intro l
    induction l with
    | nil => intro d; rfl
    | cons p l ih =>
      intro d
      rw [List.foldl_cons, ← ih, Dict.put_filter]
      cases hq : Q p.1 <;> simp [List.filter_cons, hq]
  simpa using this l []

theorem Dict.get?_filterKeys {V : Type} (Q : Str → Bool) (d : Dict V) (k : Str) :
    Dict.get? (d.filter (fun p => Q p.1)) k = if Q k then Dict.get? d k else none := by
  induction d with
  | nil => simp [Dict.get?]
  | cons p d ih =>
    obtain ⟨k', v'⟩ := p
    by_cases he : k' = k
    · subst he
      cases hq : Q k' <;> simp [List.filter_cons, Dict.get?, hq] at ih ⊢
      exact ih
    · cases hq : Q k' <;> simp [List.filter_cons, Dict.get?, hq, he] at ih ⊢ <;> exact ih

theorem convertKeys_filter (Q : Str → Bool) (d : Dict Entry) :
    convertKeys (d.filter (fun p => Q (Spec.sofarName p.1))) = (convertKeys d).filter (fun p => Q p.1) := by
  unfold convertKeys
  simp only
  rw [← Dict.ofList_filter Q]
  congr 1
  rw [List.filter_map]
  congr 1
  have h1 : ((fun p : Str × Entry => Q p.1) ∘ fun p => (Str.replaceChar p.1 '.' '_', p.2)) =
      fun p : Str × Entry => (fun k => Q (Str.replaceChar k '.' '_')) p.1 := rfl
  rw [h1, ← Dict.ofList_filter (fun k => Q (Str.replaceChar k '.' '_'))]
  congr 1
  rw [List.filter_map]
  congr 1
  apply List.filter_congr
  intro p _
  simp only [Function.comp, sofarName_colon]

/-! ## Files -/

theorem Extended.load {new : List Str} {env env' : Env} (h : Spec.Extended new env env') (c : Str) (ver : VersionArg) :
    (∃ x, loadConvention env c ver = .error x ∧ loadConvention env' c ver = .error x) ∨
    ∃ f f', f ∈ env.files ∧ f' ∈ env'.files ∧ Spec.Extends new f f' ∧ loadConvention env c ver = .ok (convertKeys f.content) ∧
      loadConvention env' c ver = .ok (convertKeys f'.content) := by
  have key : (∃ x, selectFile env c ver = .error x ∧ selectFile env' c ver = .error x) ∨
      ∃ f f', Spec.Extends new f f' ∧ selectFile env c ver = .ok f ∧ selectFile env' c ver = .ok f' := by
    unfold selectFile
    have hfil : ∀ (Q : Str → Bool) {l l' : List ConvFile}, List.Forall₂ (Spec.Extends new) l l' →
        List.Forall₂ (Spec.Extends new) (l.filter (fun f => Q f.base)) (l'.filter (fun f => Q f.base)) := by
      intro Q l l' hl
      induction hl with
      | nil => exact .nil
      | @cons f f' l l' hf _ ih =>
        cases hq : Q f.base
        · simpa [List.filter_cons, hf.base, hq] using ih
        · simpa [List.filter_cons, hf.base, hq] using ⟨hf, ih⟩
    have hp := hfil (fun b => Str.startsWith b (c ++ py% "_")) h.files
    simp only
    generalize env.files.filter (fun f => Str.startsWith f.base (c ++ py% "_")) = path at hp ⊢
    generalize env'.files.filter (fun f => Str.startsWith f.base (c ++ py% "_")) = path' at hp ⊢
    cases hp with
    | nil => exact Or.inl ⟨_, rfl, rfl⟩
    | @cons f f' fs fs' hf hfs =>
      cases ver with
      | exact v =>
        simp only
        have hfind : ∀ {l l' : List ConvFile}, List.Forall₂ (Spec.Extends new) l l' →
            (l.find? (fun g => fileVersion g.base = v) = none ∧ l'.find? (fun g => fileVersion g.base = v) = none) ∨
            ∃ g g', Spec.Extends new g g' ∧ l.find? (fun g => fileVersion g.base = v) = some g ∧
              l'.find? (fun g => fileVersion g.base = v) = some g' := by
          intro l l' hl
          induction hl with
          | nil => exact Or.inl ⟨rfl, rfl⟩
          | @cons g g' l l' hg _ ih =>
            by_cases hv : fileVersion g.base = v
            · exact Or.inr ⟨g, g', hg, by simp [hv], by simp [hg.base, hv]⟩
            · simpa [List.find?_cons, hg.base, hv] using ih
        rcases hfind (List.Forall₂.cons hf hfs) with ⟨h1, h2⟩ | ⟨g, g', hg, h1, h2⟩
        · rw [h1, h2]; exact Or.inl ⟨_, rfl, rfl⟩
        · rw [h1, h2]; exact Or.inr ⟨g, g', hg, rfl, rfl⟩
      | latest =>
        simp only
        have hmap : ∀ {l l' : List ConvFile}, List.Forall₂ (Spec.Extends new) l l' →
            (l.mapM (fun g => (pyFloat (fileVersion g.base)).map (fun q => (g, q))) = none ∧
              l'.mapM (fun g => (pyFloat (fileVersion g.base)).map (fun q => (g, q))) = none) ∨
            ∃ r r', l.mapM (fun g => (pyFloat (fileVersion g.base)).map (fun q => (g, q))) = some r ∧
              l'.mapM (fun g => (pyFloat (fileVersion g.base)).map (fun q => (g, q))) = some r' ∧
              List.Forall₂ (fun p p' => Spec.Extends new p.1 p'.1 ∧ p'.2 = p.2) r r' := by
          intro l l' hl
          induction hl with
          | nil => exact Or.inr ⟨[], [], rfl, rfl, .nil⟩
          | @cons g g' l l' hg _ ih =>
            simp only [List.mapM_cons, hg.base]
            cases pyFloat (fileVersion g.base) with
            | none => exact Or.inl ⟨rfl, rfl⟩
            | some q =>
              rcases ih with ⟨h1, h2⟩ | ⟨r, r', h1, h2, h3⟩
              · rw [h1, h2]; exact Or.inl ⟨rfl, rfl⟩
              · rw [h1, h2]
                exact Or.inr ⟨(g, q) :: r, (g', q) :: r', rfl, rfl, .cons ⟨hg, rfl⟩ h3⟩
        have hmax : ∀ {r r' : List (ConvFile × Rat)},
            List.Forall₂ (fun p p' => Spec.Extends new p.1 p'.1 ∧ p'.2 = p.2) r r' → ∀ b b' : ConvFile × Rat,
            Spec.Extends new b.1 b'.1 ∧ b'.2 = b.2 → Spec.Extends new (argmaxFile b r) (argmaxFile b' r') := by
          intro r r' hr
          induction hr with
          | nil => exact fun b b' hb => hb.1
          | @cons p p' r r' hp _ ih =>
            intro b b' hb
            unfold argmaxFile
            apply ih
            rw [hp.2, hb.2]
            split
            · exact hp
            · exact hb
        rcases hmap (List.Forall₂.cons hf hfs) with ⟨h1, h2⟩ | ⟨r, r', h1, h2, h3⟩
        · rw [h1, h2]; exact Or.inl ⟨_, rfl, rfl⟩
        · rw [h1, h2]
          cases h3 with
          | nil => exact Or.inl ⟨_, rfl, rfl⟩
          | cons hb hr => exact Or.inr ⟨_, _, hmax hr _ _ hb, rfl, rfl⟩
  unfold loadConvention
  rcases key with ⟨x, h1, h2⟩ | ⟨f, f', hf, h1, h2⟩
  · rw [h1, h2]; exact Or.inl ⟨x, rfl, rfl⟩
  · exact Or.inr ⟨f, f', selectFile_mem h1, selectFile_mem h2, hf, by rw [h1], by rw [h2]⟩

theorem Extended.verifyConvention {new : List Str} {env env' : Env} (h : Spec.Extended new env env') (v c : Str) :
    verifyConvention env' v c = verifyConvention env v c := by
  unfold Sofar.verifyConvention getConventions
  have : ∀ {l l' : List ConvFile}, List.Forall₂ (Spec.Extends new) l l' →
      l'.mapM (fun f => nameVersion f.base) = l.mapM (fun f => nameVersion f.base) := by
    intro l l' hl
    induction hl with
    | nil => rfl
    | @cons g g' l l' hg _ ih => simp only [List.mapM_cons, hg.base, ih]
  rw [this h.files]

/-- a loaded convention and its extension -/
structure Wider (new : List Str) (conv conv' : Dict Entry) : Prop where
  same : ∀ k, k ∉ new → Dict.get? conv' k = Dict.get? conv k
  none : ∀ k ∈ new, Dict.get? conv k = none
  optional : ∀ p ∈ conv', mandatory p.2.flags = true → p ∈ conv
  nodup : (Dict.keys conv).Nodup
  nodup' : (Dict.keys conv').Nodup

theorem Extends.wider {new : List Str} {f f' : ConvFile} (h : Spec.Extends new f f') :
    Wider new (convertKeys f.content) (convertKeys f'.content) := by
  have hc : convertKeys f.content = (convertKeys f'.content).filter (fun p => ! new.contains p.1) := by
    rw [h.rows, convertKeys_filter (fun k => ! new.contains k)]
  have hn : (Dict.keys (convertKeys f'.content)).Nodup := Dict.nodup_ofList _
  refine ⟨?_, ?_, ?_, Dict.nodup_ofList _, hn⟩
  · intro k hk
    rw [hc, Dict.get?_filterKeys (fun k => ! new.contains k)]
    simp [hk]
  · intro k hk
    rw [hc, Dict.get?_filterKeys (fun k => ! new.contains k)]
    simp [hk]
  · intro p hp hm
    rw [hc, List.mem_filter]
    refine ⟨hp, ?_⟩
    obtain ⟨k, e⟩ := p
    obtain ⟨k0, h0, hk⟩ := convertKeys_get (Dict.get?_of_mem hn hp)
    by_cases hk' : k ∈ new
    · exfalso
      apply h.optional k0 e h0 (hk ▸ hk')
      exact (mandatory_iff _).1 hm
    · simp [hk']

theorem Extends.convert {new : List Str} {f f' : ConvFile} (h : Spec.Extends new f f') :
    convertKeys f.content = (convertKeys f'.content).filter (fun p => ! new.contains p.1) := by
  rw [h.rows, convertKeys_filter (fun k => ! new.contains k)]

/-! ## Custom data -/

theorem Wider.has {new : List Str} {conv conv' : Dict Entry} (h : Wider new conv conv') {k : Str}
    (hk : Dict.has conv k = true) : Dict.has conv' k = true := by
  by_cases hn : k ∈ new
  · have := h.none k hn
    rw [Dict.get?_eq_none_iff] at this
    exact absurd ((Dict.has_iff_mem _ _).1 hk) this
  · have := h.same k hn
    unfold Dict.has at hk ⊢
    rw [this]
    exact hk

theorem Wider.put {new : List Str} {conv conv' : Dict Entry} (h : Wider new conv conv') {k : Str} (e : Entry)
    (hk : k ∉ new) : Wider new (Dict.put conv k e) (Dict.put conv' k e) := by
  refine ⟨?_, ?_, ?_, Dict.nodup_put _ _ h.nodup, Dict.nodup_put _ _ h.nodup'⟩
  · intro j hj
    rw [Dict.get?_put, Dict.get?_put, h.same j hj]
  · intro j hj
    have : j ≠ k := fun he => hk (he ▸ hj)
    rw [Dict.get?_put_ne _ _ this, h.none j hj]
  · intro p hp hm
    have hg := Dict.get?_of_mem (Dict.nodup_put _ _ h.nodup') (show (p.1, p.2) ∈ _ from hp)
    refine Dict.mem_of_get? (k := p.1) (v := p.2) ?_
    rw [Dict.get?_put] at hg ⊢
    split at hg
    · rename_i he
      simpa [he] using hg
    · rename_i he
      rw [if_neg he]
      exact Dict.get?_of_mem h.nodup (h.optional _ (Dict.mem_of_get? hg) hm)

theorem Wider.merge {new : List Str} {conv conv' cu : Dict Entry} (h : Wider new conv conv')
    (hc : ∀ k e, (k, e) ∈ cu → k ∉ new) :
    Wider new (mergeCustom conv cu).1 (mergeCustom conv' cu).1 ∧ (mergeCustom conv' cu).2 = (mergeCustom conv cu).2 := by
  have h2 : cu.filter (fun p => ! Dict.has conv' p.1) = cu.filter (fun p => ! Dict.has conv p.1) := by
    apply List.filter_congr
    intro p hp
    have := h.same p.1 (hc p.1 p.2 hp)
    unfold Dict.has
    rw [this]
  refine ⟨?_, h2⟩
  unfold mergeCustom
  simp only [h2]
  have key : ∀ (l : Dict Entry) (d d' : Dict Entry), Wider new d d' → (∀ p ∈ l, p.1 ∉ new) →
      Wider new (l.foldl (fun d p => Dict.put d p.1 p.2) d) (l.foldl (fun d p => Dict.put d p.1 p.2) d') := by
    intro l
    induction l with
    | nil => exact fun _ _ h _ => h
    | cons p l ih =>
      intro d d' hd hl
      exact ih _ _ (hd.put p.2 (hl p (by simp))) (fun q hq => hl q (by simp [hq]))
  exact key _ _ _ h (fun p hp => hc p.1 p.2 (List.mem_filter.1 hp).1)

theorem Extended.reset {new : List Str} {env env' : Env} (h : Spec.Extended new env env') {o o1 : Obj}
    (hu : Spec.Unused new o) (hr : resetConvention env o = .ok o1) :
    ∃ conv', resetConvention env' o = .ok { o1 with conv := conv' } ∧ Wider new o1.conv conv' ∧
      ∀ c k e, o1.custom = some c → (k, e) ∈ c → ∃ c0, o.custom = some c0 ∧ (k, e) ∈ c0 := by
  obtain ⟨cv, c, v, conv, h1, h2, h3, h4, h5, h6⟩ := resetConvention_inv hr
  have hp : pyStr env' v = pyStr env v := by rw [h.rest]; rfl
  rcases Extended.load h c (.exact (pyStr env v)) with ⟨x, hx, _⟩ | ⟨f, f', _, _, hf, hl, hl'⟩
  · rw [h5] at hx; cases hx
  · rw [h5] at hl
    cases hl
    have hw := Extends.wider hf
    unfold resetConvention
    simp only [h1, h3, h2, hp, Extended.verifyConvention h, h4, hl']
    cases hc : o.custom with
    | none =>
      simp only [hc] at h6
      subst h6
      exact ⟨_, rfl, hw, fun c k e hcc => by simp at hcc⟩
    | some cu =>
      simp only [hc] at h6
      have hm := hw.merge (cu := cu) (fun k e hk => (hu.custom cu k e hc hk).1)
      subst h6
      refine ⟨(mergeCustom (convertKeys f'.content) cu).1, ?_, hm.1, ?_⟩
      · simp only [hm.2]
      · intro c k e hcc hk
        simp only [Option.some.injEq] at hcc
        subst hcc
        exact ⟨cu, rfl, (List.mem_filter.1 hk).1⟩

/-! ## The phases -/

section Phases
variable {new : List Str} {o : Obj} {conv' : Dict Entry} (h : Wider new o.conv conv')
include h

theorem Wider.entry {k : Str} (hk : k ∉ new) : convEntry { o with conv := conv' } k = convEntry o k := by
  unfold convEntry
  rw [show Dict.get? ({ o with conv := conv' } : Obj).conv k = Dict.get? o.conv k from h.same k hk]

theorem Wider.types {env : Env} {keys : List Str} (hk : ∀ k ∈ keys, k ∉ new) :
    phaseTypes env { o with conv := conv' } keys = phaseTypes env o keys := by
  unfold phaseTypes
  rw [concatE_congr (g := typeErrorKey env o)]
  intro k hk'
  unfold typeErrorKey
  rw [h.entry (hk k hk')]
  rfl

theorem Wider.names {keys : List Str} (hk : ∀ k ∈ keys, k ∉ new) (hn : phaseNames o keys = .ok []) :
    phaseNames { o with conv := conv' } keys = .ok [] := by
  have h2 : concatE (nameNoUnderscore { o with conv := conv' }) keys = concatE (nameNoUnderscore o) keys :=
    concatE_congr fun k hk' => by unfold nameNoUnderscore; rw [h.entry (hk k hk')]
  have h3 : concatE (nameVariable { o with conv := conv' }) keys = concatE (nameVariable o) keys :=
    concatE_congr fun k hk' => by unfold nameVariable; rw [h.entry (hk k hk')]
  have h4 : concatE (nameReserved { o with conv := conv' }) keys = concatE (nameReserved o) keys :=
    concatE_congr fun k hk' => by unfold nameReserved; rw [h.entry (hk k hk')]
  have h1 : concatE (nameNoVariable o) keys = .ok [] →
      concatE (nameNoVariable { o with conv := conv' }) keys = .ok [] := by
    rw [concatE_nil_iff, concatE_nil_iff]
    intro hc k hk'
    have := hc k hk'
    unfold nameNoVariable at this ⊢
    rw [h.entry (hk k hk')]
    cases he : convEntry o k with
    | error x => simp [he] at this
    | ok en =>
      simp only [he] at this ⊢
      split
      · rfl
      · rename_i ht
        rw [if_neg ht] at this
        cases hb : Str.beforeLast '_' k with
        | none => rfl
        | some var =>
          simp only [hb] at this ⊢
          split
          · rename_i hv
            rw [if_pos] at this
            · exact this
            · simp only [Bool.and_eq_true, Bool.not_eq_true'] at hv ⊢
              refine ⟨?_, hv.2⟩
              cases hh : Dict.has o.conv var with
              | false => rfl
              | true => rw [h.has hh] at hv; exact hv.1
          · rfl
  unfold phaseNames at hn ⊢
  rw [h2, h3, h4]
  cases e1 : concatE (nameNoVariable o) keys with
  | error x => simp [e1] at hn
  | ok s1 =>
    simp only [e1] at hn
    cases e2 : concatE (nameNoUnderscore o) keys with
    | error x => simp [e2] at hn
    | ok s2 =>
      simp only [e2] at hn
      cases e3 : concatE (nameVariable o) keys with
      | error x => simp [e3] at hn
      | ok s3 =>
        simp only [e3] at hn
        cases e4 : concatE (nameReserved o) keys with
        | error x => simp [e4] at hn
        | ok s4 =>
          simp only [e4] at hn
          have hs : s1 = [] := by
            simp only [Except.ok.injEq, List.append_eq_nil_iff] at hn
            exact (section_nil_iff _ _ (by simp)).1 hn.1.1.1
          subst hs
          rw [h1 e1]
          exact hn

theorem Wider.dimKeys (hk : ∀ k ∈ o.keys, k ∉ new) : dimKeys { o with conv := conv' } = dimKeys o := by
  unfold Sofar.dimKeys
  congr 1
  apply List.filter_congr
  intro k hk'
  rw [show Dict.get? ({ o with conv := conv' } : Obj).conv k = Dict.get? o.conv k from h.same k (hk k hk')]

theorem Wider.dimLoop {l : List Str} (hk : ∀ k ∈ l, k ∉ new) (st : Dict Nat × Nat) :
    dimLoop { o with conv := conv' } l st = dimLoop o l st := by
  induction l generalizing st with
  | nil => rfl
  | cons k l ih =>
    simp only [Sofar.dimLoop]
    rw [h.entry (hk k (by simp))]
    simp only [ih (fun j hj => hk j (by simp [hj]))]
    rfl

theorem Wider.shapeLoop {api : Dict Nat} {l : List Str} (hk : ∀ k ∈ l, k ∉ new) (dims : Dict Str) :
    shapeLoop { o with conv := conv' } api l dims = shapeLoop o api l dims := by
  induction l generalizing dims with
  | nil => rfl
  | cons k l ih =>
    have : shapeKey { o with conv := conv' } api k = shapeKey o api k := by
      unfold shapeKey
      rw [h.entry (hk k (by simp))]
      rfl
    simp only [Sofar.shapeLoop, this, ih (fun j hj => hk j (by simp [hj]))]

end Phases

theorem dimKeys_new {new : List Str} {o : Obj} (hk : ∀ k ∈ o.keys, k ∉ new)
    (hc : ∀ c k e, o.custom = some c → (k, e) ∈ c → k ∉ new) : ∀ k ∈ dimKeys o, k ∉ new := by
  intro k hm
  unfold dimKeys at hm
  rw [List.mem_append] at hm
  rcases hm with hm | hm
  · exact hk k (List.mem_filter.1 hm).1
  · cases hcu : o.custom with
    | none => simp [hcu] at hm
    | some c =>
      simp only [hcu, List.mem_map, List.mem_filter] at hm
      obtain ⟨p, ⟨hp, _⟩, rfl⟩ := hm
      exact hc c p.1 p.2 hcu hp

theorem Wider.passes {new : List Str} {o : Obj} {conv' : Dict Entry} (h : Wider new o.conv conv') {env env' : Env}
    {inner inner' : Inner} {o3 : Obj} {mode : Mode}
    (he : env' = { env with files := env'.files })
    (hk : ∀ k ∈ o.keys, k ∉ new) (hc : ∀ c k e, o.custom = some c → (k, e) ∈ c → k ∉ new)
    (hi : (phaseCustomNames inner o).1 = .ok [] → (phaseCustomNames inner' { o with conv := conv' }).1 = .ok [])
    (hp : Passes inner env o o3 mode) :
    Passes inner' env' { o with conv := conv' } { o3 with conv := conv' } mode := by
  have hd := dimKeys_new hk hc
  have hD : phaseDims { o with conv := conv' } = ((phaseDims o).1, { (phaseDims o).2 with conv := conv' }) := by
    unfold phaseDims
    simp only [h.dimKeys hk, h.dimLoop hd]
    split <;> rfl
  have hx : (phaseDims o).2.conv = o.conv ∧ (phaseDims o).2.keys = o.keys ∧ (phaseDims o).2.custom = o.custom := by
    unfold phaseDims
    simp only
    split <;> exact ⟨rfl, rfl, rfl⟩
  generalize hq : (phaseDims o).2 = q at *
  have hw : Wider new q.conv conv' := by rw [hx.1]; exact h
  have hdq : ∀ k ∈ Sofar.dimKeys q, k ∉ new :=
    dimKeys_new (by rw [hx.2.1]; exact hk) (by rw [hx.2.2]; exact hc)
  have hS : phaseShapes { q with conv := conv' } = ((phaseShapes q).1, { (phaseShapes q).2 with conv := conv' }) := by
    unfold phaseShapes
    simp only [hw.dimKeys (by rw [hx.2.1]; exact hk), hw.shapeLoop hdq]
    split <;> rfl
  refine ⟨?_, ?_, ?_, hi hp.custom, ?_, ?_, ?_, ?_⟩
  · intro p hp' hm
    exact hp.mandatory p (h.optional p hp' hm) hm
  · have := h.types (env := env) hk
    rw [he]
    exact this.trans hp.types
  · exact h.names hk hp.names
  · rw [hD]; exact hp.dims
  · rw [hD]
    simp only
    rw [hS]
    have := hp.shapes
    rw [hq] at this
    rw [this]
  · rw [he]; exact hp.rules
  · rw [he]; exact hp.deprec

/-! ## New objects -/

theorem initSofa_names {env : Env} {c : Str} {m : Bool} {ver : VersionArg} {n : Obj}
    (h : (initSofa env c m ver .auto).out = .ok n) :
    ∃ conv o0 v b, loadConvention env c ver = .ok conv ∧ conventionToSofa env m (emptyObj conv) = .ok o0 ∧
      conventionVersion conv = .ok v ∧ isStable v = .ok b ∧ n.attrs = o0.attrs ∧ o0.custom = none ∧
      if b && ! m then ∃ r, resetConvention env o0 = .ok r ∧ n.conv = r.conv else n.conv = conv := by
  have hinit := h
  unfold initSofa at h
  cases hl : loadConvention env c ver with
  | error x => simp [hl] at h
  | ok conv =>
    simp only [hl] at h
    cases hc : conventionToSofa env m (emptyObj conv) with
    | error x => simp [hc] at h
    | ok o0 =>
      simp only [hc] at h
      cases hv : conventionVersion conv with
      | error x => simp [hv] at h
      | ok v =>
        simp only [hv] at h
        cases hb : isStable v with
        | error x => simp [hb] at h
        | ok b =>
          simp only [hb] at h
          have hat : n.attrs = o0.attrs := by
            obtain ⟨conv2, o2, g1, g2, g3, _⟩ := initSofa_ok hinit
            rw [hl] at g1
            cases g1
            rw [hc] at g2
            cases g2
            exact g3
          have hcc : o0.conv = conv ∧ o0.custom = none := by
            unfold conventionToSofa at hc
            cases hd : addDefaults m (emptyObj conv).conv (emptyObj conv) with
            | error x => simp [hd] at hc
            | ok o1 =>
              simp only [hd, Except.ok.injEq] at hc
              rw [← hc]
              exact addDefaults_conv hd
          refine ⟨conv, o0, v, b, rfl, hc, hv, hb, hat, hcc.2, ?_⟩
          unfold finishInit at h
          split
          · rename_i hbm
            rw [if_pos hbm] at h
            simp only at h
            cases hr : (verifyNew env o0 .raise .read).out with
            | error x => simp [hr] at h
            | ok r =>
              simp only [hr, Except.ok.injEq] at h
              obtain ⟨_, o1, o3, h1, h2⟩ := (verifyG_raise_ok_iff _ _ _ _ _).1 hr
              refine ⟨o1, h1, ?_⟩
              rw [← h]
              exact ((verifyG_frame (fun _ _ => ⟨.error .unmodelled, []⟩) env o0 .raise .read).loaded o1 h1).1
          · rename_i hbm
            rw [if_neg hbm] at h
            have hcv := hcc.1
            simp only [hb] at h
            cases b with
            | false => simp only [Except.ok.injEq] at h; rw [← h]; exact hcv
            | true => simp only [Except.ok.injEq] at h; rw [← h]; exact hcv

theorem initSofa_value {env : Env} {c : Str} {ver : VersionArg} {a : VerifyArg} {n : Obj} {conv : Dict Entry}
    (h : (initSofa env c false ver a).out = .ok n) (hl : loadConvention env c ver = .ok conv)
    (hp : py% "protected" ∉ conv.map Prod.fst) {k : Str} (hk : k ∉ Spec.stampNames) :
    (Dict.get? conv k = none ∧ Dict.get? n.attrs k = none) ∨
    ∃ e d w, Dict.get? conv k = some e ∧ initDefault e = .ok d ∧ normalise d = .ok w ∧ Dict.get? n.attrs k = some w := by
  obtain ⟨l, hd, hn, ha⟩ := initSofa_data h hl hp
  have hg : Dict.get? n.attrs k = Dict.get? l k := by
    have := stamps_unknown env { n with attrs := l } hk
    rw [ha]
    exact this
  rw [hg]
  have hnames := hd.names
  simp only [Bool.not_false, Bool.or_true, List.filter_true] at hnames
  by_cases hm : k ∈ Dict.keys conv
  · right
    have hm' : k ∈ l.map Prod.fst := hnames ▸ hm
    obtain ⟨⟨k', v⟩, hkv, rfl⟩ := List.mem_map.1 hm'
    obtain ⟨_, e, he, _, d, h1, h2⟩ := hd.values _ _ hkv
    exact ⟨e, d, v, Dict.get?_of_mem (loadConvention_nodup hl) he, h1, h2, Dict.get?_of_mem hn hkv⟩
  · left
    refine ⟨(Dict.get?_eq_none_iff _ _).2 hm, (Dict.get?_eq_none_iff _ _).2 ?_⟩
    unfold Dict.keys at hm ⊢
    rw [hnames]
    exact hm

theorem Wider.keys {new : List Str} {conv conv' : Dict Entry} (h : Wider new conv conv') :
    ∀ k ∈ Dict.keys conv', k ∈ Dict.keys conv ∨ k ∈ new := by
  intro k hk
  by_cases hn : k ∈ new
  · exact Or.inr hn
  · left
    refine Classical.byContradiction fun hc => ?_
    rw [← Dict.get?_eq_none_iff, ← h.same k hn, Dict.get?_eq_none_iff] at hc
    exact hc hk

theorem getAttr_same {a b : Obj} {k : Str} (h1 : k ∉ publicMembers) (h2 : isPrivate k = false)
    (h : Dict.get? a.attrs k = Dict.get? b.attrs k) : a.getAttr k = b.getAttr k := by
  have key : ∀ o : Obj, Dict.get? o.attrs k = none → o.getAttr k = .error (.attributeError k) := by
    intro o ho
    unfold Obj.getAttr
    rw [ho]
    simp only
    rw [if_neg]
    intro hc
    obtain ⟨v, hv⟩ := (hasAttr_data h1 h2).1 hc
    rw [ho] at hv
    cases hv
  cases hb : Dict.get? b.attrs k with
  | none => rw [key b hb, key a (h.trans hb)]
  | some v => rw [getAttr_of_get hb, getAttr_of_get (h.trans hb)]

/-- The names of a new object of the extended convention are the names of the convention and the new names. -/
theorem Extended.newNames {new : List Str} {env env' : Env} (h : Spec.Extended new env env') {c : Str} {ver : VersionArg}
    {n n' : Obj} (hp : ∀ f ∈ env'.files, ∀ key e, (key, e) ∈ f.content → Spec.sofarName key ≠ py% "protected")
    (hn : (initSofa env c false ver .auto).out = .ok n) (hn' : (initSofa env' c false ver .auto).out = .ok n') :
    ∀ k ∈ Dict.keys n'.conv, k ∈ Dict.keys n.conv ∨ k ∈ new := by
  obtain ⟨conv, o0, v, b, h1, h2, h3, h4, h5, h6, h7⟩ := initSofa_names hn
  obtain ⟨conv', o0', v', b', h1', h2', h3', h4', h5', h6', h7'⟩ := initSofa_names hn'
  rcases Extended.load h c ver with ⟨x, hx, _⟩ | ⟨f, f', hf, hf', hE, hl, hl'⟩
  · rw [h1] at hx; cases hx
  rw [h1] at hl
  cases hl
  rw [h1'] at hl'
  cases hl'
  have hw := Extends.wider hE
  have hpr' : py% "protected" ∉ (convertKeys f'.content).map Prod.fst := by
    intro hm
    obtain ⟨⟨k, e⟩, hke, rfl⟩ := List.mem_map.1 hm
    obtain ⟨k0, h0, hk⟩ := convertKeys_get (Dict.get?_of_mem hw.nodup' hke)
    exact hp f' hf' k0 e h0 hk.symm
  have hpr : py% "protected" ∉ (convertKeys f.content).map Prod.fst := by
    intro hm
    rw [Extends.convert hE] at hm
    obtain ⟨p, hpm, hpe⟩ := List.mem_map.1 hm
    exact hpr' (List.mem_map.2 ⟨p, (List.mem_filter.1 hpm).1, hpe⟩)
  have hval : ∀ k, k ∉ new → k ∉ Spec.stampNames → Dict.get? o0'.attrs k = Dict.get? o0.attrs k := by
    intro k hk hs
    rw [← h5, ← h5']
    rcases initSofa_value hn h1 hpr hs with ⟨g1, g2⟩ | ⟨e, d, w, g1, g2, g3, g4⟩ <;>
      rcases initSofa_value hn' h1' hpr' hs with ⟨g1', g2'⟩ | ⟨e', d', w', g1', g2', g3', g4'⟩
    · rw [g2, g2']
    · rw [hw.same k hk, g1] at g1'; cases g1'
    · rw [hw.same k hk, g1] at g1'; cases g1'
    · rw [hw.same k hk, g1] at g1'
      cases g1'
      rw [g2] at g2'
      cases g2'
      rw [g3] at g3'
      cases g3'
      rw [g4, g4']
  have hv : v' = v := by
    unfold conventionVersion at h3 h3'
    rw [hw.same _ h.version, h3] at h3'
    cases h3'
    rfl
  subst hv
  rw [h4] at h4'
  cases h4'
  cases b with
  | false =>
    simp only [Bool.false_and, Bool.false_eq_true, if_false] at h7 h7'
    rw [h7, h7']
    exact hw.keys
  | true =>
    simp only [Bool.not_false, Bool.and_true, if_true] at h7 h7'
    obtain ⟨r, hr, hr2⟩ := h7
    obtain ⟨r', hr', hr2'⟩ := h7'
    rw [hr2, hr2']
    obtain ⟨cv, s, vv, cnv, g1, g2, g3, _, g5, g6⟩ := resetConvention_inv hr
    obtain ⟨cv', s', vv', cnv', g1', g2', g3', _, g5', g6'⟩ := resetConvention_inv hr'
    simp only [h6] at g6
    simp only [h6'] at g6'
    have a1 := hval _ h.name (by decide)
    have a2 := hval _ h.version (by decide)
    have b1 : o0'.getAttr (py% "GLOBAL_SOFAConventions") = o0.getAttr (py% "GLOBAL_SOFAConventions") := getAttr_same (by decide) (by decide) a1
    have b2 : o0'.getAttr (py% "GLOBAL_SOFAConventionsVersion") = o0.getAttr (py% "GLOBAL_SOFAConventionsVersion") := getAttr_same (by decide) (by decide) a2
    rw [b1, g1] at g1'
    cases g1'
    rw [b2, g3] at g3'
    cases g3'
    rw [g2] at g2'
    cases g2'
    have hps : pyStr env' vv = pyStr env vv := by rw [h.rest]; rfl
    rw [hps] at g5'
    rcases Extended.load h s (.exact (pyStr env vv)) with ⟨x, hx, _⟩ | ⟨q, q', _, _, hQ, ql, ql'⟩
    · rw [g5] at hx; cases hx
    · rw [g5] at ql
      cases ql
      rw [g5'] at ql'
      cases ql'
      rw [g6, g6']
      exact (Extends.wider hQ).keys

/-- New objects without optional data have the same data. -/
theorem Extended.created {new : List Str} {env env' : Env} (h : Spec.Extended new env env') {c : Str} {ver : VersionArg}
    (hp : ∀ f ∈ env'.files, ∀ key e, (key, e) ∈ f.content → Spec.sofarName key ≠ py% "protected")
    {a : VerifyArg} {n : Obj} (hn : (initSofa env c true ver a).out = .ok n) :
    ∃ n', (initSofa env' c true ver a).out = .ok n' ∧ n'.attrs = n.attrs ∧
      (initSofa env' c true ver a).ev = (initSofa env c true ver a).ev := by
  rcases Extended.load h c ver with ⟨x, hx, _⟩ | ⟨f, f', hf, hf', hE, hl, hl'⟩
  · unfold initSofa at hn
    simp [hx] at hn
  have hw := Extends.wider hE
  have hpr' : py% "protected" ∉ (convertKeys f'.content).map Prod.fst := by
    intro hm
    obtain ⟨⟨k, e⟩, hke, rfl⟩ := List.mem_map.1 hm
    obtain ⟨k0, h0, hk⟩ := convertKeys_get (Dict.get?_of_mem hw.nodup' hke)
    exact hp f' hf' k0 e h0 hk.symm
  have key : ∀ (l : Dict Entry) (o o2 : Obj) (cv : Dict Entry) (ro : ReadOnly), o.prot = false →
      py% "protected" ∉ l.map Prod.fst →
      (∀ p ∈ l, mandatory p.2.flags = true → p.1 ∉ new) →
      addDefaults true (l.filter (fun p => ! new.contains p.1)) o = .ok o2 →
      addDefaults true l { o with conv := cv, readOnly := ro } = .ok { o2 with conv := cv, readOnly := ro } := by
    intro l
    induction l with
    | nil =>
      intro o o2 cv ro _ _ _ hd
      cases hd
      rfl
    | cons p l ih =>
      intro o o2 cv ro hpr hno hop hd
      obtain ⟨k, e⟩ := p
      simp only [List.map_cons, List.mem_cons, not_or] at hno
      have hop' : ∀ p ∈ l, mandatory p.2.flags = true → p.1 ∉ new := fun p hp => hop p (by simp [hp])
      cases hm : mandatory e.flags with
      | false =>
        rw [addDefaults, if_pos (by simp [hm])]
        apply ih o o2 cv ro hpr hno.2 hop'
        by_cases hk : k ∈ new
        · rwa [List.filter_cons_of_neg (by simp [hk])] at hd
        · rw [List.filter_cons_of_pos (by simp [hk]), addDefaults, if_pos (by simp [hm])] at hd
          exact hd
      | true =>
        have hk := hop (k, e) (by simp) hm
        rw [List.filter_cons_of_pos (by simpa using hk), addDefaults, if_neg (by simp [hm])] at hd
        rw [addDefaults, if_neg (by simp [hm])]
        cases hi : initDefault e with
        | error x => simp [hi] at hd
        | ok d =>
          simp only [hi] at hd ⊢
          unfold setAttr at hd ⊢
          simp only [hpr, Bool.false_and, Bool.and_false, Bool.false_eq_true, if_false, if_neg (Ne.symm hno.1)] at hd ⊢
          cases hv : normalise d with
          | error x => simp [hv] at hd
          | ok v =>
            simp only [hv] at hd ⊢
            by_cases hl1 : k = py% "list_dimensions"
            · simp [hl1] at hd
            · simp only [if_neg hl1] at hd ⊢
              by_cases hl2 : isPrivate k = true
              · simp [hl2] at hd
              · simp only [if_neg hl2] at hd ⊢
                exact ih { o with attrs := Dict.put o.attrs k v, prot := false } o2 cv ro rfl hno.2 hop' hd
  have hop : ∀ p ∈ convertKeys f'.content, mandatory p.2.flags = true → p.1 ∉ new := by
    intro p hp' hm hk
    have h1 := Dict.get?_of_mem hw.nodup (show (p.1, p.2) ∈ _ from hw.optional p hp' hm)
    rw [hw.none _ hk] at h1
    cases h1
  unfold initSofa at hn ⊢
  simp only [hl] at hn
  simp only [hl, hl']
  have hs : stamps env' = stamps env := by rw [h.rest]; rfl
  have hcv : conventionVersion (convertKeys f'.content) = conventionVersion (convertKeys f.content) := by
    unfold conventionVersion
    rw [hw.same _ h.version]
  cases hd : addDefaults true (convertKeys f.content) (emptyObj (convertKeys f.content)) with
  | error x =>
    unfold conventionToSofa at hn
    simp only [emptyObj] at hd hn
    simp [hd] at hn
  | ok o1 =>
    have hd' := hd
    rw [Extends.convert hE] at hd'
    have hk := key _ _ _ (convertKeys f'.content) (emptyObj (convertKeys f'.content)).readOnly rfl hpr' hop hd'
    have hc1 : conventionToSofa env true (emptyObj (convertKeys f.content)) =
        .ok { putStamps (stamps env) o1 with prot := true } := by
      unfold conventionToSofa
      rw [show (emptyObj (convertKeys f.content)).conv = convertKeys f.content from rfl, hd]
    have hc2 : conventionToSofa env' true (emptyObj (convertKeys f'.content)) =
        .ok { putStamps (stamps env) { o1 with conv := convertKeys f'.content,
                                               readOnly := (emptyObj (convertKeys f'.content)).readOnly } with
              prot := true } := by
      unfold conventionToSofa
      rw [show (emptyObj (convertKeys f'.content)).conv = convertKeys f'.content from rfl, hs]
      rw [show addDefaults true (convertKeys f'.content) (emptyObj (convertKeys f'.content)) = _ from hk]
    simp only [hc1] at hn ⊢
    simp only [hc2, hcv]
    have hfin : ∀ v b, (finishInit env true v b { putStamps (stamps env) o1 with prot := true }).out = .ok n →
        ∃ n', (finishInit env' true v b { putStamps (stamps env) { o1 with
            conv := convertKeys f'.content, readOnly := (emptyObj (convertKeys f'.content)).readOnly } with
              prot := true }).out = .ok n' ∧ n'.attrs = n.attrs ∧
          (finishInit env' true v b { putStamps (stamps env) { o1 with
            conv := convertKeys f'.content, readOnly := (emptyObj (convertKeys f'.content)).readOnly } with
              prot := true }).ev = (finishInit env true v b { putStamps (stamps env) o1 with prot := true }).ev := by
      intro v b hf
      unfold finishInit at hf ⊢
      simp only [Bool.not_true, Bool.and_false, Bool.false_eq_true, if_false] at hf ⊢
      cases hst : isStable v with
      | error x => simp [hst] at hf
      | ok t =>
        cases t <;>
        · simp only [hst, Except.ok.injEq] at hf ⊢
          exact ⟨_, rfl, by rw [← hf]; rfl, trivial⟩
    cases hv : conventionVersion (convertKeys f.content) with
    | error x => simp [hv] at hn
    | ok v =>
      simp only [hv] at hn ⊢
      cases a with
      | yes => exact hfin _ _ hn
      | no => exact hfin _ _ hn
      | auto =>
        simp only at hn ⊢
        cases hb : isStable v with
        | error x => simp [hb] at hn
        | ok b =>
          simp only [hb] at hn ⊢
          exact hfin _ _ hn

/-! ## The verification -/

theorem Extended.verify {new : List Str} {env env' : Env} (h : Spec.Extended new env env') {o : Obj} {mode : Mode}
    (hu : Spec.Unused new o)
    (hc : o.custom ≠ none →
      (∀ f ∈ env'.files, ∀ key e, (key, e) ∈ f.content → Spec.sofarName key ≠ py% "protected") ∧
      ∀ c ver n, (initSofa env c false ver .auto).out = .ok n → ∃ n', (initSofa env' c false ver .auto).out = .ok n')
    (hv : (verify env o .raise mode).out = .ok none) :
    ∃ conv', (verify env' o .raise mode).out = .ok none ∧
      (verify env' o .raise mode).obj = { (verify env o .raise mode).obj with conv := conv' } := by
  unfold Sofar.verify at hv ⊢
  obtain ⟨_, o1, o3, h1, h2⟩ := (verifyG_raise_ok_iff _ _ _ _ _).1 hv
  obtain ⟨conv', h3, h4, h5⟩ := Extended.reset h hu h1
  have ho := verifyG_raise_ok_obj _ _ _ _ _ _ h1 h2
  have hattrs : o1.attrs = o.attrs := by
    obtain ⟨c, k, hr, _⟩ := resetConvention_frame h1
    rw [hr]
  have hk : ∀ k ∈ o1.keys, k ∉ new := by
    intro k hk hn
    have := hu.data k hn
    rw [← hattrs, Dict.get?_eq_none_iff] at this
    unfold Obj.keys at hk
    exact this hk
  have hcu : ∀ c k e, o1.custom = some c → (k, e) ∈ c → k ∉ new ∧
      ∀ n ∈ new, Str.replace k (py% "GLOBAL_") [] ≠ Str.replace n (py% "GLOBAL_") [] := by
    intro c k e hcc hke
    obtain ⟨c0, g1, g2⟩ := h5 c k e hcc hke
    exact hu.custom c0 k e g1 g2
  have hp : Passes (referenceNames env' { o1 with conv := conv' }) env' { o1 with conv := conv' }
      { o3 with conv := conv' } mode := by
    refine h4.passes h.rest hk (fun c k e a b => (hcu c k e a b).1) ?_ h2
    intro hin
    have href : (∀ f ∈ env'.files, ∀ key e, (key, e) ∈ f.content → Spec.sofarName key ≠ py% "protected") →
        (∀ c ver n, (initSofa env c false ver .auto).out = .ok n →
          ∃ n', (initSofa env' c false ver .auto).out = .ok n') →
        ∀ names, (referenceNames env o1).out = .ok names → ∃ names', (referenceNames env' { o1 with conv := conv' }).out = .ok names' ∧
        ∀ k ∈ names', k ∈ names ∨ k ∈ new := by
      intro hpr hcr names hr
      unfold referenceNames at hr ⊢
      rw [show Obj.getAttr { o1 with conv := conv' } (py% "GLOBAL_SOFAConventions") =
        o1.getAttr (py% "GLOBAL_SOFAConventions") from rfl,
        show Obj.getAttr { o1 with conv := conv' } (py% "GLOBAL_SOFAConventionsVersion") =
        o1.getAttr (py% "GLOBAL_SOFAConventionsVersion") from rfl]
      cases e1 : o1.getAttr (py% "GLOBAL_SOFAConventions") with
      | error x => simp [e1] at hr
      | ok cv =>
        cases e2 : o1.getAttr (py% "GLOBAL_SOFAConventionsVersion") with
        | error x => simp [e1, e2] at hr
        | ok v =>
          simp only [e1, e2] at hr ⊢
          cases e3 : cv.asStr with
          | none => simp [e3] at hr
          | some s =>
            cases e4 : v.asStr with
            | none => simp [e3, e4] at hr
            | some t =>
              simp only [e3, e4] at hr ⊢
              cases e5 : (initSofa env s false (if t = py% "latest" then .latest else .exact t) .auto).out with
              | error x => simp [e5] at hr
              | ok n =>
                simp only [e5, Except.ok.injEq] at hr
                obtain ⟨n', e6⟩ := hcr _ _ _ e5
                rw [e6]
                refine ⟨_, rfl, ?_⟩
                rw [← hr]
                exact Extended.newNames h hpr e5 e6
    generalize referenceNames env' { o1 with conv := conv' } = I at href ⊢
    unfold phaseCustomNames at hin ⊢
    cases hcc : o1.custom with
    | none => rfl
    | some cu =>
      simp only [hcc] at hin ⊢
      have hne : o.custom ≠ none := by
        intro hno
        have := (verifyG_frame referenceNames env o .raise mode).customSome
        rw [ho] at this
        obtain ⟨cv, c, v, conv, _, _, _, _, _, h6⟩ := resetConvention_inv h1
        rw [hno] at h6
        simp only at h6
        rw [h6] at hcc
        simp only at hcc
        cases hcc
      obtain ⟨hpr, hcr⟩ := hc hne
      cases hr : (referenceNames env o1).out with
      | error x => simp [hr] at hin
      | ok names =>
        simp only [hr, Except.ok.injEq] at hin
        rw [section_nil_iff _ _ (by simp)] at hin
        obtain ⟨names', g1, g2⟩ := href hpr hcr names hr
        simp only [g1, Except.ok.injEq]
        rw [section_nil_iff _ _ (by simp)]
        unfold nameCustom at hin ⊢
        rw [List.flatten_eq_nil_iff] at hin ⊢
        intro l hl
        exfalso
        obtain ⟨k, hk1, _⟩ := List.mem_map.1 hl
        obtain ⟨hk2, hk3⟩ := List.mem_filter.1 hk1
        rw [List.contains_iff_mem, List.mem_map] at hk3
        obtain ⟨m, hm1, hm2⟩ := hk3
        rcases g2 m hm1 with hm3 | hm3
        · have := hin (line k) (List.mem_map.2 ⟨k, List.mem_filter.2 ⟨hk2, by
            rw [List.contains_iff_mem, List.mem_map]; exact ⟨m, hm3, hm2⟩⟩, rfl⟩)
          simp [line] at this
        · obtain ⟨⟨k', e⟩, hke, rfl⟩ := List.mem_map.1 hk2
          exact (hcu cu k' e hcc hke).2 m hm3 hm2.symm
  refine ⟨conv', (verifyG_raise_ok_iff _ _ _ _ _).2 ⟨rfl, _, _, h3, hp⟩, ?_⟩
  rw [verifyG_raise_ok_obj _ _ _ _ _ _ h3 hp, ho]

end Sofar
