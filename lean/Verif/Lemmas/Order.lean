import Verif.Spec.Order
import Verif.Lemmas.Same
import Verif.Lemmas.Conforms
import Verif.Lemmas.Dims
import Verif.Lemmas.Stream
/-!
# The order of the data does not matter for the verification
-/
namespace Sofar

/-- same data in any order, same custom entries and loaded convention -/
structure Shuffled (o o' : Obj) : Prop where
  get : ∀ k, Dict.get? o'.attrs k = Dict.get? o.attrs k
  customSome : o'.custom.isSome = o.custom.isSome
  customMem : ∀ p, p ∈ o'.custom.getD [] ↔ p ∈ o.custom.getD []
  convGet : ∀ k, Dict.get? o'.conv k = Dict.get? o.conv k
  convMem : ∀ p, p ∈ o'.conv ↔ p ∈ o.conv

theorem Shuffled.symm {o o' : Obj} (h : Shuffled o o') : Shuffled o' o :=
  ⟨fun k => (h.get k).symm, h.customSome.symm, fun p => (h.customMem p).symm, fun k => (h.convGet k).symm,
    fun p => (h.convMem p).symm⟩

theorem sameEntries_nodup {V : Type} {d d' : Dict V} (h : Spec.SameEntries d d') : (d'.map Prod.fst).Nodup :=
  (h.1.map Prod.fst).nodup_iff.2 h.2

theorem get?_perm {V : Type} {d d' : Dict V} (h : Spec.SameEntries d d') (k : Str) :
    Dict.get? d' k = Dict.get? d k := by
  obtain ⟨hp, hn⟩ := h
  have hn' : (d'.map Prod.fst).Nodup := (hp.map Prod.fst).nodup_iff.2 hn
  cases h : Dict.get? d k with
  | some v => exact Dict.get?_of_mem hn' (hp.mem_iff.2 (Dict.mem_of_get? h))
  | none =>
    rw [Dict.get?_eq_none_iff] at h ⊢
    intro hm
    exact h ((hp.map Prod.fst).mem_iff.1 hm)

theorem mem_iff_of_get? {V : Type} {d d' : Dict V} (hn : (Dict.keys d).Nodup) (hn' : (Dict.keys d').Nodup)
    (h : ∀ k, Dict.get? d' k = Dict.get? d k) (k : Str) (v : V) : (k, v) ∈ d' ↔ (k, v) ∈ d :=
  ⟨fun hm => Dict.mem_of_get? (by rw [← h]; exact Dict.get?_of_mem hn' hm),
    fun hm => Dict.mem_of_get? (by rw [h]; exact Dict.get?_of_mem hn hm)⟩

theorem Shuffled.has {o o' : Obj} (h : Shuffled o o') (k : Str) : Dict.has o'.attrs k = Dict.has o.attrs k := by
  rw [Bool.eq_iff_iff, Dict.has_iff, Dict.has_iff, h.get]

theorem Shuffled.mem_keys {o o' : Obj} (h : Shuffled o o') {k : Str} : k ∈ o'.keys ↔ k ∈ o.keys := by
  unfold Obj.keys
  rw [← Dict.has_iff_mem, ← Dict.has_iff_mem, h.has]

theorem Shuffled.hasAttr {o o' : Obj} (h : Shuffled o o') {k : Str} (hk : isPrivate k = false) :
    o'.hasAttr k = o.hasAttr k := by
  rw [Bool.eq_iff_iff, hasAttr_public _ _ hk, hasAttr_public _ _ hk, h.has]

theorem Shuffled.getAttr {o o' : Obj} (h : Shuffled o o') {k : Str} (hk : isPrivate k = false ∨ k ∈ o.keys) :
    o'.getAttr k = o.getAttr k := by
  unfold Obj.getAttr
  rw [h.get]
  cases hg : Dict.get? o.attrs k with
  | some v => rfl
  | none =>
    rcases hk with hk | hk
    · simp only [h.hasAttr hk]
    · exact absurd hk ((Dict.get?_eq_none_iff _ _).1 hg)

theorem Shuffled.convEntry {o o' : Obj} (h : Shuffled o o') (k : Str) : convEntry o' k = convEntry o k := by
  unfold Sofar.convEntry; rw [h.convGet]

theorem reordered_public {o o' : Obj} (h : Spec.Reordered o o') {k : Str} (hk : isPrivate k = false) :
    o'.getAttr k = o.getAttr k := by
  have hg := get?_perm h.attrs k
  have hh : o'.hasAttr k = o.hasAttr k := by
    rw [Bool.eq_iff_iff, hasAttr_public _ _ hk, hasAttr_public _ _ hk, Dict.has_iff, Dict.has_iff, hg]
  unfold Obj.getAttr
  rw [hg, hh]

theorem reordered_reset {env : Env} {o o' : Obj} (h : Spec.Reordered o o') :
    (∃ x, resetConvention env o = .error x ∧ resetConvention env o' = .error x) ∨
    ∃ o1 o1', resetConvention env o = .ok o1 ∧ resetConvention env o' = .ok o1' ∧ Shuffled o1 o1' ∧
      o1.attrs = o.attrs ∧ o1'.attrs = o'.attrs := by
  unfold resetConvention
  have hg := get?_perm h.attrs
  rw [reordered_public h (k := py% "GLOBAL_SOFAConventions") (by decide),
    reordered_public h (k := py% "GLOBAL_SOFAConventionsVersion") (by decide)]
  cases o.getAttr (py% "GLOBAL_SOFAConventions") with
  | error e => exact Or.inl ⟨_, rfl, rfl⟩
  | ok c =>
    simp only
    cases o.getAttr (py% "GLOBAL_SOFAConventionsVersion") with
    | error e => exact Or.inl ⟨_, rfl, rfl⟩
    | ok v =>
      simp only
      cases c.asStr with
      | none => exact Or.inl ⟨_, rfl, rfl⟩
      | some c =>
        simp only
        cases verifyConvention env (pyStr env v) c with
        | error e => exact Or.inl ⟨_, rfl, rfl⟩
        | ok _ =>
          simp only
          cases hl : loadConvention env c (.exact (pyStr env v)) with
          | error e => exact Or.inl ⟨_, rfl, rfl⟩
          | ok conv =>
            have hnd := loadConvention_nodup hl
            rcases h.custom with ⟨hc, hc'⟩ | ⟨cu, cu', hc, hc', hsame⟩
            · simp only [hc, hc']
              exact Or.inr ⟨_, _, rfl, rfl, ⟨hg, by simp [hc, hc'], by simp [hc, hc'], fun _ => rfl, fun _ => Iff.rfl⟩, rfl, rfl⟩
            · simp only [hc, hc']
              have hcu := get?_perm hsame
              have n1 := nodup_mergeCustom conv cu hnd hsame.2
              have n2 := nodup_mergeCustom conv cu' hnd (sameEntries_nodup hsame)
              have g1 := fun k => get?_mergeCustom conv cu k hsame.2
              have g2 := fun k => get?_mergeCustom conv cu' k (sameEntries_nodup hsame)
              have e1 : ∀ k, Dict.get? (mergeCustom conv cu').1 k = Dict.get? (mergeCustom conv cu).1 k := fun k => by
                rw [(g1 k).1, (g2 k).1, hcu]
              have e2 : ∀ k, Dict.get? (mergeCustom conv cu').2 k = Dict.get? (mergeCustom conv cu).2 k := fun k => by
                rw [(g1 k).2, (g2 k).2, hcu]
              refine Or.inr ⟨_, _, rfl, rfl, ⟨hg, rfl, ?_, e1, ?_⟩, rfl, rfl⟩
              · rintro ⟨k, e⟩
                simp only [Option.getD_some]
                exact mem_iff_of_get? n1.2 n2.2 e2 k e
              · rintro ⟨k, e⟩
                exact mem_iff_of_get? n1.1 n2.1 e1 k e

/-! ## Types and names -/

theorem Shuffled.phaseTypes {env : Env} {o o' : Obj} (h : Shuffled o o') (hp : phaseTypes env o o.keys = .ok []) :
    phaseTypes env o' o'.keys = .ok [] := by
  unfold Sofar.phaseTypes at hp ⊢
  have h1 : concatE (typeErrorKey env o) o.keys = .ok [] := by
    cases hc : concatE (typeErrorKey env o) o.keys with
    | error x => simp [hc] at hp
    | ok s =>
      simp only [hc, Except.ok.injEq] at hp
      rw [section_nil_iff _ _ (by simp)] at hp
      rw [hp]
  have h2 : concatE (typeErrorKey env o') o'.keys = .ok [] := by
    rw [concatE_nil_iff] at h1 ⊢
    intro k hk
    have hk' := h.mem_keys.1 hk
    have := h1 k hk'
    unfold typeErrorKey at this ⊢
    rw [h.convEntry, h.getAttr (Or.inr hk')]
    exact this
  rw [h2]
  simp [section_]

theorem phaseNames_nil_iff (o : Obj) (ks : List Str) :
    phaseNames o ks = .ok [] ↔ ∀ k ∈ ks, nameNoVariable o k = .ok [] ∧ nameNoUnderscore o k = .ok [] ∧
      nameVariable o k = .ok [] ∧ nameReserved o k = .ok [] := by
  unfold phaseNames
  constructor
  · intro h
    cases h1 : concatE (nameNoVariable o) ks with
    | error e => simp [h1] at h
    | ok s1 =>
      cases h2 : concatE (nameNoUnderscore o) ks with
      | error e => simp [h1, h2] at h
      | ok s2 =>
        cases h3 : concatE (nameVariable o) ks with
        | error e => simp [h1, h2, h3] at h
        | ok s3 =>
          cases h4 : concatE (nameReserved o) ks with
          | error e => simp [h1, h2, h3, h4] at h
          | ok s4 =>
            simp only [h1, h2, h3, h4, Except.ok.injEq, List.append_eq_nil_iff] at h
            rw [section_nil_iff _ _ (by simp), section_nil_iff _ _ (by simp), section_nil_iff _ _ (by simp),
              section_nil_iff _ _ (by simp)] at h
            obtain ⟨⟨⟨rfl, rfl⟩, rfl⟩, rfl⟩ := h
            rw [concatE_nil_iff] at h1 h2 h3 h4
            exact fun k hk => ⟨h1 k hk, h2 k hk, h3 k hk, h4 k hk⟩
  · intro h
    rw [(concatE_nil_iff _ _).2 fun k hk => (h k hk).1, (concatE_nil_iff _ _).2 fun k hk => (h k hk).2.1,
      (concatE_nil_iff _ _).2 fun k hk => (h k hk).2.2.1, (concatE_nil_iff _ _).2 fun k hk => (h k hk).2.2.2]
    simp [section_]

theorem Shuffled.phaseNames {o o' : Obj} (h : Shuffled o o') (hp : phaseNames o o.keys = .ok []) :
    phaseNames o' o'.keys = .ok [] := by
  rw [phaseNames_nil_iff] at hp ⊢
  intro k hk
  have := hp k (h.mem_keys.1 hk)
  have hhas : ∀ n, Dict.has o'.conv n = Dict.has o.conv n := fun n => by
    rw [Bool.eq_iff_iff, Dict.has_iff, Dict.has_iff, h.convGet]
  unfold nameNoVariable nameNoUnderscore nameVariable nameReserved at this ⊢
  simp only [h.convEntry, hhas]
  exact this

theorem Shuffled.referenceNames {env : Env} {o o' : Obj} (h : Shuffled o o') : referenceNames env o' = referenceNames env o := by
  unfold Sofar.referenceNames
  rw [h.getAttr (k := py% "GLOBAL_SOFAConventions") (Or.inl (by decide)),
    h.getAttr (k := py% "GLOBAL_SOFAConventionsVersion") (Or.inl (by decide))]

theorem nameCustom_nil_iff (normative : List Str) (c : Dict Entry) : nameCustom normative c = [] ↔ ∀ p ∈ c,
    (normative.map (fun n => Str.replace n (py% "GLOBAL_") [])).contains (Str.replace p.1 (py% "GLOBAL_") []) = false := by
  unfold nameCustom
  simp only [List.flatten_eq_nil_iff, List.mem_map, List.mem_filter, Dict.keys]
  constructor
  · intro h p hp
    refine Bool.eq_false_iff.2 fun ht => ?_
    have := h (line p.1) ⟨p.1, ⟨⟨p, hp, rfl⟩, ht⟩, rfl⟩
    simp [line] at this
  · rintro h l ⟨k, ⟨⟨p, hp, rfl⟩, ht⟩, rfl⟩
    rw [h p hp] at ht
    simp at ht

theorem Shuffled.phaseCustomNames {o o' : Obj} (h : Shuffled o o') (i : Inner) (hp : (phaseCustomNames i o).1 = .ok []) :
    (phaseCustomNames i o').1 = .ok [] := by
  unfold Sofar.phaseCustomNames at hp ⊢
  have h1 := h.customSome
  have h2 := h.customMem
  cases hc : o.custom with
  | none =>
    cases hc' : o'.custom with
    | none => rfl
    | some c' => simp [hc, hc'] at h1
  | some c =>
    cases hc' : o'.custom with
    | none => rfl
    | some c' =>
      simp only [hc, hc', Option.getD_some] at h2 hp ⊢
      cases hi : i.out with
      | error e => simp [hi] at hp
      | ok normative =>
        simp only [hi, Except.ok.injEq] at hp ⊢
        rw [section_nil_iff _ _ (by simp), nameCustom_nil_iff] at hp ⊢
        exact fun p hpm => hp p ((h2 p).1 hpm)

theorem Shuffled.mem_dimKeys {o o' : Obj} (h : Shuffled o o') {k : Str} : k ∈ dimKeys o' ↔ k ∈ dimKeys o := by
  have hd : ∀ {o : Obj} {k : Str}, k ∈ Sofar.dimKeys o ↔ (k ∈ o.keys ∧ ∃ e, Dict.get? o.conv k = some e ∧ e.dims.isSome = true) ∨
      ∃ e, (k, e) ∈ o.custom.getD [] ∧ isPrivate k = false ∧ e.dims.isSome = true := by
    intro o k
    unfold Sofar.dimKeys
    rw [List.mem_append, List.mem_filter]
    refine or_congr (and_congr_right fun _ => ?_) ?_
    · cases Dict.get? o.conv k <;> simp
    · cases o.custom with
      | none => simp
      | some c =>
        simp only [List.mem_map, List.mem_filter, Option.getD_some, Bool.and_eq_true, Bool.not_eq_true']
        constructor
        · rintro ⟨⟨k', e⟩, ⟨h1, h2, h3⟩, rfl⟩
          exact ⟨e, h1, h2, h3⟩
        · rintro ⟨e, h1, h2, h3⟩
          exact ⟨(k, e), ⟨h1, h2, h3⟩, rfl⟩
  rw [hd, hd]
  simp only [h.mem_keys, h.convGet, h.customMem]

/-! ## Sizes of the dimensions -/

/-- the sizes that one variable defines, and the length of its texts -/
def letterPairs (v : Val) (key : Str) : Nat → Str → Except Exc (List (Str × Nat) × Nat)
  | _, [] => .ok ([], 0)
  | idx, d :: ds =>
    let r : Except Exc (List (Str × Nat)) :=
      if ! (py% "ICS").contains d && Str.isLowerC d then
        match (Arr.ndNewaxisShape 4 v.shape)[idx]? with
        | some n => .ok [([Str.upperC d], n)]
        | none => .error .indexError
      else .ok []
    match r with
    | .error e => .error e
    | .ok l =>
      let s : Except Exc Nat := if d = 'S' then
          match stringVar v key with
          | .error e => .error e
          | .ok (n, _) => .ok n
        else .ok 0
      match s with
      | .error e => .error e
      | .ok n =>
        match letterPairs v key (idx + 1) ds with
        | .error e => .error e
        | .ok (l', n') => .ok (l ++ l', max n n')

/-- put all pairs into a dictionary -/
def putAll (l : List (Str × Nat)) (d : Dict Nat) : Dict Nat := l.foldl (fun d p => Dict.put d p.1 p.2) d

theorem putAll_append (l l' : List (Str × Nat)) (d : Dict Nat) : putAll (l ++ l') d = putAll l' (putAll l d) := by
  unfold putAll; rw [List.foldl_append]

theorem dimLetters_pairs (v : Val) (key : Str) (s : Str) : ∀ (idx : Nat) (st : Dict Nat × Nat),
    (∀ e, letterPairs v key idx s = .error e → (dimLetters v key idx s st).1 = .error e) ∧
    (∀ l n, letterPairs v key idx s = .ok (l, n) → dimLetters v key idx s st = (.ok (), putAll l st.1, max st.2 n)) := by
  induction s with
  | nil =>
    intro idx st
    refine ⟨fun e he => by simp [letterPairs] at he, fun l n h => ?_⟩
    simp only [letterPairs, Except.ok.injEq, Prod.mk.injEq] at h
    obtain ⟨rfl, rfl⟩ := h
    simp [dimLetters, putAll]
  | cons d ds ih =>
    intro idx st
    obtain ⟨api, S⟩ := st
    simp only [letterPairs, dimLetters]
    by_cases h1 : (!(py% "ICS").contains d && Str.isLowerC d) = true
    · simp only [h1, if_true]
      cases hg : (Arr.ndNewaxisShape 4 v.shape)[idx]? with
      | none => simp
      | some m =>
        simp only
        by_cases hS : d = 'S'
        · simp only [hS, if_true]
          cases stringVar v key with
          | error e => simp
          | ok q =>
            obtain ⟨n, sh⟩ := q
            simp only
            obtain ⟨i1, i2⟩ := ih (idx + 1) (Dict.put api [Str.upperC 'S'] m, max S n)
            cases hl : letterPairs v key (idx + 1) ds with
            | error e => simpa using i1 e hl
            | ok q =>
              obtain ⟨l', n'⟩ := q
              simp only [reduceCtorEq, false_implies, implies_true, true_and, Except.ok.injEq, Prod.mk.injEq, and_imp]
              rintro l nn rfl rfl
              rw [i2 l' n' hl]
              simp [putAll, Nat.max_assoc]
        · simp only [hS, if_false]
          obtain ⟨i1, i2⟩ := ih (idx + 1) (Dict.put api [Str.upperC d] m, S)
          cases hl : letterPairs v key (idx + 1) ds with
          | error e => simpa using i1 e hl
          | ok q =>
            obtain ⟨l', n'⟩ := q
            simp only [reduceCtorEq, false_implies, implies_true, true_and, Except.ok.injEq, Prod.mk.injEq, and_imp]
            rintro l nn rfl rfl
            rw [i2 l' n' hl]
            simp [putAll]
    · rw [Bool.not_eq_true] at h1
      simp only [h1, Bool.false_eq_true, if_false]
      by_cases hS : d = 'S'
      · simp only [hS, if_true]
        cases stringVar v key with
        | error e => simp
        | ok q =>
          obtain ⟨n, sh⟩ := q
          simp only
          obtain ⟨i1, i2⟩ := ih (idx + 1) (api, max S n)
          cases hl : letterPairs v key (idx + 1) ds with
          | error e => simpa using i1 e hl
          | ok q =>
            obtain ⟨l', n'⟩ := q
            simp only [reduceCtorEq, false_implies, implies_true, true_and, Except.ok.injEq, Prod.mk.injEq, and_imp]
            rintro l nn rfl rfl
            rw [i2 l' n' hl]
            simp [Nat.max_assoc]
      · simp only [hS, if_false]
        obtain ⟨i1, i2⟩ := ih (idx + 1) (api, S)
        cases hl : letterPairs v key (idx + 1) ds with
        | error e => simpa using i1 e hl
        | ok q =>
          obtain ⟨l', n'⟩ := q
          simp only [reduceCtorEq, false_implies, implies_true, true_and, Except.ok.injEq, Prod.mk.injEq, and_imp]
          rintro l nn rfl rfl
          rw [i2 l' n' hl]
          simp

/-- what one variable contributes -/
def keyPairs (o : Obj) (k : Str) : Except Exc (List (Str × Nat) × Nat) :=
  match o.getAttr k with
  | .error e => .error e
  | .ok v =>
    match convEntry o k with
    | .error e => .error e
    | .ok en =>
      match entryDims en with
      | .error e => .error e
      | .ok d => letterPairs v k 0 (firstAlt d)

theorem dimLoop_cons (o : Obj) (k : Str) (ks : List Str) (st : Dict Nat × Nat) :
    (∀ e, keyPairs o k = .error e → (dimLoop o (k :: ks) st).1 = .error e) ∧
    (∀ l n, keyPairs o k = .ok (l, n) → dimLoop o (k :: ks) st = dimLoop o ks (putAll l st.1, max st.2 n)) := by
  simp only [keyPairs, dimLoop]
  cases o.getAttr k with
  | error e => simp
  | ok v =>
    simp only
    cases Sofar.convEntry o k with
    | error e => simp
    | ok en =>
      simp only
      cases entryDims en with
      | error e => simp
      | ok d =>
        simp only
        obtain ⟨h1, h2⟩ := dimLetters_pairs v k (firstAlt d) 0 st
        refine ⟨fun e he => ?_, fun l n h => ?_⟩
        · rw [h1 e he]
        · rw [h2 l n h]

theorem dimLoop_ok (o : Obj) (ks : List Str) : ∀ st : Dict Nat × Nat, (dimLoop o ks st).1 = .ok () →
    (∀ k ∈ ks, ∃ l n, keyPairs o k = .ok (l, n)) := by
  induction ks with
  | nil => simp
  | cons k ks ih =>
    intro st h
    obtain ⟨h1, h2⟩ := dimLoop_cons o k ks st
    cases hk : keyPairs o k with
    | error e => rw [h1 e hk] at h; simp at h
    | ok q =>
      obtain ⟨l, n⟩ := q
      rw [h2 l n hk] at h
      intro j hj
      rcases List.mem_cons.1 hj with rfl | hj
      · exact ⟨l, n, hk⟩
      · exact ih _ h j hj

theorem dimLoop_result (o : Obj) (L : Str → List (Str × Nat)) (N : Str → Nat) (ks : List Str) :
    (∀ k ∈ ks, keyPairs o k = .ok (L k, N k)) → ∀ st : Dict Nat × Nat,
    dimLoop o ks st = (.ok (), putAll (ks.flatMap L) st.1, (ks.map N).foldl max st.2) := by
  induction ks with
  | nil => intro _ st; simp [dimLoop, putAll]
  | cons k ks ih =>
    intro h st
    rw [(dimLoop_cons o k ks st).2 _ _ (h k (by simp)), ih (fun j hj => h j (by simp [hj]))]
    simp [List.flatMap_cons, putAll_append]

/-- the last value for a name in a list of pairs -/
def lastOf (l : List (Str × Nat)) (k : Str) : Option Nat := (l.reverse.find? (fun p => p.1 = k)).map Prod.snd

theorem lastOf_append (l l' : List (Str × Nat)) (k : Str) : lastOf (l ++ l') k = (lastOf l' k).or (lastOf l k) := by
  unfold lastOf
  rw [List.reverse_append, List.find?_append]
  cases l'.reverse.find? (fun p => decide (p.1 = k)) <;> simp

theorem lastOf_mem {l : List (Str × Nat)} {k : Str} {n : Nat} (h : lastOf l k = some n) : (k, n) ∈ l := by
  unfold lastOf at h
  obtain ⟨p, hp, rfl⟩ := Option.map_eq_some_iff.1 h
  have h1 := List.mem_of_find?_eq_some hp
  have h2 := List.find?_some hp
  simp only [decide_eq_true_eq] at h2
  rw [← h2]
  exact List.mem_reverse.1 h1

theorem get?_putAll (l : List (Str × Nat)) (k : Str) : Dict.get? (putAll l []) k = lastOf l k := by
  unfold putAll lastOf
  rw [Dict.get?_foldl_put]
  cases l.reverse.find? (fun p => decide (p.1 = k)) <;> simp

theorem lastOf_flatMap {L : Str → List (Str × Nat)} {a : Str} (ks : List Str)
    (hag : ∀ k ∈ ks, ∀ k' ∈ ks, ∀ n n', (a, n) ∈ L k → (a, n') ∈ L k' → k ≠ k' → n = n') : ∀ n : Nat,
    lastOf (ks.flatMap L) a = some n ↔ ∃ k ∈ ks, lastOf (L k) a = some n := by
  induction ks with
  | nil => simp [lastOf]
  | cons k ks ih' =>
    have ih := ih' (fun k hk k' hk' => hag k (by simp [hk]) k' (by simp [hk']))
    intro n
    rw [List.flatMap_cons, lastOf_append]
    constructor
    · intro h
      cases hr : lastOf (ks.flatMap L) a with
      | some m =>
        rw [hr] at h
        simp only [Option.some_or, Option.some.injEq] at h
        subst h
        obtain ⟨j, hj, hm⟩ := (ih _).1 hr
        exact ⟨j, by simp [hj], hm⟩
      | none =>
        rw [hr] at h
        exact ⟨k, by simp, by simpa using h⟩
    · rintro ⟨j, hj, hn⟩
      cases hr : lastOf (ks.flatMap L) a with
      | none =>
        rcases List.mem_cons.1 hj with rfl | hj
        · simpa using hn
        · rw [(ih _).2 ⟨j, hj, hn⟩] at hr
          simp at hr
      | some m =>
        simp only [Option.some_or, Option.some.injEq]
        obtain ⟨i, hi, him⟩ := (ih m).1 hr
        by_cases hij : i = j
        · subst hij
          rw [him] at hn
          simpa using hn
        · exact hag i (by simp [hi]) j hj m n (lastOf_mem him) (lastOf_mem hn) hij

theorem foldl_max_le {l : List Nat} {m b : Nat} (hb : m ≤ b) (h : ∀ x ∈ l, x ≤ b) : l.foldl max m ≤ b := by
  induction l generalizing m with
  | nil => exact hb
  | cons x l ih =>
    exact ih (Nat.max_le.2 ⟨hb, h x (by simp)⟩) (fun y hy => h y (by simp [hy]))

theorem le_foldl_max {l : List Nat} {m x : Nat} (h : x ≤ m ∨ x ∈ l) : x ≤ l.foldl max m := by
  induction l generalizing m with
  | nil => simpa using h
  | cons y l ih =>
    simp only [List.foldl_cons]
    apply ih
    rcases h with h | h
    · left; omega
    · rcases List.mem_cons.1 h with rfl | h
      · left; omega
      · exact Or.inr h

theorem foldl_max_mem {l l' : List Nat} (h : ∀ x, x ∈ l' ↔ x ∈ l) : l'.foldl max 0 = l.foldl max 0 :=
  Nat.le_antisymm (foldl_max_le (Nat.zero_le _) fun x hx => le_foldl_max (Or.inr ((h x).1 hx)))
    (foldl_max_le (Nat.zero_le _) fun x hx => le_foldl_max (Or.inr ((h x).2 hx)))

theorem letterPairs_mem {v : Val} {key : Str} {a : Str} {m : Nat} (s : Str) : ∀ (idx : Nat) (l : List (Str × Nat)) (n : Nat),
    letterPairs v key idx s = .ok (l, n) → (a, m) ∈ l → ∃ i x, s[i]? = some x ∧ Str.isLowerC x = true ∧
      a = [Str.upperC x] ∧ (Arr.ndNewaxisShape 4 v.shape)[idx + i]? = some m := by
  induction s with
  | nil => intro idx l n h hm; simp only [letterPairs, Except.ok.injEq, Prod.mk.injEq] at h; simp [← h.1] at hm
  | cons d ds ih =>
    intro idx l n h hm
    simp only [letterPairs] at h
    generalize hr : (if (!(py% "ICS").contains d && Str.isLowerC d) = true then
        match (Arr.ndNewaxisShape 4 v.shape)[idx]? with
        | some n => .ok [([Str.upperC d], n)]
        | none => .error .indexError
      else .ok [] : Except Exc (List (Str × Nat))) = r at h
    cases r with
    | error e => simp at h
    | ok l1 =>
      simp only at h
      split at h
      · simp at h
      · cases hl : letterPairs v key (idx + 1) ds with
        | error e => simp [hl] at h
        | ok q =>
          obtain ⟨l', n'⟩ := q
          simp only [hl, Except.ok.injEq, Prod.mk.injEq] at h
          rw [← h.1] at hm
          rcases List.mem_append.1 hm with hm | hm
          · split at hr
            · rename_i hc
              cases hg : (Arr.ndNewaxisShape 4 v.shape)[idx]? with
              | none => simp [hg] at hr
              | some k =>
                simp only [hg, Except.ok.injEq] at hr
                rw [← hr] at hm
                simp only [List.mem_singleton, Prod.mk.injEq] at hm
                simp only [Bool.and_eq_true] at hc
                exact ⟨0, d, rfl, hc.2, hm.1, by rw [hm.2]; exact hg⟩
            · simp only [Except.ok.injEq] at hr
              simp [← hr] at hm
          · obtain ⟨i, x, h1, h2, h3, h4⟩ := ih (idx + 1) l' n' hl hm
            exact ⟨i + 1, x, by simpa using h1, h2, h3, by rw [← h4]; congr 1; omega⟩

/-- a contribution of a variable comes from a lower case letter -/
theorem keyPairs_defines {o : Obj} {k : Str} {l : List (Str × Nat)} {n m : Nat} {a : Str} (hk : k ∈ dimKeys o)
    (hc : Spec.CustomNoMethod o) (h : keyPairs o k = .ok (l, n)) (hm : (a, m) ∈ l) :
    ∃ c, a = [c] ∧ Spec.Defines o k c m := by
  unfold keyPairs at h
  cases hv : o.getAttr k with
  | error e => simp [hv] at h
  | ok v =>
    simp only [hv] at h
    cases he : convEntry o k with
    | error e => simp [he] at h
    | ok en =>
      simp only [he] at h
      cases hd : entryDims en with
      | error e => simp [hd] at h
      | ok d =>
        simp only [hd] at h
        obtain ⟨i, x, h1, h2, h3, h4⟩ := letterPairs_mem (firstAlt d) 0 l n h hm
        have hval : Dict.get? o.attrs k = some v := by
          unfold Obj.getAttr at hv
          cases hg : Dict.get? o.attrs k with
          | some w => simpa [hg] using hv
          | none =>
            exfalso
            have hnk : k ∉ o.keys := (Dict.get?_eq_none_iff _ _).1 hg
            simp only [hg] at hv
            split at hv
            · rename_i hh
              have hp : isPrivate k = false := (dimKeys_known hk).resolve_right hnk
              rw [hasAttr_public _ _ hp] at hh
              rcases hh with hh | hh
              · exact hnk ((Dict.has_iff_mem _ _).1 hh)
              · unfold dimKeys at hk
                rcases List.mem_append.1 hk with hk | hk
                · exact hnk (List.mem_filter.1 hk).1
                · cases hcu : o.custom with
                  | none => rw [hcu] at hk; simp at hk
                  | some c =>
                    rw [hcu] at hk
                    obtain ⟨p, hpm, rfl⟩ := List.mem_map.1 hk
                    exact hc c p.1 p.2 hcu (List.mem_filter.1 hpm).1 hh
            · simp at hv
        have hent : Dict.get? o.conv k = some en := by
          unfold Sofar.convEntry at he
          cases hg : Dict.get? o.conv k with
          | none => simp [hg] at he
          | some w => simpa [hg] using he
        have hdim : en.dims = some d := by
          unfold entryDims at hd
          cases hg : en.dims with
          | none => simp [hg] at hd
          | some w => simpa [hg] using hd
        refine ⟨Str.upperC x, h3, v, en, d, firstAlt d, i, x, ⟨hval, hent, hdim⟩, isFirst_firstAlt d, h1, h2, rfl, ?_⟩
        rw [Nat.zero_add] at h4
        rw [← getD_padOnes 4 v.shape i, List.getD_eq_getElem?_getD]
        unfold Arr.ndNewaxisShape at h4
        rw [h4]
        rfl

theorem Shuffled.keyPairs {o o' : Obj} (h : Shuffled o o') {k : Str} (hk : k ∈ dimKeys o) : keyPairs o' k = keyPairs o k := by
  unfold Sofar.keyPairs
  rw [h.getAttr (dimKeys_known hk), h.convEntry]

/-- same data after the sizes were determined -/
structure Settled (o o' : Obj) : Prop where
  base : Shuffled o o'
  api : ∃ a a', o.api = some a ∧ o'.api = some a' ∧ ∀ k, Dict.get? a' k = Dict.get? a k
  dims : ∃ d d', o.dims = some d ∧ o'.dims = some d' ∧ ∀ k, Dict.get? d' k = Dict.get? d k

/-- the variables that define the size of a dimension last give the same size -/
def SameLast (o o' : Obj) : Prop :=
  ∀ (P : Str → List (Str × Nat)) (S : Str → Nat), (∀ k ∈ dimKeys o, keyPairs o k = .ok (P k, S k)) →
    ∀ a, lastOf ((dimKeys o').flatMap P) a = lastOf ((dimKeys o).flatMap P) a

theorem Shuffled.sameLast {o o' : Obj} (h : Shuffled o o') (hc : Spec.CustomNoMethod o) (ha : Spec.AgreeOnSizes o) :
    SameLast o o' := by
  intro P S hP a
  have hag : ∀ k ∈ dimKeys o, ∀ k' ∈ dimKeys o, ∀ n n', (a, n) ∈ P k → (a, n') ∈ P k' → k ≠ k' → n = n' := by
    intro k hk k' hk' n n' h1 h2 hne
    obtain ⟨c, hc1, d1⟩ := keyPairs_defines hk hc (hP k hk) h1
    obtain ⟨c', hc2, d2⟩ := keyPairs_defines hk' hc (hP k' hk') h2
    rw [hc1] at hc2
    simp only [List.cons.injEq, and_true] at hc2
    subst hc2
    exact ha k k' c n n' d1 d2 hne
  apply Option.ext
  intro n
  rw [lastOf_flatMap _ (fun k hk k' hk' => hag k (h.mem_dimKeys.1 hk) k' (h.mem_dimKeys.1 hk')), lastOf_flatMap _ hag]
  simp only [h.mem_dimKeys]

theorem Shuffled.phaseDims_of {o o' : Obj} (h : Shuffled o o') (hl : SameLast o o')
    (hp : (phaseDims o).1 = .ok ()) : (phaseDims o').1 = .ok () ∧ Settled (phaseDims o).2 (phaseDims o').2 := by
  unfold Sofar.phaseDims at hp ⊢
  have hok : (dimLoop o (dimKeys o) ([], 0)).1 = .ok () := by
    cases hd : (dimLoop o (dimKeys o) ([], 0)).1 with
    | error e => simp [hd] at hp
    | ok u => rfl
  have hall := dimLoop_ok o _ _ hok
  let P : Str → List (Str × Nat) × Nat := fun k => match Sofar.keyPairs o k with
    | .ok p => p
    | .error _ => ([], 0)
  have hP : ∀ k ∈ dimKeys o, Sofar.keyPairs o k = .ok ((P k).1, (P k).2) := by
    intro k hk
    obtain ⟨l, n, hl⟩ := hall k hk
    simp only [P, hl]
  have hP' : ∀ k ∈ dimKeys o', Sofar.keyPairs o' k = .ok ((P k).1, (P k).2) := by
    intro k hk
    have hk' := h.mem_dimKeys.1 hk
    rw [h.keyPairs hk']
    exact hP k hk'
  have e1 := dimLoop_result o (fun k => (P k).1) (fun k => (P k).2) _ hP ([], 0)
  have e2 := dimLoop_result o' (fun k => (P k).1) (fun k => (P k).2) _ hP' ([], 0)
  have hS : ((dimKeys o').map fun k => (P k).2).foldl max 0 = ((dimKeys o).map fun k => (P k).2).foldl max 0 := by
    apply foldl_max_mem
    intro x
    simp only [List.mem_map, h.mem_dimKeys]
  have hget : ∀ a, Dict.get? (putAll ((dimKeys o').flatMap fun k => (P k).1) []) a =
      Dict.get? (putAll ((dimKeys o).flatMap fun k => (P k).1) []) a := by
    intro a
    rw [get?_putAll, get?_putAll]
    exact hl (fun k => (P k).1) (fun k => (P k).2) hP a
  rw [e1, e2]
  refine ⟨rfl, ⟨h.get, h.customSome, h.customMem, h.convGet, h.convMem⟩, ⟨_, _, rfl, rfl, ?_⟩, ⟨_, _, rfl, rfl, fun k => rfl⟩⟩
  intro k
  simp only [hS, Dict.get?_put, hget]

/-! ## Shapes -/

theorem refShape_congr {a a' : Dict Nat} (h : ∀ k, Dict.get? a' k = Dict.get? a k) (s : Str) : refShape a' s = refShape a s := by
  induction s with
  | nil => rfl
  | cons d ds ih => simp only [refShape, h, ih]

theorem matchShape_congr {a a' : Dict Nat} (h : ∀ k, Dict.get? a' k = Dict.get? a k) (act last : List Nat) (l : List Str) :
    matchShape a' act last l = matchShape a act last l := by
  induction l generalizing last with
  | nil => rfl
  | cons d ds ih => simp only [matchShape, refShape_congr h, ih]

theorem verboseDim_congr {a a' : Dict Nat} (h : ∀ k, Dict.get? a' k = Dict.get? a k) (s : Str) : verboseDim a' s = verboseDim a s := by
  induction s with
  | nil => rfl
  | cons d ds ih => simp only [verboseDim, h, ih]

theorem verboseDims_congr {a a' : Dict Nat} (h : ∀ k, Dict.get? a' k = Dict.get? a k) (l : List Str) :
    verboseDims a' l = verboseDims a l := by
  induction l with
  | nil => rfl
  | cons d ds ih => simp only [verboseDims, verboseDim_congr h, ih]

theorem Shuffled.shapeKey {o o' : Obj} (h : Shuffled o o') {a a' : Dict Nat} (ha : ∀ k, Dict.get? a' k = Dict.get? a k)
    {k : Str} (hk : k ∈ dimKeys o) : shapeKey o' a' k = shapeKey o a k := by
  unfold Sofar.shapeKey
  simp only [h.convEntry, h.getAttr (dimKeys_known hk), matchShape_congr ha, verboseDims_congr ha]

theorem get?_foldl_fun_none {f : Str → Str} (ks : List Str) (d : Dict Str) (k : Str) (h : k ∉ ks) :
    Dict.get? (ks.foldl (fun d k => Dict.put d k (f k)) d) k = Dict.get? d k := by
  induction ks generalizing d with
  | nil => rfl
  | cons j ks ih =>
    simp only [List.mem_cons, not_or] at h
    rw [List.foldl_cons, ih _ h.2, Dict.get?_put_ne _ _ h.1]

theorem Settled.phaseShapes {o o' : Obj} (h : Settled o o') (hp : (phaseShapes o).1 = .ok []) :
    (phaseShapes o').1 = .ok [] ∧ Settled (phaseShapes o).2 (phaseShapes o').2 := by
  obtain ⟨a, a', ha, ha', hget⟩ := h.api
  unfold Sofar.phaseShapes at hp ⊢
  simp only [ha, ha', Option.getD_some] at hp ⊢
  have hok : (shapeLoop o a (dimKeys o) []).1 = .ok [] := by
    cases hd : (shapeLoop o a (dimKeys o) []).1 with
    | error e => simp [hd] at hp
    | ok s =>
      simp only [hd, Except.ok.injEq] at hp
      rw [section_nil_iff _ _ (by simp)] at hp
      rw [hp]
  obtain ⟨f, h1, h2⟩ := shapeLoop_nil hok
  have hok' : (shapeLoop o' a' (dimKeys o') []).1 = .ok [] := by
    apply shapeLoop_found
    intro k hk
    have hk' := h.base.mem_dimKeys.1 hk
    exact ⟨f k, by rw [h.base.shapeKey hget hk']; exact h1 k hk'⟩
  obtain ⟨f', h1', h2'⟩ := shapeLoop_nil hok'
  have hd : ∀ k, Dict.get? (shapeLoop o' a' (dimKeys o') []).2 k = Dict.get? (shapeLoop o a (dimKeys o) []).2 k := by
    intro k
    rw [h2, h2']
    by_cases hk : k ∈ dimKeys o
    · have hk' := h.base.mem_dimKeys.2 hk
      rw [get?_foldl_put_fun _ _ _ hk, get?_foldl_put_fun _ _ _ hk']
      have e := h1' k hk'
      rw [h.base.shapeKey hget hk, h1 k hk] at e
      simp only [Except.ok.injEq, Sum.inl.injEq] at e
      rw [e]
    · have hk' := fun hh => hk (h.base.mem_dimKeys.1 hh)
      rw [get?_foldl_fun_none _ _ _ hk, get?_foldl_fun_none _ _ _ hk']
  rw [hok, hok']
  refine ⟨by simp [section_], ⟨h.base.get, h.base.customSome, h.base.customMem, h.base.convGet, h.base.convMem⟩, ⟨a, a', rfl, rfl, hget⟩, ⟨_, _, rfl, rfl, hd⟩⟩

/-! ## Rules -/

theorem Settled.hasAttr {o o' : Obj} (h : Settled o o') (k : Str) : o'.hasAttr k = o.hasAttr k := by
  obtain ⟨a, a', ha, ha', _⟩ := h.api
  obtain ⟨d, d', hd, hd', _⟩ := h.dims
  unfold Obj.hasAttr
  rw [h.base.has]
  simp only [Obj.privateInst, ha, ha', hd, hd', h.base.customSome, Option.isSome_some]

theorem Settled.getAttr {o o' : Obj} (h : Settled o o') (k : Str) : o'.getAttr k = o.getAttr k := by
  unfold Obj.getAttr
  rw [h.base.get, h.hasAttr]

theorem Settled.ruleKey {env : Env} {o o' : Obj} (h : Settled o o') (p : Str × Rule) : ruleKey env o' p = ruleKey env o p := by
  obtain ⟨a, a', ha, ha', hget⟩ := h.api
  have hg : ∀ k key, generalRule o' k key = generalRule o k key := fun k key => by unfold generalRule; rw [h.hasAttr]
  have hd : ∀ k t, dimRule o' k t = dimRule o k t := fun k t => by
    funext q
    unfold dimRule
    simp only [ha, ha', Option.getD_some, hget]
  have hs : ∀ k t, specificRule env o' k t = specificRule env o k t := fun k t => by
    funext i
    cases i with
    | dims l => simp only [specificRule, hd]
    | dep key ref => simp only [specificRule, h.hasAttr, h.getAttr]
  unfold Sofar.ruleKey
  have hg' : ∀ k, generalRule o' k = generalRule o k := fun k => funext (hg k)
  simp only [h.hasAttr, h.getAttr, hs, hg']

theorem Settled.phaseRules {env : Env} {o o' : Obj} (h : Settled o o') {mode : Mode} (hp : phaseRules env o mode = .ok []) :
    phaseRules env o' mode = .ok [] := by
  unfold Sofar.phaseRules at hp ⊢
  have hr : Sofar.ruleKey env o' = Sofar.ruleKey env o := funext h.ruleKey
  rw [hr]
  cases h1 : concatE (Sofar.ruleKey env o) env.rules with
  | error x => simp [h1] at hp
  | ok s1 =>
    simp only [h1] at hp ⊢
    cases h2 : phaseUnits env o mode with
    | error x => simp [h2] at hp
    | ok s2 =>
      simp only [h2, Except.ok.injEq] at hp
      rw [section_nil_iff _ _ (by simp), List.append_eq_nil_iff] at hp
      obtain ⟨rfl, rfl⟩ := hp
      have h3 : phaseUnits env o' mode = .ok [] := by
        cases mode with
        | read => rfl
        | write =>
          unfold phaseUnits at h2 ⊢
          rw [concatE_nil_iff] at h2 ⊢
          intro k hk
          rw [List.mem_filter, h.base.mem_keys] at hk
          have := h2 k (List.mem_filter.2 hk)
          unfold unitKey at this ⊢
          rw [h.getAttr]
          exact this
      rw [h3]
      simp [section_]

theorem Settled.phaseDeprecations {env : Env} {o o' : Obj} (h : Settled o o') (mode : Mode) :
    phaseDeprecations env o' mode = phaseDeprecations env o mode := by
  unfold Sofar.phaseDeprecations
  rw [h.getAttr, h.getAttr]

theorem Shuffled.passes_of {env : Env} {o1 o1' o3 : Obj} {mode : Mode} (h : Shuffled o1 o1') (hl : SameLast o1 o1')
    (hp : Passes (Sofar.referenceNames env o1) env o1 o3 mode) :
    ∃ o3', Passes (Sofar.referenceNames env o1') env o1' o3' mode ∧ Settled o3 o3' := by
  obtain ⟨hd1, hd2⟩ := h.phaseDims_of hl hp.dims
  have hs := hp.shapes
  obtain ⟨hs1, hs2⟩ := hd2.phaseShapes (by rw [hs])
  rw [hs] at hs2
  refine ⟨(phaseShapes (Sofar.phaseDims o1').2).2, ⟨?_, h.phaseTypes hp.types, h.phaseNames hp.names, ?_, hd1, ?_,
    hs2.phaseRules hp.rules, ?_⟩, hs2⟩
  · intro p hpm hm
    exact h.mem_keys.2 (hp.mandatory p ((h.convMem p).1 hpm) hm)
  · rw [h.referenceNames]
    exact h.phaseCustomNames _ hp.custom
  · exact Prod.ext hs1 rfl
  · rw [hs2.phaseDeprecations]
    exact hp.deprec

theorem Shuffled.passes {env : Env} {o1 o1' o3 : Obj} {mode : Mode} (h : Shuffled o1 o1') (hc : Spec.CustomNoMethod o1)
    (ha : Spec.AgreeOnSizes o1) (hp : Passes (Sofar.referenceNames env o1) env o1 o3 mode) :
    ∃ o3', Passes (Sofar.referenceNames env o1') env o1' o3' mode ∧ Settled o3 o3' :=
  h.passes_of (h.sameLast hc ha) hp

/-- the sizes are defined by the same variables -/
theorem Shuffled.defines {o o' : Obj} (h : Shuffled o o') {k : Str} {c : Char} {n : Nat} (hd : Spec.Defines o' k c n) :
    Spec.Defines o k c n := by
  obtain ⟨v, e, d, a, i, x, ⟨h1, h2, h3⟩, hr⟩ := hd
  exact ⟨v, e, d, a, i, x, ⟨by rw [← h.get]; exact h1, by rw [← h.convGet]; exact h2, h3⟩, hr⟩

theorem Shuffled.agree {o o' : Obj} (h : Shuffled o o') (ha : Spec.AgreeOnSizes o) : Spec.AgreeOnSizes o' :=
  fun k k' c n n' h1 h2 hne => ha k k' c n n' (h.defines h1) (h.defines h2) hne

theorem Shuffled.noMethod {o o' : Obj} (h : Shuffled o o') (hc : Spec.CustomNoMethod o) : Spec.CustomNoMethod o' :=
  fun c k e hcu hm => by
    have h1 := h.customSome
    have h2 := h.customMem (k, e)
    cases hcc : o.custom with
    | none => simp [hcc, hcu] at h1
    | some c' =>
      simp only [hcu, hcc, Option.getD_some] at h2
      exact hc c' k e hcc (h2.1 hm)

/-! ## A checker for the examples -/

/-- all sizes that are defined by variables -/
def definitions (o : Obj) : List (Str × Char × Nat) :=
  o.attrs.flatMap fun p => match Dict.get? o.conv p.1 with
    | none => []
    | some e => match e.dims with
      | none => []
      | some d => (firstAlt d).zipIdx.filterMap fun q =>
        if Str.isLowerC q.1 then some (p.1, Str.upperC q.1, p.2.shape.getD q.2 1) else none

/-- decides `Spec.AgreeOnSizes` -/
def agreeB (o : Obj) : Bool :=
  (definitions o).all fun p => (definitions o).all fun q => p.1 == q.1 || ! p.2.1 == q.2.1 || p.2.2 == q.2.2

theorem defines_mem {o : Obj} {k : Str} {c : Char} {n : Nat} (h : Spec.Defines o k c n) : (k, c, n) ∈ definitions o := by
  obtain ⟨v, e, d, a, i, x, hv, ha, hx, hl, hc, hn⟩ := h
  unfold definitions
  refine List.mem_flatMap.2 ⟨(k, v), Dict.mem_of_get? hv.value, ?_⟩
  simp only [hv.entry, hv.dims, firstAlt_of_isFirst ha]
  refine List.mem_filterMap.2 ⟨(x, i), ?_, by simp only [hl, if_true, hc, hn]⟩
  rw [List.mem_zipIdx_iff_getElem?]
  exact hx

theorem agreeB_sound {o : Obj} (h : agreeB o = true) : Spec.AgreeOnSizes o := by
  intro k k' c n n' h1 h2 hne
  unfold agreeB at h
  have := List.all_eq_true.1 (List.all_eq_true.1 h _ (defines_mem h1)) _ (defines_mem h2)
  simpa [hne] using this

/-! ## Adding data in another order -/

theorem put_comm_same {V : Type} {d : Dict V} (hn : (Dict.keys d).Nodup) {k k' : Str} (v v' : V) (hne : k ≠ k') :
    Spec.SameEntries (Dict.put (Dict.put d k v) k' v') (Dict.put (Dict.put d k' v') k v) := by
  have n1 := Dict.nodup_put k' v' (Dict.nodup_put k v hn)
  have n2 := Dict.nodup_put k v (Dict.nodup_put k' v' hn)
  refine ⟨?_, n1⟩
  refine (List.perm_ext_iff_of_nodup (List.Nodup.of_map _ n2) (List.Nodup.of_map _ n1)).2 ?_
  rintro ⟨j, w⟩
  refine mem_iff_of_get? n1 n2 (fun j => ?_) j w
  rw [Dict.get?_put, Dict.get?_put, Dict.get?_put, Dict.get?_put]
  by_cases h1 : j = k
  · by_cases h2 : j = k'
    · exact absurd (h1.symm.trans h2) hne
    · simp [h1, hne]
  · simp [h1]

theorem registerCustom_custom (o : Obj) (k : Str) (e : Entry) :
    (registerCustom o k e).custom = if Dict.has o.conv k then o.custom else some (Dict.put (o.custom.getD []) k e) := by
  unfold registerCustom
  split <;> rfl

theorem registerCustom_has (o : Obj) {k n : Str} (e : Entry) (hne : n ≠ k) :
    Dict.has (registerCustom o k e).conv n = Dict.has o.conv n := by
  unfold registerCustom
  split
  · rfl
  · rw [Bool.eq_iff_iff, Dict.has_iff, Dict.has_iff, Dict.get?_put_ne _ _ hne]

theorem addEntry_order {o : Obj} (ha : (o.attrs.map Prod.fst).Nodup) (hcu : ((o.custom.getD []).map Prod.fst).Nodup)
    {n n' : Str} {v v' : Inp} {t t' : Str} {d d' : Option Str}
    (h1 : (addEntry o n v t d).out = .ok ()) (h2 : (addEntry (addEntry o n v t d).obj n' v' t' d').out = .ok ())
    (h3 : (addEntry o n' v' t' d').out = .ok ()) (h4 : (addEntry (addEntry o n' v' t' d').obj n v t d).out = .ok ()) :
    Spec.Reordered (addEntry (addEntry o n v t d).obj n' v' t' d').obj (addEntry (addEntry o n' v' t' d').obj n v t d).obj := by
  obtain ⟨c1, p1, w, hw⟩ := addEntry_ok_inv h1
  obtain ⟨c2, p2, w', hw'⟩ := addEntry_ok_inv h2
  obtain ⟨c3, _, _, _⟩ := addEntry_ok_inv h3
  obtain ⟨c4, _, _, _⟩ := addEntry_ok_inv h4
  have e1 := addEntry_ok o n v w t d c1 hw p1
  have e3 := addEntry_ok o n' v' w' t' d' c3 hw' p2
  have e2 := addEntry_ok _ n' v' w' t' d' c2 hw' p2
  have e4 := addEntry_ok _ n v w t d c4 hw p1
  have hne : n ≠ n' := by
    rintro rfl
    have := checkEntry_new c2
    rw [e1] at this
    simp only [Obj.hasAttr] at this
    have hh : Dict.has (Dict.put o.attrs n w) n = true := by rw [Dict.has_iff, Dict.get?_put_self]; exact ⟨_, rfl⟩
    simp [hh] at this
  rw [e2, e4, e1, e3]
  simp only
  refine ⟨put_comm_same ha w w' hne, ?_⟩
  simp only [registerCustom_custom, registerCustom_has _ _ hne, registerCustom_has _ _ (Ne.symm hne)]
  generalize customEntry none (Option.map customDims (Option.map Str.upper d)) t = e
  generalize customEntry none (Option.map customDims (Option.map Str.upper d')) t' = e'
  cases hc1 : Dict.has o.conv n <;> cases hc2 : Dict.has o.conv n'
  · simp only [Bool.false_eq_true, if_false, Option.getD_some]
    exact Or.inr ⟨_, _, rfl, rfl, put_comm_same hcu e e' hne⟩
  · simp only [Bool.false_eq_true, if_false, if_true]
    exact Or.inr ⟨_, _, rfl, rfl, List.Perm.refl _, Dict.nodup_put _ _ hcu⟩
  · simp only [Bool.false_eq_true, if_false, if_true]
    exact Or.inr ⟨_, _, rfl, rfl, List.Perm.refl _, Dict.nodup_put _ _ hcu⟩
  · simp only [if_true]
    cases ho : o.custom with
    | none => exact Or.inl ⟨rfl, rfl⟩
    | some c =>
      rw [ho] at hcu
      exact Or.inr ⟨c, c, rfl, rfl, List.Perm.refl _, hcu⟩

end Sofar
