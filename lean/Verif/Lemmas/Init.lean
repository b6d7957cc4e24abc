import Verif.Lemmas.Modes
import Verif.Lemmas.Shapes
import Verif.Lemmas.Congr
import Verif.Lemmas.Dims
/-!
# Lemmas on new objects, convention files and add_missing
-/
namespace Sofar

theorem mandatory_iff (e : Entry) : mandatory e.flags = true ↔ Spec.IsMandatory e := by
  unfold mandatory Spec.IsMandatory
  cases e.flags with
  | none => simp
  | some f => simp

namespace Dict
variable {V : Type}

theorem foldl_put_new (l : List (Str × V)) (d : Dict V) (hn : (l.map Prod.fst).Nodup)
    (hd : ∀ k ∈ l.map Prod.fst, k ∉ keys d) : l.foldl (fun d p => put d p.1 p.2) d = d ++ l := by
  induction l generalizing d with
  | nil => simp
  | cons p l ih =>
    obtain ⟨k, v⟩ := p
    simp only [List.map_cons, List.nodup_cons] at hn
    have hk : has d k = false := by
      have := hd k (by simp)
      rw [← Bool.not_eq_true, has_iff_mem]
      exact this
    have hp : put d k v = d ++ [(k, v)] := by
      clear ih hd
      induction d with
      | nil => rfl
      | cons q d ih =>
        obtain ⟨a, b⟩ := q
        have h1 : a ≠ k := by
          rintro rfl
          simp [has, get?] at hk
        simp only [put, h1, if_false, List.cons_append, List.cons.injEq, true_and]
        apply ih
        simpa [has, get?, h1] using hk
    simp only [List.foldl_cons, hp]
    rw [ih _ hn.2]
    · simp
    · intro j hj
      have hjd := hd j (by simp only [List.map_cons, List.mem_cons]; exact Or.inr hj)
      simp only [keys, List.map_append, List.mem_append, List.map_cons, List.map_nil, List.mem_singleton, not_or]
      refine ⟨hjd, ?_⟩
      rintro rfl
      exact hn.1 hj

theorem ofList_nodup (l : List (Str × V)) (hn : (l.map Prod.fst).Nodup) : ofList l = l := by
  unfold ofList
  rw [foldl_put_new l [] hn (by simp [keys])]
  simp

/-- entries of a dictionary built from a list come from the list -/
theorem get?_ofList_mem {l : List (Str × V)} {k : Str} {v : V} (h : get? (ofList l) k = some v) : (k, v) ∈ l := by
  unfold ofList at h
  rw [get?_foldl_put] at h
  split at h
  · rename_i p hp
    simp only [Option.some.injEq] at h
    have h1 := List.mem_of_find?_eq_some hp
    have h2 := List.find?_some hp
    simp only [decide_eq_true_eq] at h2
    rw [List.mem_reverse] at h1
    rw [← h, ← h2]
    exact h1
  · simp [get?] at h

theorem mem_keys_ofList (l : List (Str × V)) (k : Str) : k ∈ keys (ofList l) ↔ k ∈ l.map Prod.fst := by
  unfold ofList
  rw [mem_keys_foldl_put]
  simp [keys]

end Dict

/-! ## New objects -/

/-- the outcomes of an assignment of data -/
theorem setAttr_data {o : Obj} {k : Str} {d : Inp} (hk : k ≠ py% "protected") :
    (∃ x, (setAttr o k d).out = .error x) ∨ ∃ w, normalise d = .ok w ∧ isPrivate k = false ∧
      setAttr o k d = ⟨.ok (), { o with attrs := Dict.put o.attrs k w }, []⟩ := by
  rcases setAttr_cases o k d with ⟨e, h1, _⟩ | ⟨b, _, h, _⟩ | ⟨w, hw, _, hpr, _, h, _⟩
  · exact Or.inl ⟨e, h1⟩
  · exact absurd h hk
  · exact Or.inr ⟨w, hw, hpr, h⟩

theorem atleastNd_withAxes {n : Nat} (hn : ¬ n = 0) (s : List Nat) : Arr.atleastNdShape n s = Spec.withAxes n s := by
  match n, s with
  | 0, _ => exact absurd rfl hn
  | 1, [] => rfl
  | 1, _ :: _ => simp [Arr.atleastNdShape, Arr.padOnes, Arr.atleast1, Spec.withAxes]
  | 2, [] => rfl
  | 2, [_] => rfl
  | 2, _ :: _ :: _ => simp [Arr.atleastNdShape, Arr.padOnes, Arr.atleast2, Spec.withAxes]
  | n + 3, [] =>
    simp [Arr.atleastNdShape, Arr.padOnes, Arr.atleast3, Spec.withAxes, List.replicate_succ]
  | n + 3, [m] => simp [Arr.atleastNdShape, Arr.padOnes, Arr.atleast3, Spec.withAxes, List.replicate_succ]
  | n + 3, [m, m'] => simp [Arr.atleastNdShape, Arr.padOnes, Arr.atleast3, Spec.withAxes, List.replicate_succ]
  | n + 3, _ :: _ :: _ :: l => simp [Arr.atleastNdShape, Arr.padOnes, Arr.atleast3, Spec.withAxes]

theorem initDefault_val {e : Entry} {d : Inp} (h : initDefault e = .ok d) : ∃ w, normalise d = .ok w ∧
    Spec.DefaultOf e (firstAlt (e.dims.getD [])).length w := by
  unfold initDefault at h
  unfold Spec.DefaultOf
  cases hd : e.default with
  | val v => simp only [hd, Except.ok.injEq] at h; subst h; exact ⟨v, rfl, rfl⟩
  | pybool b => simp only [hd, Except.ok.injEq] at h; subst h; exact ⟨_, rfl, rfl⟩
  | ragged => simp [hd] at h
  | list a =>
    simp only [hd] at h
    cases hdd : e.dims with
    | none => simp [hdd] at h
    | some dm =>
      simp only [hdd] at h
      split at h
      · simp at h
      · rename_i hnd
        simp only [Except.ok.injEq] at h
        subst h
        refine ⟨_, rfl, ?_⟩
        simp only [Option.getD_some, Arr.withShape]
        rw [atleastNd_withAxes hnd]

/-- the values that the loop over the convention assigns -/
structure Defaults (m : Bool) (conv : Dict Entry) (l : List (Str × Val)) : Prop where
  names : l.map Prod.fst = (conv.filter (fun p => mandatory p.2.flags || ! m)).map Prod.fst
  values : ∀ k v, (k, v) ∈ l → isPrivate k = false ∧ ∃ e, (k, e) ∈ conv ∧
    Spec.DefaultOf e (firstAlt (e.dims.getD [])).length v ∧ ∃ d, initDefault e = .ok d ∧ normalise d = .ok v

theorem addDefaults_ok {m : Bool} {conv : Dict Entry} {o o' : Obj} (hp : o.prot = false)
    (hk : py% "protected" ∉ conv.map Prod.fst) (h : addDefaults m conv o = .ok o') :
    ∃ l, Defaults m conv l ∧ o' = { o with attrs := l.foldl (fun d p => Dict.put d p.1 p.2) o.attrs } := by
  induction conv generalizing o with
  | nil =>
    simp only [addDefaults, Except.ok.injEq] at h
    subst h
    exact ⟨[], ⟨rfl, by simp⟩, rfl⟩
  | cons p conv ih =>
    obtain ⟨k, e⟩ := p
    simp only [List.map_cons, List.mem_cons, not_or] at hk
    simp only [addDefaults] at h
    by_cases hc : (! mandatory e.flags && m) = true
    · rw [if_pos hc] at h
      obtain ⟨l, h1, h2⟩ := ih hp hk.2 h
      refine ⟨l, ⟨?_, ?_⟩, h2⟩
      · rw [h1.names, List.filter_cons_of_neg]
        simp only [Bool.and_eq_true, Bool.not_eq_true'] at hc
        simp [hc.1, hc.2]
      · intro j v hj
        obtain ⟨a, e', b, c⟩ := h1.values j v hj
        exact ⟨a, e', by simp [b], c⟩
    · rw [if_neg hc] at h
      cases hd : initDefault e with
      | error x => simp [hd] at h
      | ok d =>
        simp only [hd] at h
        rcases setAttr_data (o := o) (d := d) (Ne.symm hk.1) with ⟨x, hx⟩ | ⟨w, hw, hpr, hs⟩
        · simp [hx] at h
        · rw [hs] at h
          simp only at h
          obtain ⟨w', hw', hdef⟩ := initDefault_val hd
          rw [hw] at hw'
          cases hw'
          obtain ⟨l, h1, h2⟩ := ih (o := { o with attrs := Dict.put o.attrs k w }) hp hk.2 h
          refine ⟨(k, w) :: l, ⟨?_, ?_⟩, h2⟩
          · rw [List.filter_cons_of_pos]
            · simp [h1.names]
            · simp only [Bool.and_eq_true, Bool.not_eq_true', not_and] at hc
              cases hm : mandatory e.flags with
              | true => rfl
              | false =>
                have := hc hm
                simp only [Bool.not_eq_true] at this
                simp [this]
          · intro j v hj
            rcases List.mem_cons.1 hj with hj | hj
            · cases hj
              exact ⟨hpr, e, by simp, hdef, d, hd, hw⟩
            · obtain ⟨a, e', b, c⟩ := h1.values j v hj
              exact ⟨a, e', by simp [b], c⟩

theorem finishInit_attrs {env : Env} {m : Bool} {v : Str} {b : Bool} {o o' : Obj}
    (h : (finishInit env m v b o).out = .ok o') : o'.attrs = o.attrs ∧ o'.prot = true ∧ o'.readOnly = o.readOnly := by
  unfold finishInit at h
  split at h
  · simp only at h
    have hf := verifyG_frame (fun _ _ => ⟨.error .unmodelled, []⟩) env o .raise .read
    change VerifyFrame env o .raise (verifyNew env o .raise .read).obj at hf
    split at h
    · simp at h
    · simp only [Except.ok.injEq] at h
      subst h
      exact ⟨hf.raise rfl, rfl, hf.readOnly⟩
  · split at h
    · simp at h
    · simp only [Except.ok.injEq] at h; subst h; exact ⟨rfl, rfl, rfl⟩
    · simp only [Except.ok.injEq] at h; subst h; exact ⟨rfl, rfl, rfl⟩

theorem initSofa_ok {env : Env} {c : Str} {m : Bool} {ver : VersionArg} {a : VerifyArg} {o : Obj}
    (h : (initSofa env c m ver a).out = .ok o) : ∃ conv o0, loadConvention env c ver = .ok conv ∧
      conventionToSofa env m (emptyObj conv) = .ok o0 ∧ o.attrs = o0.attrs ∧ o.prot = true ∧
      o.readOnly = o0.readOnly := by
  unfold initSofa at h
  cases hl : loadConvention env c ver with
  | error x => simp [hl] at h
  | ok conv =>
    simp only [hl] at h
    cases hc : conventionToSofa env m (emptyObj conv) with
    | error x => simp [hc] at h
    | ok o0 =>
      simp only [hc] at h
      cases hv : conventionVersion conv with
      | error x => simp [hv] at h
      | ok v =>
        simp only [hv] at h
        have : ∃ b, (finishInit env m v b o0).out = .ok o := by
          cases a with
          | yes => exact ⟨_, h⟩
          | no => exact ⟨_, h⟩
          | auto =>
            simp only at h
            split at h
            · simp at h
            · exact ⟨_, h⟩
        obtain ⟨b, hb⟩ := this
        exact ⟨conv, o0, rfl, hc, finishInit_attrs hb⟩

theorem convertKeys_nodup (d : Dict Entry) : ((convertKeys d).map Prod.fst).Nodup := Dict.nodup_ofList _

theorem loadConvention_nodup {env : Env} {c : Str} {ver : VersionArg} {conv : Dict Entry}
    (h : loadConvention env c ver = .ok conv) : (conv.map Prod.fst).Nodup := by
  unfold loadConvention at h
  split at h
  · simp at h
  · simp only [Except.ok.injEq] at h
    subst h
    exact convertKeys_nodup _

/-- data of a new object -/
theorem initSofa_data {env : Env} {c : Str} {m : Bool} {ver : VersionArg} {a : VerifyArg} {o : Obj} {conv : Dict Entry}
    (h : (initSofa env c m ver a).out = .ok o) (hl : loadConvention env c ver = .ok conv)
    (hk : py% "protected" ∉ conv.map Prod.fst) :
    ∃ l, Defaults m conv l ∧ (l.map Prod.fst).Nodup ∧
      o.attrs = (stamps env).foldl (fun d p => Dict.put d p.1 (.str p.2)) l := by
  obtain ⟨conv', o0, h1, h2, h3, _⟩ := initSofa_ok h
  rw [hl] at h1
  cases h1
  unfold conventionToSofa at h2
  cases hd : addDefaults m (emptyObj conv).conv (emptyObj conv) with
  | error x => simp [hd] at h2
  | ok o1 =>
    simp only [hd, Except.ok.injEq] at h2
    obtain ⟨l, hl1, hl2⟩ := addDefaults_ok rfl hk hd
    have hn : (l.map Prod.fst).Nodup := by
      rw [hl1.names]
      exact Dict.nodup_filter (fun p => mandatory p.2.flags || ! m) (loadConvention_nodup hl)
    refine ⟨l, hl1, hn, ?_⟩
    rw [h3, ← h2]
    simp only [putStamps, hl2]
    rw [Dict.foldl_put_new l _ hn (by simp [emptyObj, Dict.keys])]
    rfl

theorem get?_foldl_stamps (st : List (Str × Str)) (d : Dict Val) (k : Str) (hk : k ∉ st.map Prod.fst) :
    Dict.get? (st.foldl (fun d p => Dict.put d p.1 (.str p.2)) d) k = Dict.get? d k := by
  induction st generalizing d with
  | nil => rfl
  | cons p st ih =>
    simp only [List.map_cons, List.mem_cons, not_or] at hk
    rw [List.foldl_cons, ih _ hk.2, Dict.get?_put_ne _ _ hk.1]

theorem mem_keys_foldl_stamps (st : List (Str × Str)) (d : Dict Val) (k : Str) :
    k ∈ Dict.keys (st.foldl (fun d p => Dict.put d p.1 (.str p.2)) d) ↔ k ∈ Dict.keys d ∨ k ∈ st.map Prod.fst := by
  induction st generalizing d with
  | nil => simp
  | cons p st ih =>
    rw [List.foldl_cons, ih, Dict.mem_keys_put]
    simp only [List.map_cons, List.mem_cons]
    grind

theorem keys_foldl_stamps (st : List (Str × Str)) (d : Dict Val) (h : ∀ k ∈ st.map Prod.fst, k ∈ Dict.keys d) :
    Dict.keys (st.foldl (fun d p => Dict.put d p.1 (.str p.2)) d) = Dict.keys d := by
  induction st generalizing d with
  | nil => rfl
  | cons p st ih =>
    have h1 : Dict.keys (Dict.put d p.1 (.str p.2)) = Dict.keys d :=
      Dict.keys_put_of_has _ ((Dict.has_iff_mem _ _).2 (h p.1 (by simp)))
    rw [List.foldl_cons, ih, h1]
    intro k hk
    rw [h1]
    exact h k (by simp only [List.map_cons, List.mem_cons]; exact Or.inr hk)

/-! ## Convention files -/

theorem sofarName_colon (k : Str) : Str.replaceChar (Str.replaceChar k ':' '_') '.' '_' = Spec.sofarName k := by
  unfold Str.replaceChar Spec.sofarName
  rw [List.map_map]
  apply List.map_congr_left
  intro c _
  simp only [Function.comp]
  grind

theorem sofarName_clean (k : Str) : ':' ∉ Spec.sofarName k ∧ '.' ∉ Spec.sofarName k := by
  unfold Spec.sofarName
  constructor
  · intro h
    obtain ⟨c, _, hc⟩ := List.mem_map.1 h
    split at hc
    · cases hc
    · rename_i h'; exact h' (Or.inr hc)
  · intro h
    obtain ⟨c, _, hc⟩ := List.mem_map.1 h
    split at hc
    · cases hc
    · rename_i h'; exact h' (Or.inl hc)

theorem convertKeys_get {d : Dict Entry} {k : Str} {e : Entry} (h : Dict.get? (convertKeys d) k = some e) :
    ∃ k0, (k0, e) ∈ d ∧ k = Spec.sofarName k0 := by
  unfold convertKeys at h
  simp only at h
  have h1 := Dict.get?_ofList_mem h
  obtain ⟨p, hp, hpe⟩ := List.mem_map.1 h1
  obtain ⟨k1, e1⟩ := p
  simp only [Prod.mk.injEq] at hpe
  obtain ⟨hk, rfl⟩ := hpe
  have h2 := Dict.get?_ofList_mem (Dict.get?_of_mem (Dict.nodup_ofList _) hp)
  obtain ⟨q, hq, hqe⟩ := List.mem_map.1 h2
  obtain ⟨k0, e0⟩ := q
  simp only [Prod.mk.injEq] at hqe
  obtain ⟨hk0, rfl⟩ := hqe
  refine ⟨k0, hq, ?_⟩
  rw [← hk, ← hk0, sofarName_colon]

theorem convertKeys_mem (d : Dict Entry) (k : Str) (h : k ∈ d.map Prod.fst) :
    Spec.sofarName k ∈ (convertKeys d).map Prod.fst := by
  unfold convertKeys
  simp only
  change _ ∈ Dict.keys _
  rw [Dict.mem_keys_ofList, List.map_map]
  have h1 : Str.replaceChar k ':' '_' ∈ Dict.keys (Dict.ofList (d.map (fun p => (Str.replaceChar p.1 ':' '_', p.2)))) := by
    rw [Dict.mem_keys_ofList, List.map_map]
    obtain ⟨p, hp, rfl⟩ := List.mem_map.1 h
    exact List.mem_map.2 ⟨p, hp, rfl⟩
  obtain ⟨q, hq, hqk⟩ := List.mem_map.1 h1
  exact List.mem_map.2 ⟨q, hq, by simp only [Function.comp]; rw [hqk, sofarName_colon]⟩

theorem nodup_of_map {α β : Type} (f : α → β) {l : List α} (h : (l.map f).Nodup) : l.Nodup := by
  induction l with
  | nil => simp
  | cons a l ih =>
    simp only [List.map_cons, List.nodup_cons] at h ⊢
    exact ⟨fun ha => h.1 (List.mem_map_of_mem ha), ih h.2⟩

theorem convertKeys_injective (d : Dict Entry) (hn : (d.map (fun p => Spec.sofarName p.1)).Nodup) :
    convertKeys d = d.map (fun p => (Spec.sofarName p.1, p.2)) := by
  unfold convertKeys
  simp only
  have h1 : ((d.map (fun p => (Str.replaceChar p.1 ':' '_', p.2))).map Prod.fst).Nodup := by
    rw [List.map_map]
    have : d.map (fun p => Spec.sofarName p.1) =
        (d.map (Prod.fst ∘ fun p => (Str.replaceChar p.1 ':' '_', p.2))).map (fun k => Str.replaceChar k '.' '_') := by
      rw [List.map_map]
      apply List.map_congr_left
      intro p _
      simp only [Function.comp]
      rw [sofarName_colon]
    rw [this] at hn
    exact nodup_of_map _ hn
  rw [Dict.ofList_nodup _ h1, List.map_map]
  have h2 : List.map ((fun p : Str × Entry => (Str.replaceChar p.1 '.' '_', p.2)) ∘
      fun p => (Str.replaceChar p.1 ':' '_', p.2)) d = d.map (fun p => (Spec.sofarName p.1, p.2)) := by
    apply List.map_congr_left
    intro p _
    simp only [Function.comp]
    rw [sofarName_colon]
  rw [h2, Dict.ofList_nodup]
  rw [List.map_map]
  exact hn

/-! ## add_missing -/

/-- the values that `add_missing` adds -/
structure Added (m opt : Bool) (keys : List Str) (conv : Dict Entry) (l : List (Str × Val)) : Prop where
  names : l.map Prod.fst = (conv.filter (fun p => ! keys.contains p.1 &&
    ((mandatory p.2.flags && m) || (! mandatory p.2.flags && opt)))).map Prod.fst
  values : ∀ k v, (k, v) ∈ l → isPrivate k = false ∧ ∃ e, (k, e) ∈ conv ∧ normalise e.default = .ok v

theorem addMissingLoop_ok {m opt : Bool} {keys : List Str} {conv : Dict Entry} {o : Obj} {s : Str}
    (hk : py% "protected" ∉ conv.map Prod.fst) (h : (addMissingLoop m opt keys conv o).1 = .ok s) :
    ∃ l, Added m opt keys conv l ∧
      (addMissingLoop m opt keys conv o).2 = { o with attrs := l.foldl (fun d p => Dict.put d p.1 p.2) o.attrs } := by
  induction conv generalizing o s with
  | nil => exact ⟨[], ⟨rfl, by simp⟩, rfl⟩
  | cons p conv ih =>
    obtain ⟨k, e⟩ := p
    simp only [List.map_cons, List.mem_cons, not_or] at hk
    simp only [addMissingLoop] at h ⊢
    by_cases hc : (! keys.contains k && ((mandatory e.flags && m) || (! mandatory e.flags && opt))) = true
    · rw [if_pos hc] at h
      simp only [if_pos hc]
      rcases setAttr_data (o := o) (d := e.default) (Ne.symm hk.1) with ⟨x, hx⟩ | ⟨w, hw, hpr, hs⟩
      · simp [hx] at h
      · rw [hs] at h ⊢
        simp only at h ⊢
        cases hq : (addMissingLoop m opt keys conv { o with attrs := Dict.put o.attrs k w }).1 with
        | error x => simp [hq] at h
        | ok s' =>
          obtain ⟨l, h1, h2⟩ := ih hk.2 hq
          simp only
          refine ⟨(k, w) :: l, ⟨?_, ?_⟩, h2⟩
          · rw [List.filter_cons_of_pos (by exact hc)]
            simp [h1.names]
          · intro j v hj
            rcases List.mem_cons.1 hj with hj | hj
            · cases hj
              exact ⟨hpr, e, by simp, hw⟩
            · obtain ⟨a, e', b, c⟩ := h1.values j v hj
              exact ⟨a, e', by simp [b], c⟩
    · rw [if_neg hc] at h
      simp only [if_neg hc]
      obtain ⟨l, h1, h2⟩ := ih hk.2 h
      refine ⟨l, ⟨?_, ?_⟩, h2⟩
      · rw [List.filter_cons_of_neg (by exact hc), h1.names]
      · intro j v hj
        obtain ⟨a, e', b, c⟩ := h1.values j v hj
        exact ⟨a, e', by simp [b], c⟩

theorem addMissingLoop_noop {m opt : Bool} {keys : List Str} {conv : Dict Entry} {o : Obj}
    (h : ∀ p ∈ conv, (! keys.contains p.1 &&
      ((mandatory p.2.flags && m) || (! mandatory p.2.flags && opt))) = false) :
    addMissingLoop m opt keys conv o = (.ok [], o) := by
  induction conv with
  | nil => rfl
  | cons p conv ih =>
    obtain ⟨k, e⟩ := p
    simp only [addMissingLoop]
    rw [if_neg (by rw [h (k, e) (by simp)]; simp)]
    exact ih (fun q hq => h q (by simp [hq]))

theorem normalise_elems {d : Inp} {v : Val} (hw : ∀ a, d = .list a → a.WF) (h : normalise d = .ok v) :
    Spec.elems v = Spec.inpElems d := by
  cases d with
  | val w => simp only [normalise, Except.ok.injEq] at h; subst h; rfl
  | pybool b => simp only [normalise, Except.ok.injEq] at h; subst h; rfl
  | ragged => simp [normalise] at h
  | list a =>
    have hwf := hw a rfl
    simp only [normalise] at h
    by_cases h1 : (a.withShape (Arr.atleast2 a.shape)).size = 1
    · rw [if_pos h1] at h
      simp only [Arr.withShape, Arr.size] at h1
      rw [size_atleast2] at h1
      have h2 : a.data.length = 1 := by rw [hwf, Arr.size]; exact h1
      obtain ⟨x, hx⟩ := List.length_eq_one_iff.1 h2
      simp only [Arr.withShape, hx, Except.ok.injEq] at h
      subst h
      simp only [Spec.inpElems, hx]
      unfold scalarOf
      split <;> rfl
    · rw [if_neg h1] at h
      simp only [Except.ok.injEq] at h
      subst h
      rfl

theorem stamps_names (env : Env) : (stamps env).map Prod.fst = Spec.stampNames := rfl

theorem resetConvention_nodup {env : Env} {o o1 : Obj} (hw : ∀ c, o.custom = some c → (c.map Prod.fst).Nodup)
    (h : resetConvention env o = .ok o1) : (o1.conv.map Prod.fst).Nodup := by
  obtain ⟨cv, c, v, conv, _, _, _, _, h5, h6⟩ := resetConvention_inv h
  rw [h6]
  cases hc : o.custom with
  | none => exact loadConvention_nodup h5
  | some cu => exact (nodup_mergeCustom conv cu (loadConvention_nodup h5) (hw cu hc)).1

theorem resetConvention_attrs {env : Env} {o o1 : Obj} (h : resetConvention env o = .ok o1) :
    o1.attrs = o.attrs := by
  obtain ⟨_, _, rfl, _⟩ := resetConvention_frame h
  rfl

theorem getAttr_data {o : Obj} {k : Str} {v : Val} (hp : isPrivate k = false) (hm : k ∉ publicMembers)
    (h : o.getAttr k = .ok v) : Dict.get? o.attrs k = some v := by
  rcases getAttr_ok h with h | ⟨h, _, h1⟩
  · exact h
  · rcases (hasAttr_public o k hp).1 h1 with h2 | h2
    · rw [Dict.get?_eq_none_iff, ← Dict.has_iff_mem] at h
      exact absurd h2 h
    · exact absurd h2 hm

/-- a second reset, after data was added -/
theorem resetConvention_grow {env : Env} {o o1 o2 : Obj} (h : resetConvention env o = .ok o1)
    (ha : ∀ k v, Dict.get? o1.attrs k = some v → Dict.get? o2.attrs k = some v)
    (hc : o2.conv = o1.conv) (hu : o2.custom = o1.custom) : resetConvention env o2 = .ok o2 := by
  obtain ⟨cv, c, v, conv, h1, h2, h3, h4, h5, h6⟩ := resetConvention_inv h
  have hat := resetConvention_attrs h
  rw [hat] at ha
  have h1' := getAttr_of_get (ha _ _ (getAttr_data (by decide) (by decide) h1))
  have h3' := getAttr_of_get (ha _ _ (getAttr_data (by decide) (by decide) h3))
  unfold resetConvention
  rw [h1', h3']
  simp only [h2, h4, h5]
  rw [hu, h6]
  cases hcu : o.custom with
  | none =>
    rw [h6, hcu] at hc hu
    simp only at hc hu ⊢
    cases o2
    simp_all
  | some cu =>
    rw [h6, hcu] at hc hu
    simp only at hc hu ⊢
    rw [filter_filter_has]
    cases o2
    simp_all

theorem Dict.get?_append_left {V : Type} {d l : Dict V} {k : Str} {v : V} (h : Dict.get? d k = some v) :
    Dict.get? (d ++ l) k = some v := by
  induction d with
  | nil => simp [Dict.get?] at h
  | cons p d ih =>
    obtain ⟨a, b⟩ := p
    simp only [Dict.get?] at h
    rw [List.cons_append, Dict.get?]
    split
    · rename_i hc; rw [if_pos hc] at h; exact h
    · rename_i hc; rw [if_neg hc] at h; exact ih h

theorem addMissingLoop_conv (m opt : Bool) (keys : List Str) (l : Dict Entry) (q : Obj) :
    (addMissingLoop m opt keys l q).2.conv = q.conv := by
  induction l generalizing q with
  | nil => rfl
  | cons p l ih =>
    obtain ⟨k, e⟩ := p
    simp only [addMissingLoop]
    have hset : (setAttr q k e.default).obj.conv = q.conv := by
      rcases setAttr_cases q k e.default with ⟨_, _, h⟩ | ⟨_, _, _, h⟩ | ⟨_, _, _, _, _, h, _⟩ <;> simp [h]
    split
    · split
      · exact hset
      · split <;> simp only [ih, hset]
    · exact ih q

theorem addMissing_ok {env : Env} {o : Obj} {m opt verbose : Bool}
    (hw : ∀ c, o.custom = some c → (c.map Prod.fst).Nodup)
    (h : (addMissing env o m opt verbose).out = .ok ())
    (hk : py% "protected" ∉ (addMissing env o m opt verbose).obj.conv.map Prod.fst) :
    ∃ o1 l, resetConvention env o = .ok o1 ∧ (o1.conv.map Prod.fst).Nodup ∧ Added m opt o.keys o1.conv l ∧
      (l.map Prod.fst).Nodup ∧ (∀ k ∈ l.map Prod.fst, k ∉ o.attrs.map Prod.fst) ∧
      (addMissing env o m opt verbose).obj = { o1 with attrs := o.attrs ++ l, prot := true } := by
  unfold addMissing at h hk ⊢
  cases hr : resetConvention env o with
  | error x => simp [hr] at h
  | ok o1 =>
    simp only [hr] at h hk ⊢
    cases hq : (addMissingLoop m opt o1.keys o1.conv { o1 with prot := false }).1 with
    | error x => simp [hq] at h
    | ok s =>
      simp only [hq] at h hk ⊢
      have hat := resetConvention_attrs hr
      have hconv := resetConvention_nodup hw hr
      rw [addMissingLoop_conv] at hk
      obtain ⟨l, hl, ho⟩ := addMissingLoop_ok hk hq
      have hln : (l.map Prod.fst).Nodup := by
        rw [hl.names]
        exact Dict.nodup_filter _ hconv
      have hkeys : o1.keys = o.keys := by unfold Obj.keys; rw [hat]
      have hnew : ∀ k ∈ l.map Prod.fst, k ∉ Dict.keys o.attrs := by
        intro k hk1
        rw [hl.names] at hk1
        obtain ⟨p, hp, rfl⟩ := List.mem_map.1 hk1
        have := (List.mem_filter.1 hp).2
        simp only [Bool.and_eq_true, Bool.not_eq_true', ← Bool.not_eq_true, List.contains_iff_mem] at this
        rw [hkeys] at this
        exact this.1
      refine ⟨o1, l, rfl, hconv, hkeys ▸ hl, hln, hnew, ?_⟩
      rw [ho]
      simp only
      rw [hat, Dict.foldl_put_new l _ hln hnew]

/-! ## C18 -/

theorem foldr_mul_one {s : List Nat} (h : s.foldr (· * ·) 1 = 1) : ∀ n ∈ s, n = 1 := by
  induction s with
  | nil => simp
  | cons a s ih =>
    simp only [List.foldr_cons] at h
    replace h : a = 1 ∧ s.foldr (· * ·) 1 = 1 :=
      ⟨Nat.eq_one_of_dvd_one ⟨_, h.symm⟩, Nat.eq_one_of_dvd_one ⟨a, by rw [Nat.mul_comm]; exact h.symm⟩⟩
    intro n hn
    rcases List.mem_cons.1 hn with rfl | hn
    · exact h.1
    · exact ih h.2 n hn

theorem getD_ones {s : List Nat} (h : ∀ n ∈ s, n = 1) (i : Nat) : s.getD i 1 = 1 := by
  rw [List.getD_eq_getElem?_getD]
  cases hi : s[i]? with
  | none => rfl
  | some n => exact h n (List.mem_of_getElem? hi)

/-- the axes of a default value in a new object and in the same default value that is added later -/
theorem axes_same {n : Nat} (hn : 2 ≤ n) (a : Arr) (hw : a.WF) {v : Val} (hv : normalise (.list a) = .ok v)
    (b : Bool) (i : Nat) :
    Spec.axisSize b n (Arr.atleastNdShape n a.shape) i = Spec.axisSize b n v.shape i := by
  have hnew : ∀ i, (Arr.atleastNdShape n a.shape).getD i 1 = (Arr.atleast2 a.shape).getD i 1 := by
    intro i
    unfold Arr.atleastNdShape
    rw [getD_padOnes]
    match n, hn with
    | 2, _ => rfl
    | n + 3, _ =>
      simp only
      match a.shape with
      | [] => match i with
        | 0 | 1 | 2 => rfl
        | _ + 3 => rfl
      | [m] => match i with
        | 0 | 1 | 2 => rfl
        | _ + 3 => rfl
      | [m, m'] => match i with
        | 0 | 1 | 2 => rfl
        | _ + 3 => rfl
      | _ :: _ :: _ :: _ => rfl
  have hlen : 2 ≤ (Arr.atleastNdShape n a.shape).length := by
    unfold Arr.atleastNdShape Arr.padOnes
    simp only [List.length_append, List.length_replicate]
    omega
  have hax : ∀ s : List Nat, 2 ≤ s.length → Spec.axisSize b n s i = s.getD i 1 := by
    intro s hs
    unfold Spec.axisSize
    cases b with
    | true => rfl
    | false =>
      simp only [Bool.false_eq_true, if_false]
      rw [if_neg (by omega)]
      match s, hs with
      | _ :: _ :: _, _ => rfl
  rw [hax _ hlen, hnew]
  simp only [normalise] at hv
  have hl2 : 2 ≤ (Arr.atleast2 a.shape).length := by
    match a.shape with
    | [] => simp [Arr.atleast2]
    | [_] => simp [Arr.atleast2]
    | _ :: _ :: _ => simp [Arr.atleast2]
  by_cases h1 : (a.withShape (Arr.atleast2 a.shape)).size = 1
  · rw [if_pos h1] at hv
    simp only [Arr.withShape, Arr.size] at h1
    have h2 := h1
    rw [size_atleast2] at h2
    have h3 : a.data.length = 1 := by rw [hw, Arr.size]; exact h2
    obtain ⟨x, hx⟩ := List.length_eq_one_iff.1 h3
    simp only [Arr.withShape, hx, Except.ok.injEq] at hv
    have hs : v.shape = [] := by
      subst hv
      unfold scalarOf
      split <;> rfl
    rw [hs, getD_ones (foldr_mul_one h1)]
    unfold Spec.axisSize
    cases b with
    | true => rfl
    | false =>
      simp only [Bool.false_eq_true, if_false]
      rw [if_neg (by omega)]
      rfl
  · rw [if_neg h1] at hv
    simp only [Except.ok.injEq] at hv
    subst hv
    exact (hax _ hl2).symm

theorem initDefault_shape {e : Entry} {d : Inp} {a : Arr} (hd : e.default = .list a) (h : initDefault e = .ok d) :
    d = .val (.arr (a.withShape (Arr.atleastNdShape (firstAlt (e.dims.getD [])).length a.shape))) := by
  unfold initDefault at h
  simp only [hd] at h
  cases hdd : e.dims with
  | none => simp [hdd] at h
  | some dm =>
    simp only [hdd] at h
    split at h
    · cases h
    · cases h; rfl

end Sofar
