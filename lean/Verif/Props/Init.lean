import Verif.Lemmas.History
import Verif.Props.Verify
/-!
# C12, C13, C16, C17: new objects, entry names and add_missing
-/
namespace Sofar

/-- the value of the i-th stamp -/
theorem get?_stamps (env : Env) (d : Dict Val) (k s : Str) (h : (k, s) ∈ stamps env) :
    Dict.get? ((stamps env).foldl (fun d p => Dict.put d p.1 (.str p.2)) d) k = some (.str s) := by
  have e := stamps_names env
  simp only [stamps, List.mem_cons, Prod.mk.injEq, List.not_mem_nil, or_false] at h
  simp only [stamps, List.foldl_cons, List.foldl_nil]
  rcases h with ⟨rfl, rfl⟩ | ⟨rfl, rfl⟩ | ⟨rfl, rfl⟩ | ⟨rfl, rfl⟩ | ⟨rfl, rfl⟩ | ⟨rfl, rfl⟩ <;>
    (repeat rw [Dict.get?_put_ne _ _ (by decide)]) <;> rw [Dict.get?_put_self]

/-- C12: a new object contains the entries of the convention, in their order, with their default values, and the
stamps. -/
theorem C12_new_object (env : Env) (c : Str) (ver : VersionArg) (a : VerifyArg) (o : Obj) (conv : Dict Entry)
    (h : (initSofa env c false ver a).out = .ok o) (hl : loadConvention env c ver = .ok conv)
    (hk : py% "protected" ∉ conv.map Prod.fst) :
    (∀ k, Spec.IsData o k ↔ k ∈ conv.map Prod.fst ∨ k ∈ Spec.stampNames) ∧
    (∀ k e, (k, e) ∈ conv → k ∉ Spec.stampNames → ∀ alt, Spec.IsFirstAlternative (e.dims.getD []) alt →
      ∃ v, Dict.get? o.attrs k = some v ∧ Spec.DefaultOf e alt.length v) ∧
    ((∀ k ∈ Spec.stampNames, k ∈ conv.map Prod.fst) → o.attrs.map Prod.fst = conv.map Prod.fst) := by
  obtain ⟨l, hd, hn, ho⟩ := initSofa_data h hl hk
  have hnames : l.map Prod.fst = conv.map Prod.fst := by
    rw [hd.names]
    congr 1
    rw [List.filter_eq_self]
    intro p _
    simp
  refine ⟨?_, ?_, ?_⟩
  · intro k
    unfold Spec.IsData
    rw [ho]
    change k ∈ Dict.keys _ ↔ _
    rw [mem_keys_foldl_stamps, stamps_names, ← hnames]
    rfl
  · intro k e hke hs alt halt
    rw [← firstAlt_of_isFirst halt]
    have hk : k ∈ l.map Prod.fst := by rw [hnames]; exact List.mem_map.2 ⟨_, hke, rfl⟩
    obtain ⟨p, hp, rfl⟩ := List.mem_map.1 hk
    obtain ⟨k, v⟩ := p
    obtain ⟨_, e', he', hv, _⟩ := hd.values k v hp
    have : e' = e := by
      have h1 := Dict.get?_of_mem (loadConvention_nodup hl) he'
      rw [Dict.get?_of_mem (loadConvention_nodup hl) hke] at h1
      exact (Option.some.inj h1).symm
    subst this
    refine ⟨v, ?_, hv⟩
    rw [ho, get?_foldl_stamps _ _ _ (by rw [stamps_names]; exact hs)]
    exact Dict.get?_of_mem hn hp
  · intro hall
    rw [ho]
    change Dict.keys _ = _
    rw [keys_foldl_stamps, ← hnames]
    · rfl
    · intro k hk
      rw [stamps_names] at hk
      change k ∈ l.map Prod.fst
      rw [hnames]
      exact hall k hk

/-- C12: the values of the stamps. -/
theorem C12_stamps (env : Env) (c : Str) (m : Bool) (ver : VersionArg) (a : VerifyArg) (o : Obj) (conv : Dict Entry)
    (h : (initSofa env c m ver a).out = .ok o) (hl : loadConvention env c ver = .ok conv)
    (hk : py% "protected" ∉ conv.map Prod.fst) :
    Dict.get? o.attrs (py% "GLOBAL_DateCreated") = some (.str env.now) ∧
    Dict.get? o.attrs (py% "GLOBAL_DateModified") = some (.str env.now) ∧
    Dict.get? o.attrs (py% "GLOBAL_APIName") = some (.str (py% "sofar SOFA API for Python (pyfar.org)")) ∧
    Dict.get? o.attrs (py% "GLOBAL_APIVersion") = some (.str env.apiVersion) ∧
    Dict.get? o.attrs (py% "GLOBAL_ApplicationName") = some (.str (py% "Python")) ∧
    Dict.get? o.attrs (py% "GLOBAL_ApplicationVersion") = some (.str env.appVersion) := by
  obtain ⟨l, _, _, ho⟩ := initSofa_data h hl hk
  rw [ho]
  refine ⟨?_, ?_, ?_, ?_, ?_, ?_⟩ <;> exact get?_stamps env l _ _ (by simp [stamps])

example : (initSofa exEnv (py% "FIR") false .latest .auto).out = .ok exSofa ∧
    loadConvention exEnv (py% "FIR") .latest = .ok (convertKeys (exConvention (py% "1.0"))) ∧
    py% "protected" ∉ (convertKeys (exConvention (py% "1.0"))).map Prod.fst ∧
    (∀ k ∈ Spec.stampNames, k ∈ (convertKeys (exConvention (py% "1.0"))).map Prod.fst) ∧
    Dict.get? exSofa.attrs (py% "Data_IR") = some (.arr (exNums .i [1, 2, 3] [1, 2, 3, 4, 5, 6])) ∧
    Dict.get? exSofa.attrs (py% "SourcePosition") = some (.arr (exNums .i [1, 3] [0, 0, 1])) := by
  decide +kernel

/-- C13: objects with `mandatory=True` contain all mandatory entries with their default values; other data is only
there in the stamps (see `C13_refuted`). -/
theorem C13_mandatory_only_partial (env : Env) (c : Str) (ver : VersionArg) (a : VerifyArg) (o : Obj)
    (conv : Dict Entry) (h : (initSofa env c true ver a).out = .ok o) (hl : loadConvention env c ver = .ok conv)
    (hk : py% "protected" ∉ conv.map Prod.fst) :
    (∀ k, Spec.IsData o k ↔ (∃ e, (k, e) ∈ conv ∧ Spec.IsMandatory e) ∨ k ∈ Spec.stampNames) ∧
    (∀ k e, (k, e) ∈ conv → Spec.IsMandatory e → k ∉ Spec.stampNames →
      ∀ alt, Spec.IsFirstAlternative (e.dims.getD []) alt →
      ∃ v, Dict.get? o.attrs k = some v ∧ Spec.DefaultOf e alt.length v) := by
  obtain ⟨l, hd, hn, ho⟩ := initSofa_data h hl hk
  have hnames : ∀ k, k ∈ l.map Prod.fst ↔ ∃ e, (k, e) ∈ conv ∧ Spec.IsMandatory e := by
    intro k
    rw [hd.names]
    constructor
    · intro hk
      obtain ⟨⟨k, e⟩, hp, rfl⟩ := List.mem_map.1 hk
      obtain ⟨h1, h2⟩ := List.mem_filter.1 hp
      exact ⟨e, h1, (mandatory_iff e).1 (by simpa using h2)⟩
    · rintro ⟨e, h1, h2⟩
      exact List.mem_map.2 ⟨(k, e), List.mem_filter.2 ⟨h1, by simpa using (mandatory_iff e).2 h2⟩, rfl⟩
  refine ⟨?_, ?_⟩
  · intro k
    unfold Spec.IsData
    rw [ho]
    change k ∈ Dict.keys _ ↔ _
    rw [mem_keys_foldl_stamps, stamps_names, ← hnames]
    rfl
  · intro k e hke hm hs alt halt
    rw [← firstAlt_of_isFirst halt]
    obtain ⟨p, hp, rfl⟩ := List.mem_map.1 ((hnames k).2 ⟨e, hke, hm⟩)
    obtain ⟨k, v⟩ := p
    obtain ⟨_, e', he', hv, _⟩ := hd.values k v hp
    have : e' = e := by
      have h1 := Dict.get?_of_mem (loadConvention_nodup hl) he'
      rw [Dict.get?_of_mem (loadConvention_nodup hl) hke] at h1
      exact (Option.some.inj h1).symm
    subst this
    refine ⟨v, ?_, hv⟩
    rw [ho, get?_foldl_stamps _ _ _ (by rw [stamps_names]; exact hs)]
    exact Dict.get?_of_mem hn hp

/-- the object with mandatory data only -/
def exMandatory : Obj :=
  match (initSofa exEnv (py% "FIR") true .latest .auto).out with
  | .ok o => o
  | .error _ => emptyObj []

example : (initSofa exEnv (py% "FIR") true .latest .auto).out = .ok exMandatory ∧
    Dict.has exMandatory.attrs (py% "Names") = false ∧ Dict.has exMandatory.attrs (py% "Data_IR") = true := by
  decide +kernel

/-- C13 is false as stated: optional entries of the convention are part of the object although `mandatory=True`,
because the API and date stamps are written in any case (sofar/sofa.py:1759-1761). -/
theorem C13_refuted : ∃ (env : Env) (c : Str) (conv : Dict Entry) (o : Obj) (k : Str) (e : Entry),
    loadConvention env c .latest = .ok conv ∧ (initSofa env c true .latest .auto).out = .ok o ∧
    (k, e) ∈ conv ∧ ¬ Spec.IsMandatory e ∧ Spec.IsData o k := by
  refine ⟨exEnv, py% "FIR", convertKeys (exConvention (py% "1.0")), exMandatory, py% "GLOBAL_ApplicationName",
    ⟨none, none, py% "attribute", .val (.str []), []⟩, by decide +kernel, by decide +kernel, by decide +kernel, ?_,
    by unfold Spec.IsData; decide +kernel⟩
  rintro ⟨f, hf, _⟩
  cases hf

/-- C16: the names in a loaded convention. -/
theorem C16_names (env : Env) (c : Str) (ver : VersionArg) (conv : Dict Entry)
    (h : loadConvention env c ver = .ok conv) :
    ∃ f ∈ env.files,
      (∀ k e, (k, e) ∈ conv → ':' ∉ k ∧ '.' ∉ k ∧ ∃ k0, (k0, e) ∈ f.content ∧ k = Spec.sofarName k0) ∧
      (∀ k0 ∈ f.content.map Prod.fst, Spec.sofarName k0 ∈ conv.map Prod.fst) ∧
      ((f.content.map (fun p => Spec.sofarName p.1)).Nodup →
        conv = f.content.map (fun p => (Spec.sofarName p.1, p.2))) := by
  unfold loadConvention at h
  cases hs : selectFile env c ver with
  | error x => simp [hs] at h
  | ok f =>
    simp only [hs, Except.ok.injEq] at h
    subst h
    refine ⟨f, ?_, ?_, fun k0 hk0 => convertKeys_mem _ _ hk0, convertKeys_injective _⟩
    · exact selectFile_mem hs
    · intro k e hke
      obtain ⟨k0, hk0, rfl⟩ := convertKeys_get (Dict.get?_of_mem (convertKeys_nodup _) hke)
      exact ⟨(sofarName_clean k0).1, (sofarName_clean k0).2, k0, hk0, rfl⟩

example : loadConvention exEnv (py% "FIR") (.exact (py% "0.9")) = .ok (convertKeys (exConvention (py% "0.9"))) ∧
    ((exConvention (py% "0.9")).map (fun p => Spec.sofarName p.1)).Nodup ∧
    py% "Data.IR" ∈ (exConvention (py% "0.9")).map Prod.fst ∧
    py% "Data_IR" ∈ (convertKeys (exConvention (py% "0.9"))).map Prod.fst := by decide +kernel

/-- C17: the data after `add_missing`. -/
theorem C17_add_missing (env : Env) (o : Obj) (m opt verbose : Bool) (hw : Spec.WF o)
    (h : (addMissing env o m opt verbose).out = .ok ())
    (hk : py% "protected" ∉ (addMissing env o m opt verbose).obj.conv.map Prod.fst) :
    let o' := (addMissing env o m opt verbose).obj
    (∀ k v, Dict.get? o.attrs k = some v → Dict.get? o'.attrs k = some v) ∧
    (∀ k, Spec.IsData o' k ↔ Spec.IsData o k ∨
      ∃ e, (k, e) ∈ o'.conv ∧ ((Spec.IsMandatory e ∧ m = true) ∨ (¬ Spec.IsMandatory e ∧ opt = true))) ∧
    (∀ k e v, ¬ Spec.IsData o k → (k, e) ∈ o'.conv → Dict.get? o'.attrs k = some v →
      (∀ a, e.default = .list a → a.WF) → Spec.elems v = Spec.inpElems e.default) := by
  obtain ⟨o1, l, hr, hconv, hl, hln, hnew, ho⟩ := addMissing_ok hw.custom h hk
  simp only
  rw [ho]
  simp only
  refine ⟨fun k v hv => Dict.get?_append_left hv, ?_, ?_⟩
  · intro k
    unfold Spec.IsData
    rw [List.map_append, List.mem_append, hl.names]
    constructor
    · rintro (h1 | h1)
      · exact Or.inl h1
      · right
        obtain ⟨⟨k, e⟩, hp, rfl⟩ := List.mem_map.1 h1
        obtain ⟨h2, h3⟩ := List.mem_filter.1 hp
        refine ⟨e, h2, ?_⟩
        rw [← mandatory_iff]
        simp only [Bool.and_eq_true, Bool.or_eq_true, Bool.not_eq_true'] at h3
        simpa using h3.2
    · rintro (h1 | ⟨e, h2, h3⟩)
      · exact Or.inl h1
      · by_cases hko : k ∈ o.attrs.map Prod.fst
        · exact Or.inl hko
        · right
          refine List.mem_map.2 ⟨(k, e), List.mem_filter.2 ⟨h2, ?_⟩, rfl⟩
          rw [← mandatory_iff] at h3
          have : o.keys.contains k = false := by
            rw [← Bool.not_eq_true, List.contains_iff_mem]
            exact hko
          simp only [this, Bool.not_false, Bool.true_and, Bool.or_eq_true, Bool.and_eq_true, Bool.not_eq_true']
          simpa using h3
  · intro k e v hko hke hv hwf
    have hkl : (k, v) ∈ l := by
      rcases List.mem_append.1 (Dict.mem_of_get? hv) with h1 | h1
      · exact absurd (List.mem_map.2 ⟨_, h1, rfl⟩) hko
      · exact h1
    obtain ⟨_, e', he', hv'⟩ := hl.values k v hkl
    have : e' = e := by
      have h1 := Dict.get?_of_mem hconv he'
      rw [Dict.get?_of_mem hconv hke] at h1
      exact (Option.some.inj h1).symm
    subst this
    exact normalise_elems hwf hv'

/-- C17: a second call succeeds and changes nothing. -/
theorem C17_again (env : Env) (o : Obj) (m opt verbose verbose' : Bool) (hw : Spec.WF o)
    (h : (addMissing env o m opt verbose).out = .ok ())
    (hk : py% "protected" ∉ (addMissing env o m opt verbose).obj.conv.map Prod.fst) :
    let o' := (addMissing env o m opt verbose).obj
    (addMissing env o' m opt verbose').out = .ok () ∧ (addMissing env o' m opt verbose').obj = o' := by
  obtain ⟨o1, l, hr, hconv, hl, hln, hnew, ho⟩ := addMissing_ok hw.custom h hk
  simp only
  rw [ho]
  have h2 : resetConvention env { o1 with attrs := o.attrs ++ l, prot := true } =
      .ok { o1 with attrs := o.attrs ++ l, prot := true } := by
    apply resetConvention_grow hr
    · intro k v hv
      rw [resetConvention_attrs hr] at hv
      exact Dict.get?_append_left hv
    · rfl
    · rfl
  have h3 := addMissingLoop_noop (m := m) (opt := opt) (keys := Dict.keys (o.attrs ++ l)) (conv := o1.conv)
    (o := { o1 with attrs := o.attrs ++ l, prot := false }) (by
      intro p hp
      cases hf : (! (Dict.keys (o.attrs ++ l)).contains p.1 &&
        ((mandatory p.2.flags && m) || (! mandatory p.2.flags && opt))) with
      | false => rfl
      | true =>
        exfalso
        simp only [Bool.and_eq_true, Bool.not_eq_true', ← Bool.not_eq_true, List.contains_iff_mem] at hf
        obtain ⟨h4, h5⟩ := hf
        simp only [Dict.keys, List.map_append, List.mem_append, not_or] at h4
        apply h4.2
        rw [hl.names]
        refine List.mem_map.2 ⟨p, List.mem_filter.2 ⟨hp, ?_⟩, rfl⟩
        have : o.keys.contains p.1 = false := by
          rw [← Bool.not_eq_true, List.contains_iff_mem]
          exact h4.1
        rw [this]
        simpa using h5)
  unfold addMissing
  simp only [h2, Obj.keys]
  simp only [h3, and_self]

/-- object from which mandatory and optional data was removed -/
def exRemoved : Obj :=
  { exSofa with attrs := Dict.del (Dict.del exSofa.attrs (py% "SourcePosition")) (py% "Names") }

example : (addMissing exEnv exRemoved true false true).out = .ok () ∧
    py% "protected" ∉ (addMissing exEnv exRemoved true false true).obj.conv.map Prod.fst ∧
    Dict.has (addMissing exEnv exRemoved true false true).obj.attrs (py% "Names") = false ∧
    Dict.get? (addMissing exEnv exRemoved true false true).obj.attrs (py% "SourcePosition") =
      some (.arr (exNums .i [1, 3] [0, 0, 1])) := by decide +kernel

example : Spec.WF exRemoved :=
  ⟨by decide +kernel, by decide +kernel, by
    intro c hc
    have : exRemoved.custom = none := by decide +kernel
    rw [this] at hc
    cases hc⟩

/-! ## C18 -/

theorem newDefault {env : Env} {c : Str} {m : Bool} {ver : VersionArg} {a : VerifyArg} {o : Obj} {conv : Dict Entry}
    {k : Str} {e : Entry} {arr : Arr} {w : Val}
    (h : (initSofa env c m ver a).out = .ok o) (hl : loadConvention env c ver = .ok conv)
    (hk : py% "protected" ∉ conv.map Prod.fst) (hke : (k, e) ∈ conv) (hs : k ∉ Spec.stampNames)
    (hd : e.default = .list arr) (hw : Dict.get? o.attrs k = some w) :
    w = .arr (arr.withShape (Arr.atleastNdShape (firstAlt (e.dims.getD [])).length arr.shape)) := by
  obtain ⟨l, hdl, hn, ho⟩ := initSofa_data h hl hk
  rw [ho, get?_foldl_stamps _ _ _ (by rw [stamps_names]; exact hs)] at hw
  obtain ⟨_, e', he', _, d, h1, h2⟩ := hdl.values k w (Dict.mem_of_get? hw)
  have : e' = e := by
    have h1 := Dict.get?_of_mem (loadConvention_nodup hl) he'
    rw [Dict.get?_of_mem (loadConvention_nodup hl) hke] at h1
    exact (Option.some.inj h1).symm
  subst this
  rw [initDefault_shape hd h1] at h2
  simp only [normalise, Except.ok.injEq] at h2
  exact h2.symm

/-- C18 for entries with two or more dimensions: the default value `w` in a new object and the value `v` that
`add_missing` adds to an object without this entry have the same elements and the same size in every axis
(whether or not the entry is a string). Missing: entries with a single dimension, see `C18_refuted`. -/
theorem C18_add_missing_partial (env : Env) (c : Str) (m : Bool) (ver : VersionArg) (a : VerifyArg) (o : Obj)
    (conv : Dict Entry) (h : (initSofa env c m ver a).out = .ok o) (hl : loadConvention env c ver = .ok conv)
    (hk : py% "protected" ∉ conv.map Prod.fst)
    (o2 : Obj) (m2 opt verbose : Bool) (hw2 : Spec.WF o2) (h2 : (addMissing env o2 m2 opt verbose).out = .ok ())
    (hk2 : py% "protected" ∉ (addMissing env o2 m2 opt verbose).obj.conv.map Prod.fst)
    (k : Str) (e : Entry) (arr : Arr) (alt : Str) (hke : (k, e) ∈ conv)
    (hke2 : (k, e) ∈ (addMissing env o2 m2 opt verbose).obj.conv) (hs : k ∉ Spec.stampNames)
    (hnew : ¬ Spec.IsData o2 k) (hd : e.default = .list arr) (hwf : arr.WF)
    (halt : Spec.IsFirstAlternative (e.dims.getD []) alt) (hlen : 2 ≤ alt.length)
    (v w : Val) (hw : Dict.get? o.attrs k = some w)
    (hv : Dict.get? (addMissing env o2 m2 opt verbose).obj.attrs k = some v) :
    Spec.elems v = Spec.elems w ∧
    ∀ isString i, Spec.axisSize isString alt.length v.shape i = Spec.axisSize isString alt.length w.shape i := by
  have hnd := newDefault h hl hk hke hs hd hw
  obtain ⟨o1, l, hr, hconv, hla, hln, _, ho⟩ := addMissing_ok hw2.custom h2 hk2
  rw [ho] at hv hke2
  simp only at hv hke2
  have hkl : (k, v) ∈ l := by
    rcases List.mem_append.1 (Dict.mem_of_get? hv) with h1 | h1
    · exact absurd (List.mem_map.2 ⟨_, h1, rfl⟩) hnew
    · exact h1
  obtain ⟨_, e', he', hv'⟩ := hla.values k v hkl
  have : e' = e := by
    have h1 := Dict.get?_of_mem hconv he'
    rw [Dict.get?_of_mem hconv hke2] at h1
    exact (Option.some.inj h1).symm
  subst this
  rw [hd] at hv'
  rw [← firstAlt_of_isFirst halt] at hlen ⊢
  subst hnd
  refine ⟨?_, fun b i => (axes_same hlen arr hwf hv' b i).symm⟩
  rw [normalise_elems (fun a ha => by cases ha; exact hwf) hv']
  rfl

/-- C18 for `verify`, which adds missing mandatory data. -/
theorem C18_verify_partial (env : Env) (c : Str) (m : Bool) (ver : VersionArg) (a : VerifyArg) (o : Obj)
    (conv : Dict Entry) (h : (initSofa env c m ver a).out = .ok o) (hl : loadConvention env c ver = .ok conv)
    (hk : py% "protected" ∉ conv.map Prod.fst)
    (o2 : Obj) (ih : IH) (mode : Mode) (hw2 : Spec.WF o2)
    (k : Str) (e : Entry) (arr : Arr) (alt : Str) (hke : (k, e) ∈ conv)
    (hke2 : (k, e) ∈ (verify env o2 ih mode).obj.conv) (hs : k ∉ Spec.stampNames)
    (hnew : ¬ Spec.IsData o2 k) (hd : e.default = .list arr) (hwf : arr.WF)
    (halt : Spec.IsFirstAlternative (e.dims.getD []) alt) (hlen : 2 ≤ alt.length)
    (v w : Val) (hw : Dict.get? o.attrs k = some w)
    (hv : Dict.get? (verify env o2 ih mode).obj.attrs k = some v) :
    Spec.elems v = Spec.elems w ∧
    ∀ isString i, Spec.axisSize isString alt.length v.shape i = Spec.axisSize isString alt.length w.shape i := by
  have hnd := newDefault h hl hk hke hs hd hw
  have hf := verifyG_frame referenceNames env o2 ih mode
  change VerifyFrame env o2 ih (verify env o2 ih mode).obj at hf
  have hno : Dict.get? o2.attrs k = none := (Dict.get?_eq_none_iff _ _).2 hnew
  rcases hf.attrs k with h1 | ⟨_, _, o1, e', v', hr, he', _, hv', hg⟩
  · rw [h1, hno] at hv
    cases hv
  · rw [hv] at hg
    cases hg
    have hconv := resetConvention_nodup hw2.custom hr
    have hc : (verify env o2 ih mode).obj.conv = o1.conv := by
      rcases hf.conv with h3 | ⟨o1', hr', h3, _⟩
      · rw [h3, hno] at hv; cases hv
      · rw [hr] at hr'; cases hr'; exact h3
    rw [hc] at hke2
    have : e' = e := by
      have h1 := Dict.get?_of_mem hconv he'
      rw [Dict.get?_of_mem hconv hke2] at h1
      exact (Option.some.inj h1).symm
    subst this
    rw [hd] at hv'
    rw [← firstAlt_of_isFirst halt] at hlen ⊢
    subst hnd
    refine ⟨?_, fun b i => (axes_same hlen arr hwf hv' b i).symm⟩
    rw [normalise_elems (fun a ha => by cases ha; exact hwf) hv']
    rfl

example : ¬ Spec.IsData exRemoved (py% "Names") ∧
    Dict.get? exSofa.attrs (py% "Names") = some (.arr ⟨.U, [2, 1], [.str (py% "left"), .str (py% "right")]⟩) ∧
    Dict.get? (addMissing exEnv exRemoved false true false).obj.attrs (py% "Names") =
      some (.arr ⟨.U, [2, 1], [.str (py% "left"), .str (py% "right")]⟩) := by
  unfold Spec.IsData
  decide +kernel

/-- an environment with a vector that defines the dimension `N` -/
def exEnvVector : Env :=
  { exEnv with files := [⟨py% "FIR_1.0.json", exConvention (py% "1.0") ++
      [(py% "N", ⟨some (py% "m"), some (py% "k"), py% "double", .list (exNums .i [3] [1, 2, 3]), []⟩)]⟩] }

/-- new object with a vector -/
def exVector : Obj :=
  match (initSofa exEnvVector (py% "FIR") false .latest .auto).out with
  | .ok o => o
  | .error _ => emptyObj []

/-- C18 is false for entries with a single dimension: the default of a new object defines the dimension with size 3;
if the same entry is missing and added by `add_missing`, the object does not pass the verification any more. -/
theorem C18_refuted : ∃ (env : Env) (c k : Str) (o : Obj), (initSofa env c false .latest .auto).out = .ok o ∧
    (getDimension env o (py% "K")).out = .ok 3 ∧
    let o2 := (addMissing env { o with attrs := Dict.del o.attrs k } true true false).obj
    Dict.has o2.attrs k = true ∧ ∀ n, (getDimension env o2 (py% "K")).out ≠ .ok n := by
  refine ⟨exEnvVector, py% "FIR", py% "N", exVector, by decide +kernel, by decide +kernel, by decide +kernel, ?_⟩
  intro n
  have : ∃ x, (getDimension exEnvVector (addMissing exEnvVector { exVector with attrs := Dict.del exVector.attrs (py% "N") } true true false).obj (py% "K")).out = .error x :=
    ⟨.valueError (py% "Dimensions can not be shown because variables of wrong type or shape were detected."), by decide +kernel⟩
  obtain ⟨x, hx⟩ := this
  rw [hx]
  simp

end Sofar
