import Verif.Lemmas.Paths
import Verif.Lemmas.History
import Verif.Props.Init
import Verif.Props.Rules
import Verif.Props.Custom
/-!
# C01, C08, C10: histories of calls
-/
namespace Sofar

/-! ## C01 -/

/-- C01: read only, mandatory data keeps its value in every history of calls that does not switch off the
protection. Missing for the full claim: calls that add data with values that numpy can not convert
(`C01_refuted`), and convention files with entries named like methods or with such default values. -/
theorem C01_read_only_partial (env : Env) (o : Obj) (k : Str)
    (hp : o.prot = true)
    (hdata : ∀ j ∈ [k, py% "GLOBAL_SOFAConventions", py% "GLOBAL_SOFAConventionsVersion"],
      Spec.IsData o j ∧ o.readOnly.has j = true ∧ Spec.MandatoryIn o.conv j)
    (hcust : ∀ c, o.custom = some c → Spec.RegularConvention c ∧ (c.map Prod.fst).Nodup)
    (hfiles : ∀ cv c v conv, Dict.get? o.attrs (py% "GLOBAL_SOFAConventions") = some cv → Spec.text cv = some c →
      Dict.get? o.attrs (py% "GLOBAL_SOFAConventionsVersion") = some v →
      loadConvention env c (.exact (pyStr env v)) = .ok conv →
      Spec.RegularConvention conv ∧
      ∀ j ∈ [k, py% "GLOBAL_SOFAConventions", py% "GLOBAL_SOFAConventionsVersion"], Spec.MandatoryIn conv j)
    (ops : List Op) (hops : ∀ op ∈ ops, Spec.RegularOp op) :
    (∃ v, Dict.get? o.attrs k = some v ∧ Dict.get? (run env o ops).attrs k = some v) ∧
    (run env o ops).prot = true := by
  have hkept : Kept [k, py% "GLOBAL_SOFAConventions", py% "GLOBAL_SOFAConventionsVersion"] o o := by
    refine ⟨hp, ?_, fun j hj => (hdata j hj).2.1, fun j hj => (hdata j hj).2.2, hcust⟩
    intro j hj
    obtain ⟨v, hv⟩ := get_of_mem_keys (hdata j hj).1
    exact ⟨v, hv, hv⟩
  have hf : FilesOk env [k, py% "GLOBAL_SOFAConventions", py% "GLOBAL_SOFAConventionsVersion"] o := by
    intro cv c v conv h1 h2 h3 h4
    refine hfiles cv c v conv h1 ?_ h3 h4
    cases cv <;> exact h2
  have h := hkept.run hf (by simp) (by simp) ops hops
  exact ⟨h.vals k (by simp), h.prot⟩

/-- C01 for new objects: `k` is flagged read only and mandatory by the convention file, and convention and version
that are named in the file refer to the file itself. -/
theorem C01_new_object_partial (env : Env) (c : Str) (m : Bool) (ver : VersionArg) (a : VerifyArg) (o : Obj)
    (conv : Dict Entry) (h : (initSofa env c m ver a).out = .ok o) (hl : loadConvention env c ver = .ok conv)
    (hreg : Spec.RegularConvention conv) (k : Str)
    (hflags : ∀ j ∈ [k, py% "GLOBAL_SOFAConventions", py% "GLOBAL_SOFAConventionsVersion"],
      Spec.ReadOnlyIn conv j ∧ Spec.MandatoryIn conv j)
    (hself : ∃ c' v' e e', Dict.get? conv (py% "GLOBAL_SOFAConventions") = some e ∧ e.default = .val (.str c') ∧
      Dict.get? conv (py% "GLOBAL_SOFAConventionsVersion") = some e' ∧ e'.default = .val (.str v') ∧
      loadConvention env c' (.exact v') = .ok conv)
    (ops : List Op) (hops : ∀ op ∈ ops, Spec.RegularOp op) :
    (∃ v, Dict.get? o.attrs k = some v ∧ Dict.get? (run env o ops).attrs k = some v) ∧
    (run env o ops).prot = true := by
  have hk : py% "protected" ∉ conv.map Prod.fst := by
    intro hm
    obtain ⟨⟨j, e⟩, h1, rfl⟩ := List.mem_map.1 hm
    exact (hreg _ e h1).1.1 (by decide)
  obtain ⟨l, hd, hn, ho⟩ := initSofa_data h hl hk
  -- data
  have hdef : ∀ j e s, Dict.get? conv j = some e → Spec.IsMandatory e → e.default = .val (.str s) →
      j ∉ Spec.stampNames → Dict.get? o.attrs j = some (.str s) := by
    intro j e s hj hm hs hst
    rw [ho, get?_foldl_stamps _ _ _ (by rw [stamps_names]; exact hst)]
    have hjl : j ∈ l.map Prod.fst := by
      rw [hd.names]
      refine List.mem_map.2 ⟨(j, e), List.mem_filter.2 ⟨Dict.mem_of_get? hj, ?_⟩, rfl⟩
      simp [(mandatory_iff e).2 hm]
    obtain ⟨⟨j', w⟩, hw, rfl⟩ := List.mem_map.1 hjl
    obtain ⟨_, e1, he1, hdo, _⟩ := hd.values j' w hw
    have := Dict.get?_of_mem (loadConvention_nodup hl) he1
    rw [hj] at this
    cases this
    simp only [Spec.DefaultOf, hs] at hdo
    rw [← hdo]
    exact Dict.get?_of_mem hn hw
  obtain ⟨c', v', e, e', he, hec, he', hev, hload⟩ := hself
  have mand : ∀ j ∈ [k, py% "GLOBAL_SOFAConventions", py% "GLOBAL_SOFAConventionsVersion"],
      Spec.MandatoryIn conv j := fun j hj => (hflags j hj).2
  have hC : Dict.get? o.attrs (py% "GLOBAL_SOFAConventions") = some (.str c') := by
    obtain ⟨x, hx, hm⟩ := mand (py% "GLOBAL_SOFAConventions") (by simp)
    rw [he] at hx; cases hx
    exact hdef _ _ _ he hm hec (by decide)
  have hV : Dict.get? o.attrs (py% "GLOBAL_SOFAConventionsVersion") = some (.str v') := by
    obtain ⟨x, hx, hm⟩ := mand (py% "GLOBAL_SOFAConventionsVersion") (by simp)
    rw [he'] at hx; cases hx
    exact hdef _ _ _ he' hm hev (by decide)
  -- private attributes
  obtain ⟨conv', o0, h1, h2, h3, h4, h5⟩ := initSofa_ok h
  rw [hl] at h1
  cases h1
  have h6 : o0.readOnly = (emptyObj conv).readOnly ∧ o0.conv = conv ∧ o0.custom = none := by
    unfold conventionToSofa at h2
    cases hdd : addDefaults m (emptyObj conv).conv (emptyObj conv) with
    | error x => simp [hdd] at h2
    | ok o1 =>
      simp only [hdd, Except.ok.injEq] at h2
      obtain ⟨l', _, hl2⟩ := addDefaults_ok rfl hk hdd
      subst h2
      rw [hl2]
      exact ⟨rfl, rfl, rfl⟩
  have h7 : o.conv = conv ∧ o.custom = none := initSofa_conv h hl h2 h6.2.1 h6.2.2 (by rw [← h3]; exact hC)
    (by rw [← h3]; exact hV) hload
  apply C01_read_only_partial env o k h4
  · intro j hj
    refine ⟨?_, ?_, by rw [h7.1]; exact mand j hj⟩
    · unfold Spec.IsData
      rw [ho]
      change j ∈ Dict.keys _
      rw [mem_keys_foldl_stamps]
      left
      change j ∈ l.map Prod.fst
      rw [hd.names]
      obtain ⟨x, hx, hm⟩ := mand j hj
      refine List.mem_map.2 ⟨(j, x), List.mem_filter.2 ⟨Dict.mem_of_get? hx, ?_⟩, rfl⟩
      simp [(mandatory_iff x).2 hm]
    · rw [h5, h6.1]
      obtain ⟨⟨x, f, hx, hf, hr⟩, _⟩ := hflags j hj
      have hmem : j ∈ (conv.filter (fun p => readOnlyFlag p.2.flags)).map Prod.fst :=
        List.mem_map.2 ⟨(j, x), List.mem_filter.2 ⟨Dict.mem_of_get? hx, by simp [readOnlyFlag, hf, hr]⟩, rfl⟩
      simp only [emptyObj]
      exact readOnly_has_of_mem hmem
  · intro cu hcu; rw [h7.2] at hcu; cases hcu
  · intro cv s v cnv g1 g2 g3 g4
    rw [hC] at g1
    cases g1
    rw [hV] at g3
    cases g3
    simp only [Spec.text, Option.some.injEq] at g2
    subst g2
    change loadConvention env c' (.exact v') = _ at g4
    rw [hload] at g4
    cases g4
    exact ⟨hreg, mand⟩
  · exact hops

/-- the example file is described by its own name and version, and its convention attribute is flagged `rm` -/
example : (initSofa exEnv (py% "FIR") false .latest .auto).out = .ok exSofa ∧
    loadConvention exEnv (py% "FIR") .latest = .ok (convertKeys (exConvention (py% "1.0"))) ∧
    loadConvention exEnv (py% "FIR") (.exact (py% "1.0")) = .ok (convertKeys (exConvention (py% "1.0"))) ∧
    (∀ j ∈ [py% "GLOBAL_Conventions", py% "GLOBAL_SOFAConventions", py% "GLOBAL_SOFAConventionsVersion"],
      (Dict.get? (convertKeys (exConvention (py% "1.0"))) j).map Entry.flags = some (some (py% "rm"))) ∧
    (run exEnv exSofa [.set (py% "GLOBAL_Conventions") (.val (.str (py% "x"))), .delete (py% "GLOBAL_Conventions"),
      .addMissing true true false, .verify .ignore .read, .set (py% "Data_IR") (.val (.str (py% "x")))]).keys =
      exSofa.keys := by
  decide +kernel

/-- C01 is false in general: `add_variable` with a nested list of unequal lengths raises, but leaves the object
unprotected, so that read only data can be changed. -/
theorem C01_refuted : ∃ (env : Env) (o : Obj) (k : Str) (ops : List Op), o.prot = true ∧
    o.readOnly.has k = true ∧ Spec.MandatoryIn o.conv k ∧ (∀ v, Op.set (py% "protected") v ∉ ops) ∧
    Dict.get? (run env o ops).attrs k ≠ Dict.get? o.attrs k := by
  refine ⟨exEnv, exSofa, py% "GLOBAL_Conventions",
    [.addVariable (py% "Foo") .ragged (py% "double") (some (py% "MR")),
     .set (py% "GLOBAL_Conventions") (.val (.str (py% "x")))], by decide +kernel, by decide +kernel,
    ⟨exAttr (py% "rm") (py% "SOFA"), by decide +kernel, py% "rm", rfl, by decide⟩, by intro v; simp, by decide +kernel⟩

/-! ## C07 -/

/-- loading the convention again keeps the custom entries -/
theorem reset_keeps {env : Env} {o o' : Obj} {n : Str} {e : Entry} {c : Dict Entry}
    (hcust : o.custom = some c) (hn : (Dict.keys c).Nodup) (he : Dict.get? c n = some e)
    (hno : ∀ f ∈ env.files, ∀ p ∈ f.content, Spec.sofarName p.1 ≠ n) (h : resetConvention env o = .ok o') :
    Dict.get? o'.conv n = some e ∧ ∃ c', o'.custom = some c' ∧ Dict.get? c' n = some e ∧ (Dict.keys c').Nodup := by
  obtain ⟨_, s, v, conv, _, _, _, _, hl, rfl⟩ := resetConvention_inv h
  rw [hcust]
  have hnc : Dict.get? conv n = none := by
    unfold loadConvention at hl
    cases hs : selectFile env s (.exact (pyStr env v)) with
    | error _ => simp [hs] at hl
    | ok f =>
      simp only [hs, Except.ok.injEq] at hl
      rw [← hl, Dict.get?_eq_none_iff]
      exact not_mem_convertKeys (hno f (selectFile_mem hs))
  have hm := get?_mergeCustom conv c n hn
  simp only [hnc] at hm
  exact ⟨by simp [hm.1, he], _, rfl, by simp [hm.2, he], Dict.nodup_filter _ hn⟩

/-- `n` is registered as custom data with entry `e` and has the value `v` -/
structure Registered (n : Str) (e : Entry) (v : Val) (o : Obj) : Prop where
  value : Dict.get? o.attrs n = some v
  conv : Dict.get? o.conv n = some e
  custom : ∃ c, o.custom = some c ∧ Dict.get? c n = some e ∧ (Dict.keys c).Nodup

theorem Registered.reset {env : Env} {n : Str} {e : Entry} {v : Val} {o o1 : Obj} (h : Registered n e v o)
    (hno : ∀ f ∈ env.files, ∀ p ∈ f.content, Spec.sofarName p.1 ≠ n) (hr : resetConvention env o = .ok o1) :
    Registered n e v o1 := by
  obtain ⟨c, h1, h2, h3⟩ := h.custom
  obtain ⟨h4, h5⟩ := reset_keeps h1 h3 h2 hno hr
  exact ⟨by rw [resetConvention_attrs hr]; exact h.value, h4, h5⟩

theorem Registered.verify {env : Env} {n : Str} {e : Entry} {v : Val} {o : Obj} (h : Registered n e v o)
    (hno : ∀ f ∈ env.files, ∀ p ∈ f.content, Spec.sofarName p.1 ≠ n) (ih : IH) (mode : Mode) :
    Registered n e v (Sofar.verify env o ih mode).obj := by
  have hf := verifyG_frame referenceNames env o ih mode
  have hv : Dict.get? (Sofar.verify env o ih mode).obj.attrs n = some v := by
    rcases hf.attrs n with hj | ⟨_, hj, _⟩
    · exact hj.trans h.value
    · exact absurd (mem_keys_of_get h.value) hj
  rcases hf.conv with he | ⟨o1, hr, h1, h2⟩
  · exact ⟨hv, (congrArg (Dict.get? ·.conv n) he).trans h.conv, by
      have : (Sofar.verify env o ih mode).obj.custom = o.custom := congrArg Obj.custom he
      rw [this]; exact h.custom⟩
  · have hq := h.reset hno hr
    exact ⟨hv, (congrArg (Dict.get? · n) h1).trans hq.conv, by
      have : (Sofar.verify env o ih mode).obj.custom = o1.custom := h2
      rw [this]; exact hq.custom⟩

theorem Registered.addMissing {env : Env} {n : Str} {e : Entry} {v : Val} {o : Obj} (h : Registered n e v o)
    (hno : ∀ f ∈ env.files, ∀ p ∈ f.content, Spec.sofarName p.1 ≠ n) (m opt vb : Bool) :
    Registered n e v (Sofar.addMissing env o m opt vb).obj := by
  have hv := addMissing_keeps env o m opt vb h.value
  refine ⟨hv, ?_, ?_⟩ <;> unfold Sofar.addMissing
  · cases hr : resetConvention env o with
    | error x => exact h.conv
    | ok o1 =>
      have hq := (h.reset hno hr).conv
      simp only
      split <;> simp only [addMissingLoop_conv] <;> exact hq
  · cases hr : resetConvention env o with
    | error x => exact h.custom
    | ok o1 =>
      have hq := (h.reset hno hr).custom
      simp only
      split <;> simp only [addMissingLoop_custom] <;> exact hq

theorem Registered.addEntry {n : Str} {e : Entry} {v : Val} {o : Obj} (h : Registered n e v o) (k : Str) (x : Inp)
    (t : Str) (d : Option Str) : Registered n e v (Sofar.addEntry o k x t d).obj := by
  unfold Sofar.addEntry
  cases hc : checkEntry o k t d with
  | some y => exact h
  | none =>
    have hkn : k ≠ n := by
      rintro rfl
      have := checkEntry_new hc
      simp [Obj.hasAttr, Dict.has, h.value] at this
    simp only [addCustomApiEntry]
    obtain ⟨c, h1, h2, h3⟩ := h.custom
    have hq : ∀ y, Registered n e v (registerCustom { o with prot := false } k y) := by
      intro y
      unfold registerCustom
      split
      · exact ⟨h.value, h.conv, h.custom⟩
      · refine ⟨h.value, ?_, _, rfl, ?_, ?_⟩
        · exact (Dict.get?_put_ne _ _ hkn.symm).trans h.conv
        · simp only [h1, Option.getD_some]
          exact (Dict.get?_put_ne _ _ hkn.symm).trans h2
        · simp only [h1, Option.getD_some]
          exact Dict.nodup_put _ _ h3
    have hset := hq (customEntry none ((d.map Str.upper).map customDims) t)
    generalize registerCustom { o with prot := false } k (customEntry none ((d.map Str.upper).map customDims) t) = o1 at hset
    have hs : Registered n e v (setAttr o1 k x).obj := by
      rcases setAttr_cases o1 k x with ⟨_, _, hs, _⟩ | ⟨_, _, _, _, hs⟩ | ⟨w, _, _, _, _, hs, _⟩
      · rw [hs]; exact hset
      · rw [hs]; exact ⟨hset.value, hset.conv, hset.custom⟩
      · rw [hs]; exact ⟨(Dict.get?_put_ne _ _ hkn.symm).trans hset.value, hset.conv, hset.custom⟩
    split
    · exact hs
    · exact ⟨hs.value, hs.conv, hs.custom⟩

theorem Registered.step {env : Env} {n : Str} {e : Entry} {v : Val} {o : Obj} (h : Registered n e v o)
    (hno : ∀ f ∈ env.files, ∀ p ∈ f.content, Spec.sofarName p.1 ≠ n) {op : Op} (h1 : ∀ x, op ≠ .set n x)
    (h2 : op ≠ .delete n) : Registered n e v (Sofar.step env o op) := by
  cases op with
  | set k x =>
    have hkn : k ≠ n := by rintro rfl; exact h1 x rfl
    rcases setAttr_cases o k x with ⟨_, _, hs, _⟩ | ⟨_, _, _, _, hs⟩ | ⟨w, _, _, _, _, hs, _⟩ <;>
      simp only [Sofar.step, hs]
    · exact h
    · exact ⟨h.value, h.conv, h.custom⟩
    · exact ⟨(Dict.get?_put_ne _ _ hkn.symm).trans h.value, h.conv, h.custom⟩
  | delete k =>
    have hkn : k ≠ n := by rintro rfl; exact h2 rfl
    rcases delAttr_cases o k with ⟨_, _, hs⟩ | ⟨_, _, hs⟩ <;> simp only [Sofar.step, hs]
    · exact h
    · obtain ⟨c, h3, h4, h5⟩ := h.custom
      refine ⟨(Dict.get?_del_ne _ hkn.symm).trans h.value, h.conv, Dict.del c k, by simp [h3],
        (Dict.get?_del_ne _ hkn.symm).trans h4, Dict.nodup_filter _ h5⟩
  | addVariable k x t d => exact h.addEntry ..
  | addAttribute k x => exact h.addEntry ..
  | addMissing m opt vb => exact h.addMissing hno m opt vb
  | verify ih mode => exact h.verify hno ih mode
  | getDimension d => simp only [Sofar.step, getDimension_obj]; exact h.verify hno _ _

/-- C07: custom data keeps its value and stays registered, in the convention and in the custom part of the object, in
every history of calls that does not assign or delete it. -/
theorem C07_survives (env : Env) (o : Obj) (n : Str) (e : Entry) (v : Val) (c : Dict Entry)
    (hv : Dict.get? o.attrs n = some v) (hwf : Spec.WF o) (hcust : o.custom = some c) (he : Dict.get? c n = some e)
    (hconv : Dict.get? o.conv n = some e) (hno : ∀ f ∈ env.files, ∀ p ∈ f.content, Spec.sofarName p.1 ≠ n)
    (ops : List Op) (hops : ∀ op ∈ ops, (∀ x, op ≠ .set n x) ∧ op ≠ .delete n) :
    Dict.get? (run env o ops).attrs n = some v ∧ Dict.get? (run env o ops).conv n = some e ∧
    ∃ c', (run env o ops).custom = some c' ∧ Dict.get? c' n = some e := by
  suffices H : Registered n e v (run env o ops) by
    obtain ⟨h1, h2, c', h3, h4, _⟩ := H
    exact ⟨h1, h2, c', h3, h4⟩
  have H0 : Registered n e v o := ⟨hv, hconv, c, hcust, he, hwf.custom c hcust⟩
  clear hv hconv hcust he hwf
  induction ops generalizing o with
  | nil => exact H0
  | cons op ops ih =>
    obtain ⟨h1, h2⟩ := hops op (by simp)
    exact ih _ (fun q hq => hops q (by simp [hq])) (H0.step hno h1 h2)

example : ∃ e v c, Dict.get? exCustom.attrs (py% "Temperature") = some v ∧ exCustom.custom = some c ∧
    Dict.get? c (py% "Temperature") = some e ∧ Dict.get? exCustom.conv (py% "Temperature") = some e ∧
    (∀ f ∈ exEnv.files, ∀ p ∈ f.content, Spec.sofarName p.1 ≠ py% "Temperature") ∧
    (run exEnv exCustom [.delete (py% "Names"), .addMissing true true false, .verify .raise .write]).attrs.map Prod.fst ≠
      exCustom.attrs.map Prod.fst :=
  ⟨customEntry none (some (py% "I")) (py% "double"), .num .f (.num (.fin 20)),
    [(py% "Temperature", customEntry none (some (py% "I")) (py% "double"))],
    by decide +kernel, by decide +kernel, by decide +kernel, by decide +kernel, by decide +kernel, by decide +kernel⟩

/-! ## C08 -/

/-- C08 is false: after adding, deleting and adding custom data again, `verify` fails with KeyError, although all
calls succeeded. -/
theorem C08_refuted : ∃ (env : Env) (o : Obj) (n : Str) (v : Inp) (t : Str) (d : Option Str),
    let r1 := addVariable o n v t d
    let r2 := delAttr r1.obj n
    let r3 := addVariable r2.obj n v t d
    r1.out = .ok () ∧ r2.out = .ok () ∧ r3.out = .ok () ∧ (verify env r1.obj .raise .read).out = .ok none ∧
    (verify env r3.obj .raise .read).out = .error (.keyError n) :=
  ⟨exEnv, exSofa, py% "Foo", .val (.num .f (.num (.fin 1))), py% "double", some (py% "I"),
    by decide +kernel, by decide +kernel, by decide +kernel, by decide +kernel, by decide +kernel⟩

/-- C08, if the convention of the object was reset (by any call of `verify`, `add_missing`, ... in between): after
deleting custom data (which is then not registered any more), a reset and adding the data again, the entry is
registered and found again after any number of further resets. -/
theorem C08_add_again_partial (env : Env) (o o1 o2 : Obj) (n : Str) (v : Inp) (t : Str) (d : Option Str)
    (hwf : Spec.WF o) (hdel : ∀ c, o.custom = some c → Dict.get? c n = none)
    (hno : ∀ f ∈ env.files, ∀ p ∈ f.content, Spec.sofarName p.1 ≠ n)
    (h1 : resetConvention env o = .ok o1) (h2 : (addVariable o1 n v t d).out = .ok ())
    (h3 : resetConvention env (addVariable o1 n v t d).obj = .ok o2) :
    ∃ e, Dict.get? o2.conv n = some e ∧ e.typ = t ∧ e.flags = none ∧
      (∀ s, d = some s → ∃ s', e.dims = some s' ∧ Spec.CustomLetters s s') := by
  have hconvfile : ∀ c ver conv, loadConvention env c ver = .ok conv → Dict.get? conv n = none := by
    intro c ver conv hl
    rw [Dict.get?_eq_none_iff]
    intro hm
    unfold loadConvention at hl
    cases hs : selectFile env c ver with
    | error x => simp [hs] at hl
    | ok f =>
      simp only [hs, Except.ok.injEq] at hl
      subst hl
      exact not_mem_convertKeys (hno f (selectFile_mem hs)) hm
  have hn1 : Dict.get? o1.conv n = none := by
    obtain ⟨_, _, _, conv, _, _, _, _, hl, h6⟩ := resetConvention_inv h1
    have hf := hconvfile _ _ _ hl
    cases hc : o.custom with
    | none => rw [h6, hc]; exact hf
    | some cu =>
      rw [h6, hc]
      simp only
      rw [(get?_mergeCustom conv cu n (hwf.custom cu hc)).1, hf]
      exact hdel cu hc
  obtain ⟨_, _, ⟨e, _, ⟨c, hc1, hc2⟩, ht, hfl, hd1, _⟩, _⟩ := C07_added_data o1 n v t d hn1 h2
  refine ⟨e, ?_, ht, hfl, hd1⟩
  obtain ⟨_, _, _, conv, _, _, _, _, hl, h6⟩ := resetConvention_inv h3
  have hf := hconvfile _ _ _ hl
  have hnod : (c.map Prod.fst).Nodup := by
    have hcu1 : ∀ x, o1.custom = some x → (x.map Prod.fst).Nodup := by
      obtain ⟨_, _, _, conv1, _, _, _, _, hl1, h61⟩ := resetConvention_inv h1
      intro x hx
      cases hco : o.custom with
      | none => rw [h61, hco] at hx; simp at hx
      | some cu =>
        rw [h61, hco] at hx
        simp only [Option.some.injEq] at hx
        subst hx
        exact (nodup_mergeCustom conv1 cu (loadConvention_nodup hl1) (hwf.custom cu hco)).2
    obtain ⟨hck, hpriv, w, hw⟩ := addEntry_ok_inv h2
    unfold addVariable at hc1
    rw [addEntry_ok o1 n v w t d hck hw hpriv] at hc1
    have hh : Dict.has o1.conv n = false := (Dict.has_false_iff _ _).2 hn1
    simp only [registerCustom, hh, Bool.false_eq_true, if_false, Option.some.injEq] at hc1
    subst hc1
    apply Dict.nodup_put
    cases hco : o1.custom with
    | none => simp
    | some x => exact hcu1 x hco
  rw [h6, hc1]
  simp only
  rw [(get?_mergeCustom conv c n hnod).1, hf]
  exact hc2

/-- the deleted custom data -/
def exDeleted : Obj :=
  (delAttr (addVariable exSofa (py% "Foo") (.val (.num .f (.num (.fin 1)))) (py% "double") (some (py% "I"))).obj
    (py% "Foo")).obj

example : (verify exEnv (addVariable (verify exEnv exDeleted .raise .read).obj (py% "Foo")
    (.val (.num .f (.num (.fin 1)))) (py% "double") (some (py% "I"))).obj .raise .read).out = .ok none ∧
    (∀ f ∈ exEnv.files, py% "Foo" ∉ (convertKeys f.content).map Prod.fst) ∧
    (exDeleted.custom.map (fun c => Dict.get? c (py% "Foo"))) = some none := by
  decide +kernel

/-! ## C10 -/

/-- C10: adding data hands back a protected object. -/
theorem C10_add_protects (o : Obj) (n : Str) (v : Inp) (t : Str) (d : Option Str) :
    ((addVariable o n v t d).out = .ok () → (addVariable o n v t d).obj.prot = true) ∧
    ((addAttribute o n v).out = .ok () → (addAttribute o n v).obj.prot = true) := by
  constructor <;> intro h
  · obtain ⟨hc, hp, w, hw⟩ := addEntry_ok_inv h
    unfold addVariable
    rw [addEntry_ok _ _ _ w _ _ hc hw hp]
  · obtain ⟨hc, hp, w, hw⟩ := addEntry_ok_inv h
    unfold addAttribute
    rw [addEntry_ok _ _ _ w _ _ hc hw hp]

example : (addVariable { exSofa with prot := false } (py% "Foo") (.val (.num .f (.num (.fin 1)))) (py% "double")
    (some (py% "I"))).out = .ok () := by decide +kernel

/-- C10: `add_missing` hands back a protected object. -/
theorem C10_add_missing_protects (env : Env) (o : Obj) (m opt vb : Bool)
    (h : (addMissing env o m opt vb).out = .ok ()) : (addMissing env o m opt vb).obj.prot = true := by
  unfold addMissing at h ⊢
  cases hr : resetConvention env o with
  | error x => simp [hr] at h
  | ok o1 =>
    simp only [hr] at h ⊢
    cases hs : (addMissingLoop m opt o1.keys o1.conv { o1 with prot := false }).1 with
    | error x => simp [hs] at h
    | ok s => simp

example : (addMissing exEnv { exSofa with prot := false } true true false).out = .ok () := by decide +kernel

/-- C10: new objects are protected. -/
theorem C10_new_object (env : Env) (c : Str) (m : Bool) (ver : VersionArg) (a : VerifyArg) (o : Obj)
    (h : (initSofa env c m ver a).out = .ok o) : o.prot = true := by
  obtain ⟨_, _, _, _, _, h4, _⟩ := initSofa_ok h
  exact h4

example : (initSofa exEnv (py% "FIR") false .latest .auto).out = .ok exSofa := by decide +kernel

/-- C10: `protected` can be set to nothing but True or False. -/
theorem C10_only_bool (o : Obj) (v : Inp) (h : (setAttr o (py% "protected") v).out = .ok ()) :
    ∃ b, v = .pybool b ∧ (setAttr o (py% "protected") v).obj = { o with prot := b } := by
  rcases setAttr_cases o (py% "protected") v with ⟨e, h1, _⟩ | ⟨b, h1, _, _, h2⟩ | ⟨w, _, h1, _⟩
  · rw [h] at h1; cases h1
  · exact ⟨b, h1, by rw [h2]⟩
  · exact absurd rfl h1

example : (setAttr exSofa (py% "protected") (.pybool false)).out = .ok () ∧
    (setAttr exSofa (py% "protected") (.val (.num .i (.num (.fin 1))))).out =
      .error (.valueError (py% "Sofa.protected can only be True or False")) := by decide +kernel

end Sofar
