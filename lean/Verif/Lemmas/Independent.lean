import Verif.Spec.Independent
import Verif.Props.Misc
import Verif.Lemmas.Upgrade
import Verif.Lemmas.History
import Verif.Lemmas.Warnings
import Verif.Lemmas.IO
import Verif.Lemmas.Read
import Verif.Model.Text
import Verif.Model.History
/-!
# Lemmas for the independence of conventions
-/
namespace Sofar

theorem filesOf_eq (env : Env) (c : Str) :
    env.files.filter (fun f => Str.startsWith f.base (c ++ py% "_")) = Spec.filesOf env c := by
  unfold Spec.filesOf
  refine List.filter_congr fun f _ => ?_
  unfold Str.startsWith
  rw [Bool.eq_iff_iff, List.isPrefixOf_iff_prefix, decide_eq_true_eq]

theorem selectFile_same {c : Str} {env env' : Env} (h : Spec.SameFor c env env') (v : VersionArg) :
    selectFile env' c v = selectFile env c v := by
  unfold selectFile
  simp only [filesOf_eq, h.files]

theorem loadConvention_same {c : Str} {env env' : Env} (h : Spec.SameFor c env env') (v : VersionArg) :
    loadConvention env' c v = loadConvention env c v := by
  unfold loadConvention
  rw [selectFile_same h]

/-- names and versions of files that are named after their convention -/
theorem getConventions_filter {c : Str} (hc : '_' ∉ c) {l : List ConvFile} (hl : ∀ f ∈ l, ∃ n w, Spec.FileOf f.base n w) :
    ∃ nv, l.mapM (fun f => nameVersion f.base) = .ok nv ∧
      (l.filter (fun f => decide ((c ++ ['_']) <+: f.base))).mapM (fun f => nameVersion f.base)
        = .ok (nv.filter (fun p => p.1 = c)) := by
  induction l with
  | nil => exact ⟨[], rfl, rfl⟩
  | cons f l ih =>
    obtain ⟨nv, h1, h2⟩ := ih fun g hg => hl g (List.mem_cons_of_mem _ hg)
    obtain ⟨n, w, hf⟩ := hl f List.mem_cons_self
    have hn := nameVersion_of hf
    have hs : (c ++ ['_']) <+: f.base ↔ c = n := by
      rw [← startsWith_of hf hc]
      unfold Str.startsWith
      rw [List.isPrefixOf_iff_prefix]
    refine ⟨(n, w) :: nv, ?_, ?_⟩
    · rw [List.mapM_cons, hn, h1]; rfl
    · by_cases hcn : c = n
      · rw [List.filter_cons_of_pos (by simpa using hs.2 hcn), List.filter_cons_of_pos (by simpa using hcn.symm),
          List.mapM_cons, hn, h2]
        rfl
      · rw [List.filter_cons_of_neg (by simpa using fun hh => hcn (hs.1 hh)),
          List.filter_cons_of_neg (by simpa using fun hh => hcn hh.symm), h2]

theorem versionExists_filter (v c : Str) (l : List (Str × Str)) :
    versionExists v c (l.filter (fun p => p.1 = c)) = versionExists v c l := by
  induction l with
  | nil => rfl
  | cons p l ih =>
    obtain ⟨n, w⟩ := p
    by_cases h : n = c
    · rw [List.filter_cons_of_pos (by simpa using h)]
      simp only [versionExists, if_pos h, ih]
    · rw [List.filter_cons_of_neg (by simpa using h)]
      simp only [versionExists, if_neg h, ih]

theorem contains_filter (c : Str) (l : List (Str × Str)) :
    ((l.filter (fun p => p.1 = c)).map Prod.fst).contains c = (l.map Prod.fst).contains c := by
  rw [Bool.eq_iff_iff]
  simp only [List.contains_iff_mem, List.mem_map, List.mem_filter, decide_eq_true_eq]
  constructor
  · rintro ⟨p, ⟨h1, h2⟩, h3⟩
    exact ⟨p, h1, h3⟩
  · rintro ⟨p, h1, h3⟩
    exact ⟨p, ⟨h1, h3⟩, h3⟩

theorem getConventions_names {l : List ConvFile} (hl : ∀ f ∈ l, ∃ n w, Spec.FileOf f.base n w) :
    ∃ nv, l.mapM (fun f => nameVersion f.base) = .ok nv ∧ ∀ p ∈ nv, '_' ∉ p.1 := by
  induction l with
  | nil => exact ⟨[], rfl, by simp⟩
  | cons f l ih =>
    obtain ⟨nv, h1, h2⟩ := ih fun g hg => hl g (List.mem_cons_of_mem _ hg)
    obtain ⟨n, w, hf⟩ := hl f List.mem_cons_self
    refine ⟨(n, w) :: nv, ?_, ?_⟩
    · rw [List.mapM_cons, nameVersion_of hf, h1]; rfl
    · intro p hp
      rcases List.mem_cons.1 hp with rfl | hp
      · exact hf.2.1
      · exact h2 p hp

theorem verifyConvention_same {c : Str} {env env' : Env} (h : Spec.SameFor c env env') (v : Str) :
    verifyConvention env' v c = verifyConvention env v c := by
  unfold verifyConvention getConventions
  by_cases hc : '_' ∈ c
  · obtain ⟨nv, h1, h2⟩ := getConventions_names h.regular
    obtain ⟨nv', h1', h2'⟩ := getConventions_names h.regular'
    have hn : ∀ l : List (Str × Str), (∀ p ∈ l, '_' ∉ p.1) → ¬ (l.map Prod.fst).contains c = true := by
      intro l hl hm
      rw [List.contains_iff_mem, List.mem_map] at hm
      obtain ⟨p, hp, rfl⟩ := hm
      exact hl p hp hc
    simp only [h1, h1', if_neg (hn nv h2), if_neg (hn nv' h2')]
  · obtain ⟨nv, h1, h2⟩ := getConventions_filter hc h.regular
    obtain ⟨nv', h1', h2'⟩ := getConventions_filter hc h.regular'
    have hf := h.files
    unfold Spec.filesOf at hf
    rw [hf, h2, Except.ok.injEq] at h2'
    simp only [h1, h1']
    rw [← contains_filter c nv', ← versionExists_filter v c nv', ← h2', contains_filter, versionExists_filter]

theorem aboutName {c : Str} {o : Obj} (h : Spec.About c o) {v : Val} {n : Str}
    (hv : o.getAttr (py% "GLOBAL_SOFAConventions") = .ok v) (hn : v.asStr = some n) : n = c := by
  rw [asStr_text] at hn
  exact h n ⟨v, getAttr_data (by decide) (by decide) hv, hn⟩

theorem pyStr_same {c : Str} {env env' : Env} (h : Spec.SameFor c env env') (v : Val) : pyStr env' v = pyStr env v := by
  rw [h.rest]; rfl

theorem resetConvention_same {c : Str} {env env' : Env} (h : Spec.SameFor c env env') {o : Obj} (ho : Spec.About c o) :
    resetConvention env' o = resetConvention env o := by
  unfold resetConvention
  cases hc : o.getAttr (py% "GLOBAL_SOFAConventions") with
  | error e => rfl
  | ok n =>
    cases hv : o.getAttr (py% "GLOBAL_SOFAConventionsVersion") with
    | error e => rfl
    | ok v =>
      cases hn : n.asStr with
      | none => simp only [hn]
      | some n =>
        simp only [hn]
        cases aboutName ho hc hn
        simp only [pyStr_same h, verifyConvention_same h, loadConvention_same h]

/-- objects with the same data are about the same convention -/
theorem About.of_attrs {c : Str} {o o' : Obj} (h : Spec.About c o)
    (ha : Dict.get? o'.attrs (py% "GLOBAL_SOFAConventions") = Dict.get? o.attrs (py% "GLOBAL_SOFAConventions")) :
    Spec.About c o' := by
  intro n hn
  unfold Spec.HasText at hn
  rw [ha] at hn
  exact h n hn

theorem resetConvention_has {env : Env} {o o' : Obj} (h : resetConvention env o = .ok o') :
    py% "GLOBAL_SOFAConventions" ∈ o'.keys := by
  obtain ⟨c, k, rfl, _⟩ := resetConvention_frame h
  unfold resetConvention at h
  cases hc : o.getAttr (py% "GLOBAL_SOFAConventions") with
  | error e => simp [hc] at h
  | ok n =>
    have hg : Dict.get? o.attrs (py% "GLOBAL_SOFAConventions") = some n := getAttr_data (by decide) (by decide) hc
    exact (Dict.has_iff_mem _ _).1 ((Dict.has_iff _ _).2 ⟨n, hg⟩)

theorem verifyG_same {c : Str} {env env' : Env} (h : Spec.SameFor c env env') {inner : Env → Obj → Inner}
    (hi : ∀ o, Spec.About c o → inner env' o = inner env o) {o : Obj} (ho : Spec.About c o) (ih : IH) (mode : Mode) :
    verifyG inner env' o ih mode = verifyG inner env o ih mode := by
  unfold verifyG
  rw [resetConvention_same h ho]
  cases hr : resetConvention env o with
  | error e => rfl
  | ok o1 =>
    have hm := resetConvention_has hr
    have ho1 : Spec.About c o1 := by
      obtain ⟨cc, k, rfl, _⟩ := resetConvention_frame hr
      exact About.of_attrs ho rfl
    have hf := (fillMissing_frame (decide (ih ≠ .raise)) o1.keys o1.conv o1).2 (py% "GLOBAL_SOFAConventions")
    have ho2 : Spec.About c (fillMissing (decide (ih ≠ .raise)) o1.keys o1.conv o1).2 := by
      rcases hf with hf | ⟨_, hf, _⟩
      · exact About.of_attrs ho1 hf
      · exact absurd hm hf
    simp only [hi _ ho2]
    rw [h.rest]
    rfl

theorem verifyNew_same {c : Str} {env env' : Env} (h : Spec.SameFor c env env') {o : Obj} (ho : Spec.About c o) (ih : IH)
    (mode : Mode) : verifyNew env' o ih mode = verifyNew env o ih mode :=
  verifyG_same h (fun _ _ => rfl) ho ih mode

theorem finishInit_same {c : Str} {env env' : Env} (h : Spec.SameFor c env env') {o : Obj} (ho : Spec.About c o) (m : Bool)
    (v : Str) (b : Bool) : finishInit env' m v b o = finishInit env m v b o := by
  unfold finishInit
  rw [verifyNew_same h ho]

theorem loadConvention_says {c : Str} {env env' : Env} (h : Spec.SameFor c env env') {ver : VersionArg} {conv : Dict Entry}
    (hl : loadConvention env c ver = .ok conv) {e : Entry}
    (he : Dict.get? conv (py% "GLOBAL_SOFAConventions") = some e) : e.default = .val (.str c) := by
  unfold loadConvention at hl
  cases hs : selectFile env c ver with
  | error x => simp [hs] at hl
  | ok f =>
    simp only [hs, Except.ok.injEq] at hl
    subst hl
    have hm : f ∈ Spec.filesOf env c := by
      have h1 : selectFile { env with files := Spec.filesOf env c } c ver = .ok f := by
        rw [← hs]
        have h2 := filesOf_eq { env with files := Spec.filesOf env c } c
        have h3 : Spec.filesOf { env with files := Spec.filesOf env c } c = Spec.filesOf env c := by
          unfold Spec.filesOf
          simp only [List.filter_filter, Bool.and_self]
        rw [h3] at h2
        unfold selectFile
        simp only [filesOf_eq] at h2 ⊢
        rw [h2]
      exact selectFile_mem h1
    obtain ⟨k0, hk0, hk⟩ := convertKeys_get he
    exact h.described f hm _ hk0 hk.symm

theorem addDefaults_about {c : Str} {m : Bool} {l : Dict Entry} {o o' : Obj} (h : addDefaults m l o = .ok o')
    (ho : Spec.About c o) (hl : ∀ e, (py% "GLOBAL_SOFAConventions", e) ∈ l → e.default = .val (.str c)) : Spec.About c o' := by
  induction l generalizing o with
  | nil => cases h; exact ho
  | cons p l ih =>
    obtain ⟨k, e⟩ := p
    unfold addDefaults at h
    split at h
    · exact ih h ho fun e he => hl e (List.mem_cons_of_mem _ he)
    · cases hd : initDefault e with
      | error x => simp [hd] at h
      | ok d =>
        simp only [hd] at h
        cases hs : (setAttr o k d).out with
        | error x => simp [hs] at h
        | ok u =>
          simp only [hs] at h
          refine ih h ?_ fun e he => hl e (List.mem_cons_of_mem _ he)
          rcases setAttr_cases o k d with ⟨x, hx, _⟩ | ⟨b, _, _, _, hb⟩ | ⟨w, hw, _, _, _, hb, _⟩
          · rw [hx] at hs; cases hs
          · rw [hb]; exact ho
          · rw [hb]
            intro n hn
            obtain ⟨y, hy, ht⟩ := hn
            by_cases hk : k = py% "GLOBAL_SOFAConventions"
            · subst hk
              have he := hl e List.mem_cons_self
              unfold initDefault at hd
              simp only [he, Except.ok.injEq] at hd
              subst hd
              simp only [normalise, Except.ok.injEq] at hw
              subst hw
              simp only [Dict.get?_put_self, Option.some.injEq] at hy
              subst hy
              exact (Option.some.inj ht).symm
            · rw [Dict.get?_put_ne _ _ (Ne.symm hk)] at hy
              exact ho n ⟨y, hy, ht⟩

theorem conventionToSofa_about {c : Str} {env env' : Env} (h : Spec.SameFor c env env') {ver : VersionArg} {conv : Dict Entry}
    (hl : loadConvention env c ver = .ok conv) {m : Bool} {o : Obj} (ho : conventionToSofa env m (emptyObj conv) = .ok o) :
    Spec.About c o := by
  unfold conventionToSofa at ho
  cases hd : addDefaults m (emptyObj conv).conv (emptyObj conv) with
  | error x => simp [hd] at ho
  | ok o1 =>
    simp only [hd, Except.ok.injEq] at ho
    subst ho
    have h1 : Spec.About c o1 := by
      refine addDefaults_about hd ?_ fun e he => ?_
      · rintro n ⟨w, hw, _⟩
        simp [emptyObj] at hw
      · exact loadConvention_says h hl (Dict.get?_of_mem (loadConvention_nodup hl) he)
    refine About.of_attrs h1 ?_
    exact get?_foldl_stamps _ _ _ (by rw [stamps_names]; decide)

theorem conventionToSofa_same {c : Str} {env env' : Env} (h : Spec.SameFor c env env') (m : Bool) (o : Obj) :
    conventionToSofa env' m o = conventionToSofa env m o := by
  rw [h.rest]; rfl

theorem initSofa_same {c : Str} {env env' : Env} (h : Spec.SameFor c env env') (m : Bool) (ver : VersionArg) (a : VerifyArg) :
    initSofa env' c m ver a = initSofa env c m ver a := by
  unfold initSofa
  rw [loadConvention_same h]
  cases hl : loadConvention env c ver with
  | error x => rfl
  | ok conv =>
    simp only [conventionToSofa_same h]
    cases ho : conventionToSofa env m (emptyObj conv) with
    | error x => rfl
    | ok o =>
      simp only [finishInit_same h (conventionToSofa_about h hl ho)]

theorem initSofa_about {c : Str} {env env' : Env} (h : Spec.SameFor c env env') {m : Bool} {ver : VersionArg} {a : VerifyArg}
    {o : Obj} (ho : (initSofa env c m ver a).out = .ok o) : Spec.About c o := by
  obtain ⟨conv, o0, hl, hs, hat, _⟩ := initSofa_ok ho
  exact About.of_attrs (conventionToSofa_about h hl hs) (by rw [hat])

theorem referenceNames_same {c : Str} {env env' : Env} (h : Spec.SameFor c env env') {o : Obj} (ho : Spec.About c o) :
    referenceNames env' o = referenceNames env o := by
  unfold referenceNames
  cases hc : o.getAttr (py% "GLOBAL_SOFAConventions") with
  | error e => rfl
  | ok n =>
    cases hv : o.getAttr (py% "GLOBAL_SOFAConventionsVersion") with
    | error e => rfl
    | ok v =>
      cases hn : n.asStr with
      | none => simp only [hn]
      | some n =>
        cases aboutName ho hc hn
        cases hw : v.asStr with
        | none => simp only [hn, hw]
        | some v => simp only [hn, hw, initSofa_same h]

theorem verify_same {c : Str} {env env' : Env} (h : Spec.SameFor c env env') {o : Obj} (ho : Spec.About c o) (ih : IH)
    (mode : Mode) : verify env' o ih mode = verify env o ih mode :=
  verifyG_same h (fun _ h' => referenceNames_same h h') ho ih mode

theorem addMissing_same {c : Str} {env env' : Env} (h : Spec.SameFor c env env') {o : Obj} (ho : Spec.About c o)
    (m opt vb : Bool) : addMissing env' o m opt vb = addMissing env o m opt vb := by
  unfold addMissing
  rw [resetConvention_same h ho]

theorem updateDimensions_same {c : Str} {env env' : Env} (h : Spec.SameFor c env env') {o : Obj} (ho : Spec.About c o) :
    updateDimensions env' o = updateDimensions env o := by
  unfold updateDimensions
  rw [verify_same h ho]

theorem getDimension_same {c : Str} {env env' : Env} (h : Spec.SameFor c env env') {o : Obj} (ho : Spec.About c o) (d : Str) :
    getDimension env' o d = getDimension env o d := by
  unfold getDimension
  rw [updateDimensions_same h ho]

theorem listDimensions_same {c : Str} {env env' : Env} (h : Spec.SameFor c env env') {o : Obj} (ho : Spec.About c o) :
    listDimensions env' o = listDimensions env o := by
  unfold listDimensions
  rw [updateDimensions_same h ho]

theorem inspect_same {c : Str} {env env' : Env} (h : Spec.SameFor c env env') {o : Obj} (ho : Spec.About c o)
    (file : Option Str) (ih : IH) : inspect env' o file ih = inspect env o file ih := by
  unfold inspect
  rw [verify_same h ho, h.rest]
  rfl

theorem step_same {c : Str} {env env' : Env} (h : Spec.SameFor c env env') {o : Obj} (ho : Spec.About c o) (op : Op) :
    step env' o op = step env o op := by
  cases op with
  | addMissing m opt vb => exact congrArg Ret.obj (addMissing_same h ho m opt vb)
  | verify ih mode => exact congrArg Ret.obj (verify_same h ho ih mode)
  | getDimension d => exact congrArg Ret.obj (getDimension_same h ho d)
  | _ => rfl

theorem checkLatest_same {c : Str} {env env' : Env} (h : Spec.SameFor c env env') {o : Obj} (ho : Spec.About c o) :
    checkLatest env' o = checkLatest env o := by
  unfold checkLatest
  cases hc : o.getAttr (py% "GLOBAL_SOFAConventions") with
  | error e => rfl
  | ok n =>
    simp only
    split
    · rfl
    · cases hn : n.asStr with
      | none => rfl
      | some n =>
        cases aboutName ho hc hn
        simp only [initSofa_same h]

theorem writeGlobals_same {c : Str} {env env' : Env} (h : Spec.SameFor c env env') (nc : Nc) (o : Obj) (l : List Str) (f : NcFile) :
    writeGlobals env' nc o l f = writeGlobals env nc o l f := by
  induction l generalizing f with
  | nil => rfl
  | cons k l ih =>
    unfold writeGlobals
    simp only [pyStr_same h, ih]

theorem varAttrs_same {c : Str} {env env' : Env} (h : Spec.SameFor c env env') (nc : Nc) (o : Obj) (n : Nat) (l : List Str)
    (d : Dict Val) : varAttrs env' nc o n l d = varAttrs env nc o n l d := by
  induction l generalizing d with
  | nil => rfl
  | cons k l ih =>
    unfold varAttrs
    simp only [pyStr_same h, ih]

theorem toDoubles_same {c : Str} {env env' : Env} (h : Spec.SameFor c env env') (k : Kind) (l : List Elem) :
    toDoubles env' k l = toDoubles env k l := by
  induction l with
  | nil => rfl
  | cons e l ih =>
    have h1 : toDouble env' k e = toDouble env k e := by rw [h.rest]; rfl
    unfold toDoubles
    simp only [h1, ih]

theorem writeKey_same {c : Str} {env env' : Env} (h : Spec.SameFor c env env') (nc : Nc) (o : Obj) (compression : Nat)
    (k : Str) (f : NcFile) : writeKey env' nc o compression k f = writeKey env nc o compression k f := by
  have h1 : ∀ k a, netcdfData env' k a = netcdfData env k a := by
    intro k a
    unfold netcdfData
    simp only [toDoubles_same h]
  have h2 : ∀ key t d S v f, writeVariable env' nc o compression key t d S v f = writeVariable env nc o compression key t d S v f := by
    intro key t d S v f
    unfold writeVariable
    simp only [h1, varAttrs_same h]
  unfold writeKey
  simp only [h2]

theorem writeKeys_same {c : Str} {env env' : Env} (h : Spec.SameFor c env env') (nc : Nc) (o : Obj) (compression : Nat)
    (l : List Str) (f : NcFile) : writeKeys env' nc o compression l f = writeKeys env nc o compression l f := by
  induction l generalizing f with
  | nil => rfl
  | cons k l ih =>
    unfold writeKeys
    simp only [writeKey_same h, ih]

theorem writeDisk_same {c : Str} {env env' : Env} (h : Spec.SameFor c env env') (nc : Nc) (fs : FS) (path : Str) (o : Obj)
    (compression : Nat) : writeDisk env' nc fs path o compression = writeDisk env nc fs path o compression := by
  unfold writeDisk writeFile
  simp only [writeGlobals_same h, writeKeys_same h]

theorem writeSofa_same {c : Str} {env env' : Env} (h : Spec.SameFor c env env') {o : Obj} (ho : Spec.About c o) (nc : Nc)
    (fs : FS) (filename : Str) (compression : Nat) :
    writeSofa env' nc fs filename o compression = writeSofa env nc fs filename o compression := by
  unfold writeSofa writeSofaG
  simp only [checkLatest_same h ho, verify_same h ho, writeDisk_same h]

theorem verifyRead_same {c : Str} {env env' : Env} (h : Spec.SameFor c env env') {o : Obj} (ho : Spec.About c o)
    (v : Str) (arg : VerifyArg) : verifyRead env' o v arg = verifyRead env o v arg := by
  unfold verifyRead
  rw [verify_same h ho]

theorem foldl_put_about {k : Str} (l : List Item) (d : Dict Val) (P : Val → Prop) (hd : ∀ v, Dict.get? d k = some v → P v)
    (hl : ∀ i ∈ l, i.name = k → P i.value) :
    ∀ v, Dict.get? (l.foldl (fun d i => Dict.put d i.name i.value) d) k = some v → P v := by
  induction l generalizing d with
  | nil => exact hd
  | cons i l ih =>
    refine ih _ ?_ fun j hj => hl j (List.mem_cons_of_mem _ hj)
    intro v hv
    rw [Dict.get?_put] at hv
    split at hv
    · rename_i hk
      cases hv
      exact hl i List.mem_cons_self hk.symm
    · exact hd v hv

theorem attrItems_all {nc : Nc} {pre : Str} {d : Dict Val} {l : List Item} (h : attrItems nc pre d = .ok l) :
    ∀ i ∈ l, ∃ a v, (a, v) ∈ d ∧ i.name = pre ++ a ∧ i.value = v := by
  induction d generalizing l with
  | nil => cases h; simp
  | cons p d ih =>
    obtain ⟨a, v⟩ := p
    unfold attrItems at h
    split at h
    · cases h
    · split at h
      · cases h
      · rename_i r hr
        cases h
        intro i hi
        rcases List.mem_cons.1 hi with rfl | hi
        · exact ⟨a, v, List.mem_cons_self, rfl, rfl⟩
        · obtain ⟨a', v', h1, h2⟩ := ih hr i hi
          exact ⟨a', v', List.mem_cons_of_mem _ h1, h2⟩

theorem varItems_prefix {nc : Nc} {n : Str} {x : NcVar} {l : List Item} (h : (varItems nc n x).1 = .ok l) :
    ∀ i ∈ l, i.name = sofarName n ∨ ∃ a, i.name = sofarName n ++ '_' :: a := by
  unfold varItems at h
  simp only at h
  split at h
  · cases h
  · split at h
    · cases h
    · rename_i r hr
      cases h
      intro i hi
      rcases List.mem_cons.1 hi with rfl | hi
      · exact Or.inl rfl
      · obtain ⟨a, v, _, h2, _⟩ := attrItems_all hr i hi
        exact Or.inr ⟨a, by simpa using h2⟩

theorem sofarName_global {n a : Str} (h : py% "GLOBAL_SOFAConventions" = sofarName n ∨
    py% "GLOBAL_SOFAConventions" = sofarName n ++ '_' :: a) : (py% "GLOBAL") <+: n := by
  have key : ∀ p : Str, p <+: sofarName n → '_' ∉ p → p <+: n := by
    intro p hp hu
    have hx : ∀ (n p : Str), p <+: n.map (fun c => if c = '.' then '_' else c) → '_' ∉ p → p <+: n := by
      intro n
      induction n with
      | nil => intro p hp _; simpa using hp
      | cons x n ih =>
        intro p hp hu
        cases p with
        | nil => exact List.nil_prefix
        | cons y p =>
          rw [List.map_cons, List.cons_prefix_cons] at hp
          rw [List.cons_prefix_cons]
          simp only [List.mem_cons, not_or] at hu
          refine ⟨?_, ih p hp.2 hu.2⟩
          have h1 := hp.1
          split at h1
          · exact absurd h1.symm hu.1
          · exact h1
    exact hx n p hp hu
  refine key _ ?_ (by decide)
  rcases h with h | h
  · rw [← h]
    exact ⟨py% "_SOFAConventions", rfl⟩
  · have h1 : py% "GLOBAL" ++ py% "_SOFAConventions" = sofarName n ++ '_' :: a := h
    rcases List.append_eq_append_iff.1 h1 with ⟨t, h2, _⟩ | ⟨t, h2, h3⟩
    · exact ⟨t, h2.symm⟩
    · cases t with
      | nil => exact ⟨[], by simpa using h2⟩
      | cons x t =>
        simp only [List.cons_append, List.cons.injEq] at h3
        have : '_' ∈ py% "GLOBAL" := by rw [h2, h3.1]; simp
        exact absurd this (by decide)

theorem loadFile_about {c : Str} {nc : Nc} {f : NcFile} {new o : Obj} {vb : Bool} (hf : Spec.FileAbout c f)
    (hn : (Dict.keys new.attrs).Nodup) (ha : Spec.About c new) (h : (loadFile nc f new vb).out = .ok o) : Spec.About c o := by
  obtain ⟨l, st, hl, hF⟩ := loadFile_iff hn h
  obtain ⟨_, _, h3⟩ := loadItems_ok rfl hF.load
  rintro n ⟨w, hw, ht⟩
  rw [hF.attrs] at hw
  have hw' : Dict.get? st.obj.attrs (py% "GLOBAL_SOFAConventions") = some w := by
    have hm := (List.mem_filter.1 (Dict.mem_of_get? hw)).2
    rw [Dict.get?_filter _ _ _ (fun _ => hm)] at hw
    exact hw
  rw [h3] at hw'
  refine foldl_put_about l _ (fun v => ∀ n, Spec.text v = some n → n = c) (fun v hv n hn => ha n ⟨v, hv, hn⟩) ?_ w hw' n ht
  intro i hi hin
  unfold fileItems at hl
  split at hl
  · cases hl
  · rename_i g hg
    split at hl
    · cases hl
    · rename_i v hv
      cases hl
      rcases List.mem_append.1 hi with hi | hi
      · obtain ⟨a, x, h1, h2, h4⟩ := attrItems_all hg i hi
        rw [hin] at h2
        have : a = py% "SOFAConventions" := by
          have := congrArg (List.drop 7) h2
          simpa using this.symm
        subst this
        rw [h4]
        exact hf.name x h1
      · obtain ⟨n, x, a, h1, h2, h4⟩ := (allVarItems_mem hv i).1 hi
        have := varItems_prefix h2 i h4
        rw [hin] at this
        rcases this with h5 | ⟨b, h5⟩
        · exact absurd (sofarName_global (a := []) (Or.inl h5)) (hf.vars _ h1)
        · exact absurd (sofarName_global (Or.inr h5)) (hf.vars _ h1)

theorem readSofa_same {c : Str} {env env' : Env} (h : Spec.SameFor c env env') {nc : Nc} {fs : FS} {filename : Str}
    (hf : ∀ f, openFile fs filename = .ok f → Spec.FileAbout c f) (arg : VerifyArg) (verbose : Bool) :
    readSofa env' nc fs filename arg verbose = readSofa env nc fs filename arg verbose := by
  unfold readSofa
  cases ho : openFile fs filename with
  | error e => rfl
  | ok f =>
    simp only
    cases hc : fileAttr f (py% "SOFAConventions") with
    | error e => rfl
    | ok n =>
      cases hv : fileAttr f (py% "SOFAConventionsVersion") with
      | error e => rfl
      | ok v =>
        cases hn : n.asStr with
        | none => simp only [hn]
        | some n =>
          cases hw : v.asStr with
          | none => simp only [hn, hw]
          | some v =>
            have hnc : n = c := by
              unfold fileAttr at hc
              split at hc
              · rename_i w hw
                cases hc
                exact (hf f ho).name _ (Dict.mem_of_get? hw) n (by rw [← asStr_text, hn])
              · cases hc
            subst hnc
            simp only [hn, hw, verifyConvention_same h, initSofa_same h]
            cases verifyConvention env v n with
            | error e => rfl
            | ok u =>
              simp only
              cases hi : (initSofa env n false (.exact v) arg).out with
              | error e => rfl
              | ok new =>
                simp only
                cases hl : (loadFile nc f new verbose).out with
                | error e => rfl
                | ok o =>
                  simp only [verifyRead_same h (loadFile_about (hf f ho) (initSofa_nodup hi) (initSofa_about h hi) hl)]

theorem upgradeVerify_same {c : Str} {env env' : Env} (h : Spec.SameFor c env env') {o : Obj} (ho : Spec.About c o)
    (arg : VerifyArg) : upgradeVerify env' o arg = upgradeVerify env o arg := by
  unfold upgradeVerify
  simp only [verify_same h ho]

theorem addMissing_about {c : Str} {env : Env} {o : Obj} (ho : Spec.About c o) (m opt vb : Bool) :
    Spec.About c (addMissing env o m opt vb).obj := by
  unfold addMissing
  cases hr : resetConvention env o with
  | error e => exact ho
  | ok o1 =>
    have hm := resetConvention_has hr
    have ha := resetConvention_attrs hr
    have hk := addMissingLoop_keeps m opt o1.keys o1.conv { o1 with prot := false } hm
    have hb : Spec.About c (addMissingLoop m opt o1.keys o1.conv { o1 with prot := false }).2 := by
      refine About.of_attrs ho ?_
      rw [hk, ha]
    simp only
    split
    · exact hb
    · exact About.of_attrs hb rfl

theorem upgradeData_same {c : Str} {env env' : Env} (h : Spec.SameFor c env env') {o : Obj} (ho : Spec.About c o)
    {u : UpgradeDef} (hu : py% "GLOBAL_SOFAConventions" ∉ Spec.mentioned u) (arg : VerifyArg) :
    upgradeData env' o u arg = upgradeData env o u arg := by
  unfold Spec.mentioned at hu
  simp only [List.mem_append, not_or] at hu
  have h1 : Spec.About c (moveAll u.move o).obj := About.of_attrs ho (moveAll_keeps _ _ hu.1)
  have h2 : Spec.About c (removeAll u.remove (moveAll u.move o).obj).obj := About.of_attrs h1 (removeAll_keeps _ _ hu.2)
  have h3 : Spec.About c (addMissing env (removeAll u.remove (moveAll u.move o).obj).obj true false true).obj :=
    addMissing_about h2 true false true
  have h4 : Spec.About c { (addMissing env (removeAll u.remove (moveAll u.move o).obj).obj true false true).obj with
      prot := true } := About.of_attrs h3 rfl
  unfold upgradeData
  simp only [addMissing_same h h2, upgradeVerify_same h h4]

theorem upgradeTo_same {env env' : Env} {o : Obj} {n : Str} {v sv : Val} {target : Str} {u : UpgradeDef}
    (ht : ∀ c w, target = c ++ '_' :: w → Spec.SameFor c env env')
    (hu : py% "GLOBAL_SOFAConventions" ∉ Spec.mentioned u) (arg : VerifyArg) :
    upgradeTo env' o n v sv target u arg = upgradeTo env o n v sv target u arg := by
  unfold upgradeTo
  split
  · rename_i ct vt hs
    have h := ht ct vt (splitChar_two hs).1
    have hd : ∀ d, defaultText env' d = defaultText env d := fun d => by rw [h.rest]; rfl
    simp only [loadConvention_same h, pyStr_same h, hd]
    cases hl : loadConvention env ct (.exact vt) with
    | error e => rfl
    | ok conv =>
      simp only
      split
      · rfl
      · cases hp : (putTarget targetKeys { o with conv := conv, prot := false }).1 with
        | error x => rfl
        | ok _ =>
          obtain ⟨_, _, h3⟩ := putTarget_ok (by decide) (by decide) hp
          obtain ⟨e, w, h4, h5, h6⟩ := h3 (py% "GLOBAL_SOFAConventions") (by decide)
          have h7 := loadConvention_says h hl h4
          rw [h7] at h5
          simp only [normalise, Except.ok.injEq] at h5
          have ho : Spec.About ct (putTarget targetKeys { o with conv := conv, prot := false }).2 := by
            rintro n ⟨y, hy, hn⟩
            rw [h6] at hy
            cases hy
            subst h5
            exact (Option.some.inj hn).symm
          simp only [upgradeData_same h ho hu]
  · rfl

theorem upgradeConvention_same {c : Str} {env env' : Env} (h : Spec.SameFor c env env') {o : Obj} (ho : Spec.About c o)
    {target : Option Str} (ht : ∀ t c w, target = some t → t = c ++ '_' :: w → Spec.SameFor c env env')
    (hu : ∀ n up i u, Dict.get? env.upgrade n = some up → Dict.get? up.defs i = some u →
      py% "GLOBAL_SOFAConventions" ∉ Spec.mentioned u) (arg : VerifyArg) :
    upgradeConvention env' o target arg = upgradeConvention env o target arg := by
  have ho' : ∀ c v, isOutdated env' c v = isOutdated env c v := fun c v => by rw [h.rest]; rfl
  have hg : env'.upgrade = env.upgrade := by rw [h.rest]
  unfold upgradeConvention
  simp only [resetConvention_same h ho, pyStr_same h, ho', hg]
  cases hr : resetConvention env o with
  | error e => rfl
  | ok o1 =>
    simp only
    split
    · rename_i cv v sv h1 h2 h3
      split
      · cases hup : Dict.get? env.upgrade (pyStr env cv) with
        | none => rfl
        | some up =>
          simp only
          split
          · rfl
          · rename_i targets tid hfind
            cases target with
            | none => rfl
            | some t =>
              simp only
              split
              · cases hdef : Dict.get? up.defs tid with
                | none => rfl
                | some u =>
                  exact upgradeTo_same (fun c w hcw => ht t c w rfl hcw) (hu _ _ _ _ hup hdef) arg
              · rfl
      · rfl
    · rfl
    · rfl
    · rfl

end Sofar
