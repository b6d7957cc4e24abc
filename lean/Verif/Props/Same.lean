import Verif.Lemmas.Same
import Verif.Lemmas.Alias
import Verif.Lemmas.Dims
import Verif.Lemmas.Trips
import Verif.Props.Warnings
import Verif.Props.Report
import Verif.Props.Text
import Verif.Props.Upgrade
/-!
# C88: results depend on the data only, not on the history of the object
-/
namespace Sofar

/-! ## Examples -/

/-- a new object that was never verified -/
def exFresh : Obj :=
  match (initSofa exTextEnv (py% "FIR") false .latest .no).out with
  | .ok o => o
  | .error _ => emptyObj []

/-- the new object and the verified object have the same data, but only one of them remembers sizes of dimensions -/
theorem exFresh_same : Spec.SameData exFresh exTextSofa ∧ exFresh.dims = none ∧ exTextSofa.dims ≠ none :=
  ⟨⟨by decide +kernel, by decide +kernel⟩, by decide +kernel, by decide +kernel⟩


/-- C88: Two objects with the same data and custom entries are verified with the same outcome (result or exception), the same
warnings and prints, and have the same data afterwards, whatever was called before. -/
theorem C88_verify (env : Env) (o o' : Obj) (h : Spec.SameData o o') (ih : IH) (mode : Mode) :
    (verify env o' ih mode).out = (verify env o ih mode).out ∧ (verify env o' ih mode).ev = (verify env o ih mode).ev ∧
    Spec.SameData (verify env o ih mode).obj (verify env o' ih mode).obj := by
  obtain ⟨h1, h2, h3, _⟩ := sameData_verify (env := env) h ih mode
  exact ⟨h1, h2, h3⟩

example : Spec.SameData exFresh exTextSofa ∧ (verify exTextEnv exFresh .raise .write).out = .ok none ∧
    (verify exTextEnv exTextSofa .raise .write).out = .ok none :=
  ⟨exFresh_same.1, by decide +kernel, by decide +kernel⟩

theorem early_phrase (o : Obj) (s : Str) (hs : s ≠ []) : ∃ t,
    (verifyEarly o .ret (section_ (py% "Detected data of wrong type:\n") s)).out = .ok (some t) ∧
      Str.hasSub t (py% "data of wrong type") = true := by
  have he : section_ (py% "Detected data of wrong type:\n") s = py% "Detected data of wrong type:\n" ++ s := by
    unfold section_
    rw [if_neg (by simpa using hs)]
  rw [he]
  have hne : (py% "Detected data of wrong type:\n" ++ s).isEmpty = false := by simp
  unfold verifyEarly handleIssues
  simp only [hne, Bool.false_eq_true, if_false]
  refine ⟨_, rfl, ?_⟩
  rw [hasSub_iff]
  have h1 : py% "data of wrong type" <:+: (py% "Detected data of wrong type:\n" : Str) :=
    (hasSub_iff _ _).1 (by decide +kernel)
  have h2 : (py% "Detected data of wrong type:\n" : Str) <:+: errorHeader ++ (py% "Detected data of wrong type:\n" ++ s) :=
    ⟨errorHeader, s, by simp⟩
  exact h1.trans (h2.trans (by simp))

/-- the outcome of `_update_dimensions`; the private data is the same if it succeeds -/
theorem sameData_updateDimensions {env : Env} {o o' : Obj} (h : Spec.SameData o o') :
    (updateDimensions env o').out = (updateDimensions env o).out ∧
    (updateDimensions env o').ev = (updateDimensions env o).ev ∧
    Spec.SameData (updateDimensions env o).obj (updateDimensions env o').obj ∧
    ((updateDimensions env o).out = .ok () → Twin (updateDimensions env o).obj (updateDimensions env o').obj) := by
  obtain ⟨h1, h2, h3, h4⟩ := sameData_verify (env := env) h .ret .write
  unfold updateDimensions
  simp only [h1]
  cases hv : (verify env o .ret .write).out with
  | error x => exact ⟨rfl, h2, h3, fun h => by cases h⟩
  | ok r =>
    rw [hv] at h4
    cases r with
    | none =>
      refine ⟨rfl, h2, h3, fun _ => ?_⟩
      rcases h4 with h4 | ⟨x, h4⟩ | ⟨_, _, o2, s, hs, h4⟩
      · exact h4
      · cases h4
      · obtain ⟨t, ht, _⟩ := early_phrase o2 s hs
        rw [ht] at h4
        cases h4
    | some t =>
      simp only
      rcases h4 with h4 | ⟨x, h4⟩ | ⟨_, _, o2, s, hs, h4⟩
      · have hapi : (verify env o' .ret .write).obj.api = (verify env o .ret .write).obj.api := by
          obtain ⟨r, hr⟩ := h4
          rw [hr]
        rw [hapi]
        split
        · exact ⟨rfl, h2, h3, fun h => by cases h⟩
        · exact ⟨rfl, h2, h3, fun _ => h4⟩
      · cases h4
      · obtain ⟨t', ht', hp⟩ := early_phrase o2 s hs
        rw [ht'] at h4
        simp only [Except.ok.injEq, Option.some.injEq] at h4
        subst h4
        simp only [hp, Bool.true_or, if_true]
        exact ⟨trivial, h2, h3, fun h => by cases h⟩

/-- C88: sizes of dimensions and the list of all dimensions do not depend on the history. -/
theorem C88_sizes (env : Env) (o o' : Obj) (h : Spec.SameData o o') (d : Str) :
    (getDimension env o' d).out = (getDimension env o d).out ∧
    (listDimensions env o').out = (listDimensions env o).out ∧ (listDimensions env o').ev = (listDimensions env o).ev := by
  obtain ⟨h1, h2, h3, h4⟩ := sameData_updateDimensions (env := env) h
  refine ⟨?_, ?_⟩
  · unfold getDimension
    simp only [h1]
    cases hu : (updateDimensions env o).out with
    | error x => rfl
    | ok u =>
      obtain ⟨r, hr⟩ := h4 hu
      have : (updateDimensions env o').obj.api = (updateDimensions env o).obj.api := by rw [hr]
      simp only [this]
      cases (updateDimensions env o).obj.api with
      | none => rfl
      | some api =>
        simp only
        cases Dict.get? api d <;> rfl
  · unfold listDimensions
    simp only [h1]
    cases hu : (updateDimensions env o).out with
    | error x => exact ⟨rfl, h2⟩
    | ok u =>
      obtain ⟨r, hr⟩ := h4 hu
      have : dimensionsText (updateDimensions env o').obj = dimensionsText (updateDimensions env o).obj := by
        rw [hr]; rfl
      simp only [this]
      cases dimensionsText (updateDimensions env o).obj with
      | error x => exact ⟨rfl, h2⟩
      | ok t => simp only [h2, and_self]

example : Spec.SameData exFresh exTextSofa ∧ (getDimension exTextEnv exFresh (py% "N")).out = .ok 3 ∧
    (listDimensions exTextEnv exFresh).out = .ok () ∧
    exPrinted (listDimensions exTextEnv exTextSofa).ev = exPrinted (listDimensions exTextEnv exFresh).ev :=
  ⟨exFresh_same.1, by decide +kernel, by decide +kernel, by decide +kernel⟩

theorem Twin.writeFile {env : Env} {nc : Nc} {o o' : Obj} (h : Twin o o') (c : Nat) :
    writeFile env nc o' c = writeFile env nc o c := by
  obtain ⟨r, rfl⟩ := h
  have h1 : ∀ ks f, writeGlobals env nc { o with readOnly := r } ks f = writeGlobals env nc o ks f := by
    intro ks
    induction ks with
    | nil => exact fun f => rfl
    | cons k ks ih =>
      intro f
      have hk : Obj.getAttr { o with readOnly := r } k = o.getAttr k := rfl
      simp only [writeGlobals, hk, ih]
  have h2 : ∀ n ks d, varAttrs env nc { o with readOnly := r } n ks d = varAttrs env nc o n ks d := by
    intro n ks
    induction ks with
    | nil => exact fun f => rfl
    | cons k ks ih =>
      intro f
      have hk : Obj.getAttr { o with readOnly := r } k = o.getAttr k := rfl
      simp only [varAttrs, hk, ih]
  have h3 : ∀ k f, writeKey env nc { o with readOnly := r } c k f = writeKey env nc o c k f := by
    intro k f
    have hk : Obj.getAttr { o with readOnly := r } k = o.getAttr k := rfl
    have hc : convEntry { o with readOnly := r } k = convEntry o k := rfl
    have hks : Obj.keys { o with readOnly := r } = o.keys := rfl
    unfold writeKey writeVariable
    simp only [hk, hc, h2, hks]
  have h4 : ∀ ks f, writeKeys env nc { o with readOnly := r } c ks f = writeKeys env nc o c ks f := by
    intro ks
    induction ks with
    | nil => exact fun f => rfl
    | cons k ks ih =>
      intro f
      simp only [writeKeys, h3, ih]
  have hks : Obj.keys { o with readOnly := r } = o.keys := rfl
  unfold Sofar.writeFile
  simp only [h1, h4, hks]

/-- C88: Two objects with the same data give exactly the same file (and the same exception or warnings). -/
theorem C88_write (env : Env) (nc : Nc) (fs : FS) (filename : Str) (o o' : Obj) (compression : Nat) (h : Spec.SameData o o') :
    (writeSofa env nc fs filename o' compression).out = (writeSofa env nc fs filename o compression).out ∧
    (writeSofa env nc fs filename o' compression).fs = (writeSofa env nc fs filename o compression).fs ∧
    (writeSofa env nc fs filename o' compression).ev = (writeSofa env nc fs filename o compression).ev ∧
    Spec.SameData (writeSofa env nc fs filename o compression).obj (writeSofa env nc fs filename o' compression).obj := by
  obtain ⟨h1, h2, h3, h4⟩ := sameData_verify (env := env) h .raise .write
  have hl : checkLatest env o' = checkLatest env o := by
    unfold checkLatest
    rw [sameData_getAttr h (k := py% "GLOBAL_SOFAConventions") (Or.inl (by decide)),
      sameData_getAttr h (k := py% "GLOBAL_SOFAConventionsVersion") (Or.inl (by decide))]
  unfold writeSofa writeSofaG
  cases withSuffix filename with
  | error e => exact ⟨rfl, rfl, rfl, h⟩
  | ok path =>
    simp only [if_true, hl]
    cases (checkLatest env o).1 with
    | error e => exact ⟨rfl, rfl, rfl, h⟩
    | ok _ =>
      simp only [h1, h2]
      cases hv : (verify env o .raise .write).out with
      | error e => exact ⟨rfl, rfl, rfl, h3⟩
      | ok u =>
        rw [hv] at h4
        rcases h4 with h4 | ⟨x, h4⟩ | ⟨hne, _⟩
        · have hw : writeDisk env nc fs path (verify env o' .raise .write).obj compression =
              writeDisk env nc fs path (verify env o .raise .write).obj compression := by
            unfold writeDisk
            rw [h4.writeFile]
          simp only [hw]
          exact ⟨trivial, trivial, trivial, h3⟩
        · cases h4
        · exact absurd rfl hne

example : Spec.SameData exFresh exTextSofa ∧
    (writeSofa exTextEnv exNc exDisk (py% "new.sofa") exFresh 4).out = .ok () ∧
    (Dict.get? (writeSofa exTextEnv exNc exDisk (py% "new.sofa") exTextSofa 4).fs.files (py% "new.sofa")).isSome = true :=
  ⟨exFresh_same.1, by decide +kernel, by decide +kernel⟩

/-- C88: `inspect` with `issue_handling="raise"` shows the same text. For the other settings see `C88_refuted_inspect`. -/
theorem C88_inspect_partial (env : Env) (o o' : Obj) (file : Option Str) (h : Spec.SameData o o') :
    (inspect env o' file .raise).out = (inspect env o file .raise).out ∧
    (inspect env o' file .raise).ev = (inspect env o file .raise).ev ∧
    (inspect env o' file .raise).file = (inspect env o file .raise).file := by
  obtain ⟨h1, h2, h3, h4⟩ := sameData_verify (env := env) h .raise .write
  unfold inspect
  simp only [h1, h2]
  cases hv : (verify env o .raise .write).out with
  | error x => exact ⟨rfl, rfl, rfl⟩
  | ok u =>
    rw [hv] at h4
    rcases h4 with ⟨r, h4⟩ | ⟨x, h4⟩ | ⟨hne, _⟩
    · have e1 : objTitle env (verify env o' .raise .write).obj = objTitle env (verify env o .raise .write).obj := by
        rw [h4]; rfl
      have e2 : concatE (inspectKey env (verify env o' .raise .write).obj) (verify env o' .raise .write).obj.keys =
          concatE (inspectKey env (verify env o .raise .write).obj) (verify env o .raise .write).obj.keys := by
        rw [h4]; rfl
      simp only [e1, e2]
      cases objTitle env (verify env o .raise .write).obj with
      | error x => exact ⟨rfl, rfl, rfl⟩
      | ok t =>
        simp only
        cases concatE (inspectKey env (verify env o .raise .write).obj) (verify env o .raise .write).obj.keys with
        | error x => exact ⟨rfl, rfl, rfl⟩
        | ok t => exact ⟨rfl, rfl, rfl⟩
    · cases h4
    · exact absurd rfl hne

example : Spec.SameData exFresh exTextSofa ∧ (inspect exTextEnv exFresh none .raise).out = .ok () :=
  ⟨exFresh_same.1, by decide +kernel⟩

/-- the objects after a name was replaced by a number -/
def exFreshWrong : Obj := exPut exFresh (py% "Names") (.arr (exNums .i [2] [1, 2]))

/-- C88 is false for `inspect` with another way of handling issues: for an object with data of a wrong type it fails if the
object was never verified, and works if the object was verified before. -/
theorem C88_refuted_inspect : ∃ (env : Env) (o o' : Obj) (x : Exc), Spec.SameData o o' ∧
    (inspect env o none .print).out = .error x ∧ (inspect env o' none .print).out = .ok () :=
  ⟨exTextEnv, exFreshWrong, exPut exTextSofa (py% "Names") (.arr (exNums .i [2] [1, 2])),
    .attributeError (py% "_dimensions"), ⟨by decide +kernel, by decide +kernel⟩, by decide +kernel, by decide +kernel⟩

/-- two versions of a convention that differ in the comment on one entry -/
def exEnvTwo : Env := { exTextEnv with
  files := exTextEnv.files.map (fun f => ⟨f.base, f.content ++ [(py% "Weight:Note", ⟨some (py% "m"), none, py% "attribute", .val (.str (py% "a")), py% "first text"⟩)]⟩) ++
    exTextEnv.files.map (fun f => ⟨py% "FIR_2.0.json", (f.content.map fun p =>
      if p.1 = py% "GLOBAL:SOFAConventionsVersion" then (p.1, exAttr (py% "rm") (py% "2.0")) else p) ++
      [(py% "Weight:Note", ⟨some (py% "m"), none, py% "attribute", .val (.str (py% "a")), py% "second text"⟩)]⟩) }

/-- an object of the second version -/
def exTwo : Obj :=
  match (initSofa exEnvTwo (py% "FIR") false .latest .no).out with
  | .ok o => o
  | .error _ => emptyObj []

/-- an object of the first version whose version was changed -/
def exOneToTwo : Obj :=
  match (initSofa exEnvTwo (py% "FIR") false (.exact (py% "1.0")) .no).out with
  | .ok o => { (setAttr { o with prot := false } (py% "GLOBAL_SOFAConventionsVersion") (.val (.str (py% "2.0")))).obj with prot := true }
  | .error _ => emptyObj []

/-- C88 is false for `info`: it shows the convention that the object was created with, not the convention of its data. -/
theorem C88_refuted_info : ∃ (env : Env) (o o' : Obj) (show_ : Inp → Str), Spec.SameData o o' ∧
    (info env show_ o (py% "Weight_Note")).out = .ok () ∧ (info env show_ o' (py% "Weight_Note")).out = .ok () ∧
    (info env show_ o (py% "Weight_Note")).ev ≠ (info env show_ o' (py% "Weight_Note")).ev :=
  ⟨exEnvTwo, exTwo, exOneToTwo, fun _ => [], ⟨by decide +kernel, by decide +kernel⟩, by decide +kernel, by decide +kernel,
    by decide +kernel⟩

theorem setFree_prot {o : Obj} {k : Str} (v : Inp) (hk : k ≠ py% "protected") (hp : o.prot = false) :
    (setAttr o k v).obj.prot = false := by
  unfold setAttr
  rw [if_neg hk]
  repeat' split
  all_goals exact hp

theorem Alike.addMissingLoop (a b : Bool) (ks : List Str) (l : Dict Entry) (hl : py% "protected" ∉ l.map Prod.fst) :
    ∀ {o o' : Obj}, Alike o o' → o.prot = false → o'.prot = false →
    (addMissingLoop a b ks l o').1 = (addMissingLoop a b ks l o).1 ∧
      Alike (addMissingLoop a b ks l o).2 (addMissingLoop a b ks l o').2 := by
  induction l with
  | nil => exact fun h _ _ => ⟨rfl, h⟩
  | cons p l ih =>
    intro o o' h hp hp'
    obtain ⟨k, e⟩ := p
    simp only [List.map_cons, List.mem_cons, not_or] at hl
    simp only [Sofar.addMissingLoop]
    split
    · have hs := h.setFree k e.default
      have e1 : { o with prot := false } = o := by rw [← hp]
      have e2 : { o' with prot := false } = o' := by rw [← hp']
      rw [e1, e2] at hs
      obtain ⟨h1, h2, _⟩ := hs
      rw [h1]
      cases (setAttr o k e.default).out with
      | error x => exact ⟨rfl, h2⟩
      | ok u =>
        simp only
        obtain ⟨h3, h4⟩ := ih hl.2 h2 (setFree_prot _ (Ne.symm hl.1) hp) (setFree_prot _ (Ne.symm hl.1) hp')
        rw [h3]
        cases (Sofar.addMissingLoop a b ks l (setAttr o k e.default).obj).1 with
        | error x => exact ⟨rfl, h4⟩
        | ok s => exact ⟨rfl, h4⟩
    · exact ih hl.2 h hp hp'

theorem reset_unprotected {env : Env} (hk : ∀ f ∈ env.files, py% "protected" ∉ f.content.map Prod.fst) {o o1 : Obj}
    (hc : ∀ c, o.custom = some c → py% "protected" ∉ c.map Prod.fst) (h : resetConvention env o = .ok o1) :
    py% "protected" ∉ o1.conv.map Prod.fst := by
  obtain ⟨_, _, _, conv, _, _, _, _, hl, he⟩ := resetConvention_inv h
  have hu := unprotected_of_files hk conv hl
  cases ho : o.custom with
  | none => rw [ho] at he; subst he; exact hu
  | some c =>
    rw [ho] at he
    subst he
    intro hm
    obtain ⟨p, hp, hpk⟩ := List.mem_map.1 hm
    obtain ⟨k, x⟩ := p
    simp only at hpk
    subst hpk
    rcases mem_mergeCustom.1 hp with hp | hp
    · exact hu (List.mem_map.2 ⟨_, hp, rfl⟩)
    · exact hc c ho (List.mem_map.2 ⟨_, (List.mem_filter.1 hp).1, rfl⟩)

/-- C88: `add_missing` adds the same data. -/
theorem C88_add_missing (env : Env) (hk : ∀ f ∈ env.files, py% "protected" ∉ f.content.map Prod.fst) (o o' : Obj)
    (hc : ∀ c, o.custom = some c → py% "protected" ∉ c.map Prod.fst) (h : Spec.SameData o o')
    (addMandatory addOptional verbose : Bool) :
    (addMissing env o' addMandatory addOptional verbose).out = (addMissing env o addMandatory addOptional verbose).out ∧
    (addMissing env o' addMandatory addOptional verbose).ev = (addMissing env o addMandatory addOptional verbose).ev ∧
    Spec.SameData (addMissing env o addMandatory addOptional verbose).obj
      (addMissing env o' addMandatory addOptional verbose).obj := by
  unfold addMissing
  rcases sameData_reset (env := env) h with ⟨x, h1, h2⟩ | ⟨o1, o1', h1, h2, ha⟩
  · rw [h1, h2]
    exact ⟨rfl, rfl, h⟩
  · rw [h1, h2]
    simp only
    rw [ha.conv, ha.keys]
    have hu := reset_unprotected hk hc h1
    obtain ⟨h3, h4⟩ := Alike.addMissingLoop addMandatory addOptional o1.keys o1.conv hu
      (o := { o1 with prot := false }) (o' := { o1' with conv := o1.conv, prot := false })
      ⟨ha.attrs, ha.custom, rfl⟩ rfl rfl
    rw [h3]
    cases (Sofar.addMissingLoop addMandatory addOptional o1.keys o1.conv { o1 with prot := false }).1 with
    | error x => exact ⟨rfl, rfl, h4.same⟩
    | ok s => exact ⟨rfl, rfl, h4.attrs, h4.custom⟩

example : (∀ f ∈ exTextEnv.files, py% "protected" ∉ f.content.map Prod.fst) ∧ exFresh.custom = none ∧
    Spec.SameData { exFresh with attrs := Dict.del exFresh.attrs (py% "Weight") }
      { exTextSofa with attrs := Dict.del exTextSofa.attrs (py% "Weight") } ∧
    (addMissing exTextEnv { exFresh with attrs := Dict.del exFresh.attrs (py% "Weight") } true true true).obj.attrs.length =
      exFresh.attrs.length :=
  ⟨by decide +kernel, by decide +kernel, ⟨by decide +kernel, by decide +kernel⟩, by decide +kernel⟩

/-! ## Upgrades -/

theorem Alike.setOpen {o o' : Obj} (h : Alike o o') (hp : o.prot = false) (hp' : o'.prot = false) (k : Str) (v : Inp) :
    (setAttr o' k v).out = (setAttr o k v).out ∧ Alike (setAttr o k v).obj (setAttr o' k v).obj := by
  have hs := h.setFree k v
  have e1 : { o with prot := false } = o := by rw [← hp]
  have e2 : { o' with prot := false } = o' := by rw [← hp']
  rw [e1, e2] at hs
  exact ⟨hs.1, hs.2.1⟩

theorem Alike.delOpen {o o' : Obj} (h : Alike o o') (hp : o.prot = false) (hp' : o'.prot = false) {k : Str}
    (hk : isPrivate k = false) :
    (delAttr o' k).out = (delAttr o k).out ∧ Alike (delAttr o k).obj (delAttr o' k).obj ∧
      (delAttr o k).obj.prot = false ∧ (delAttr o' k).obj.prot = false ∧
      ((delAttr o k).obj.custom = o.custom ∨ ∃ c, o.custom = some c ∧ (delAttr o k).obj.custom = some (Dict.del c k)) := by
  have e1 := sameData_hasAttr h.same hk
  unfold delAttr removeAttr
  rw [e1, h.attrs]
  simp only [hp, hp', Bool.not_false, if_true, hk, Bool.false_eq_true, if_false]
  split
  · exact ⟨rfl, h, hp, hp', Or.inl rfl⟩
  · split
    · refine ⟨rfl, ⟨rfl, ?_, h.conv⟩, rfl, rfl, ?_⟩
      · simp only [h.custom]
      · cases hc : o.custom with
        | none => exact Or.inl (by simp)
        | some c => exact Or.inr ⟨c, rfl, rfl⟩
    · exact ⟨rfl, h, hp, hp', Or.inl rfl⟩

/-- the objects during an upgrade: alike, not protected, and no custom entry is called `protected` -/
structure Open (o o' : Obj) : Prop where
  alike : Alike o o'
  left : o.prot = false
  right : o'.prot = false
  custom : ∀ c, o.custom = some c → py% "protected" ∉ c.map Prod.fst

theorem Open.set {o o' : Obj} (h : Open o o') {k : Str} (hk : k ≠ py% "protected") (v : Inp) :
    (setAttr o' k v).out = (setAttr o k v).out ∧ Open (setAttr o k v).obj (setAttr o' k v).obj := by
  obtain ⟨h1, h2⟩ := h.alike.setOpen h.left h.right k v
  refine ⟨h1, h2, setFree_prot _ hk h.left, setFree_prot _ hk h.right, ?_⟩
  have : (setAttr o k v).obj.custom = o.custom := by
    unfold setAttr
    repeat' split
    all_goals rfl
  rw [this]
  exact h.custom

theorem Open.del {o o' : Obj} (h : Open o o') {k : Str} (hk : isPrivate k = false) :
    (delAttr o' k).out = (delAttr o k).out ∧ Open (delAttr o k).obj (delAttr o' k).obj := by
  obtain ⟨h1, h2, h3, h4, h5⟩ := h.alike.delOpen h.left h.right hk
  refine ⟨h1, h2, h3, h4, fun c hc => ?_⟩
  rcases h5 with h5 | ⟨c0, h5, h6⟩
  · exact h.custom c (h5 ▸ hc)
  · rw [h6] at hc
    cases hc
    intro hm
    obtain ⟨p, hp, hpk⟩ := List.mem_map.1 hm
    exact h.custom c0 h5 (List.mem_map.2 ⟨p, (List.mem_filter.1 hp).1, hpk⟩)

theorem isPrivate_head {k : Str} (h : k.head? ≠ some '_') : isPrivate k = false :=
  (publicName_iff k).1 h

theorem Open.moveOne {o o' : Obj} (h : Open o o') {s : Str} {m : Move} (hs : (Spec.sofarName s).head? ≠ some '_')
    (hm : Spec.sofarName m.target ≠ py% "protected") :
    (moveOne o' s m).out = (moveOne o s m).out ∧ (moveOne o' s m).ev = (moveOne o s m).ev ∧
      Open (moveOne o s m).obj (moveOne o' s m).obj := by
  unfold Sofar.moveOne
  simp only [toSofar_eq]
  rw [sameData_getAttr h.alike.same (Or.inl (isPrivate_head hs))]
  cases o.getAttr (Spec.sofarName s) with
  | error e => exact ⟨rfl, rfl, h⟩
  | ok d =>
    obtain ⟨h1, h2⟩ := h.del (isPrivate_head hs)
    simp only [h1]
    cases (delAttr o (Spec.sofarName s)).out with
    | error e => exact ⟨rfl, rfl, h2⟩
    | ok u =>
      simp only
      cases moveData d m.moveaxis with
      | error e => exact ⟨rfl, rfl, h2⟩
      | ok v =>
        obtain ⟨h3, h4⟩ := h2.set hm (.val v)
        simp only [h3]
        cases (setAttr (delAttr o (Spec.sofarName s)).obj (Spec.sofarName m.target) (.val v)).out with
        | error e => exact ⟨rfl, rfl, h4⟩
        | ok u => exact ⟨rfl, rfl, h4⟩

theorem Open.moveAll (l : Dict Move) (hl : ∀ s m, (s, m) ∈ l → (Spec.sofarName s).head? ≠ some '_' ∧
    Spec.sofarName m.target ≠ py% "protected") : ∀ {o o' : Obj}, Open o o' →
    (moveAll l o').out = (moveAll l o).out ∧ (moveAll l o').ev = (moveAll l o).ev ∧
      Open (moveAll l o).obj (moveAll l o').obj := by
  induction l with
  | nil => exact fun h => ⟨rfl, rfl, h⟩
  | cons p l ih =>
    intro o o' h
    obtain ⟨s, m⟩ := p
    obtain ⟨h1, h2, h3⟩ := h.moveOne (hl s m (by simp)).1 (hl s m (by simp)).2
    simp only [Sofar.moveAll, h1, h2]
    cases (Sofar.moveOne o s m).out with
    | error e => exact ⟨rfl, rfl, h3⟩
    | ok u =>
      obtain ⟨h4, h5, h6⟩ := ih (fun s m hm => hl s m (by simp [hm])) h3
      simp only [h4, h5]
      exact ⟨trivial, trivial, h6⟩

theorem Open.removeAll (l : List Str) (hl : ∀ t ∈ l, (Spec.sofarName t).head? ≠ some '_') : ∀ {o o' : Obj}, Open o o' →
    (removeAll l o').out = (removeAll l o).out ∧ (removeAll l o').ev = (removeAll l o).ev ∧
      Open (removeAll l o).obj (removeAll l o').obj := by
  induction l with
  | nil => exact fun h => ⟨rfl, rfl, h⟩
  | cons t l ih =>
    intro o o' h
    obtain ⟨h1, h3⟩ := h.del (isPrivate_head (hl t (by simp)))
    simp only [Sofar.removeAll, toSofar_eq, h1]
    cases (delAttr o (Spec.sofarName t)).out with
    | error e => exact ⟨rfl, rfl, h3⟩
    | ok u =>
      obtain ⟨h4, h5, h6⟩ := ih (fun t hm => hl t (by simp [hm])) h3
      simp only [h4, h5]
      exact ⟨trivial, trivial, h6⟩

theorem Open.putTarget (l : List Str) (hl : py% "protected" ∉ l) : ∀ {o o' : Obj}, Open o o' →
    (putTarget l o').1 = (putTarget l o).1 ∧ Open (putTarget l o).2 (putTarget l o').2 := by
  induction l with
  | nil => exact fun h => ⟨rfl, h⟩
  | cons k l ih =>
    intro o o' h
    simp only [List.mem_cons, not_or] at hl
    simp only [Sofar.putTarget, h.alike.conv]
    cases Dict.get? o.conv k with
    | none => exact ⟨rfl, h⟩
    | some e =>
      obtain ⟨h1, h2⟩ := h.set (Ne.symm hl.1) e.default
      simp only [h1]
      cases (setAttr o k e.default).out with
      | error x => exact ⟨rfl, h2⟩
      | ok u => exact ih hl.2 h2

/-- C88: `upgrade_convention` has the same outcome and gives the same data. -/
theorem C88_upgrade (env : Env) (hk : ∀ f ∈ env.files, py% "protected" ∉ f.content.map Prod.fst)
    (hu : Spec.PlainUpgrades env) (o o' : Obj) (hc : ∀ c, o.custom = some c → py% "protected" ∉ c.map Prod.fst)
    (h : Spec.SameData o o') (target : Option Str) (arg : VerifyArg) :
    (upgradeConvention env o' target arg).out = (upgradeConvention env o target arg).out ∧
    (upgradeConvention env o' target arg).ev = (upgradeConvention env o target arg).ev ∧
    Spec.SameData (upgradeConvention env o target arg).obj (upgradeConvention env o' target arg).obj := by
  have hver : ∀ {p p' : Obj}, Spec.SameData p p' → (upgradeVerify env p' arg).out = (upgradeVerify env p arg).out ∧
      (upgradeVerify env p' arg).ev = (upgradeVerify env p arg).ev ∧
      Spec.SameData (upgradeVerify env p arg).obj (upgradeVerify env p' arg).obj := by
    intro p p' hp
    obtain ⟨v1, v2, v3⟩ := C88_verify env p p' hp .raise .write
    unfold upgradeVerify
    simp only [v1, v2]
    cases arg with
    | yes => simp only; cases (verify env p .raise .write).out <;> exact ⟨rfl, rfl, v3⟩
    | no => exact ⟨rfl, rfl, hp⟩
    | auto =>
      simp only
      rw [sameData_getAttr hp (k := py% "GLOBAL_SOFAConventionsVersion") (Or.inl (by decide))]
      cases p.getAttr (py% "GLOBAL_SOFAConventionsVersion") with
      | error e => exact ⟨rfl, rfl, hp⟩
      | ok v =>
        simp only
        cases v.asStr with
        | none => exact ⟨rfl, rfl, hp⟩
        | some s =>
          simp only
          cases isStable s with
          | error e => exact ⟨rfl, rfl, hp⟩
          | ok b =>
            cases b with
            | false => exact ⟨rfl, rfl, hp⟩
            | true => simp only; cases (verify env p .raise .write).out <;> exact ⟨rfl, rfl, v3⟩
  have hdata : ∀ {p p' : Obj} {u : UpgradeDef}, Open p p' →
      ((∀ s m, (s, m) ∈ u.move → (Spec.sofarName s).head? ≠ some '_' ∧ Spec.sofarName m.target ≠ py% "protected") ∧
        ∀ t ∈ u.remove, (Spec.sofarName t).head? ≠ some '_') →
      (upgradeData env p' u arg).out = (upgradeData env p u arg).out ∧
      (upgradeData env p' u arg).ev = (upgradeData env p u arg).ev ∧
      Spec.SameData (upgradeData env p u arg).obj (upgradeData env p' u arg).obj := by
    intro p p' u hp hpl
    obtain ⟨m1, m2, m3⟩ := Open.moveAll u.move hpl.1 hp
    unfold upgradeData
    simp only [m1, m2]
    cases (Sofar.moveAll u.move p).out with
    | error e => exact ⟨rfl, rfl, m3.alike.same⟩
    | ok _ =>
      obtain ⟨r1, r2, r3⟩ := Open.removeAll u.remove hpl.2 m3
      simp only [r1, r2]
      cases (Sofar.removeAll u.remove (Sofar.moveAll u.move p).obj).out with
      | error e => exact ⟨rfl, rfl, r3.alike.same⟩
      | ok _ =>
        obtain ⟨a1, a2, a3⟩ := C88_add_missing env hk _ _ r3.custom r3.alike.same true false true
        simp only [a1, a2]
        cases (addMissing env (Sofar.removeAll u.remove (Sofar.moveAll u.move p).obj).obj true false true).out with
        | error e => exact ⟨rfl, rfl, a3⟩
        | ok _ =>
          obtain ⟨v1, v2, v3⟩ := hver (p := { (addMissing env (Sofar.removeAll u.remove (Sofar.moveAll u.move p).obj).obj true false true).obj with prot := true })
            (p' := { (addMissing env (Sofar.removeAll u.remove (Sofar.moveAll u.move p').obj).obj true false true).obj with prot := true })
            ⟨a3.attrs, a3.custom⟩
          simp only [v1, v2]
          exact ⟨trivial, trivial, v3⟩
  unfold upgradeConvention
  rcases sameData_reset (env := env) h with ⟨x, h1, h2⟩ | ⟨o1, o1', h1, h2, ha⟩
  · rw [h1, h2]
    exact ⟨rfl, rfl, h⟩
  · have hcust : ∀ c, o1.custom = some c → py% "protected" ∉ c.map Prod.fst := by
      obtain ⟨_, _, _, conv, _, _, _, _, _, he⟩ := resetConvention_inv h1
      intro c hc1
      cases ho : o.custom with
      | none => rw [ho] at he; subst he; cases hc1
      | some c0 =>
        rw [ho] at he
        subst he
        cases hc1
        intro hm
        obtain ⟨p, hp, hpk⟩ := List.mem_map.1 hm
        exact hc c0 ho (List.mem_map.2 ⟨p, (List.mem_filter.1 hp).1, hpk⟩)
    rw [h1, h2]
    simp only
    rw [sameData_getAttr ha.same (k := py% "GLOBAL_SOFAConventions") (Or.inl (by decide)),
      sameData_getAttr ha.same (k := py% "GLOBAL_SOFAConventionsVersion") (Or.inl (by decide)),
      sameData_getAttr ha.same (k := py% "GLOBAL_Version") (Or.inl (by decide))]
    cases o1.getAttr (py% "GLOBAL_SOFAConventions") with
    | error e => exact ⟨rfl, rfl, ha.same⟩
    | ok cv =>
    cases o1.getAttr (py% "GLOBAL_SOFAConventionsVersion") with
    | error e => exact ⟨rfl, rfl, ha.same⟩
    | ok v =>
    cases o1.getAttr (py% "GLOBAL_Version") with
    | error e => exact ⟨rfl, rfl, ha.same⟩
    | ok sv =>
      simp only
      split
      · cases hup : Dict.get? env.upgrade (pyStr env cv) with
        | none => exact ⟨rfl, rfl, ha.same⟩
        | some up =>
          simp only
          cases up.fromTo.find? (fun ft => versionIn v ft.1) with
          | none => exact ⟨rfl, rfl, ha.same⟩
          | some q =>
            obtain ⟨_, targets, tid⟩ := q
            cases target with
            | none =>
              simp only
              cases targetsText targets with
              | error e => exact ⟨rfl, rfl, ha.same⟩
              | ok s => exact ⟨rfl, rfl, ha.same⟩
            | some t =>
              simp only
              split
              · cases hid : Dict.get? up.defs tid with
                | none => exact ⟨rfl, rfl, ha.same⟩
                | some u =>
                  have hpl := hu _ _ _ _ hup hid
                  simp only
                  unfold upgradeTo
                  split
                  · rename_i ct vt _
                    cases loadConvention env ct (.exact vt) with
                    | error e => exact ⟨rfl, rfl, ha.same⟩
                    | ok conv =>
                      simp only
                      cases Dict.get? conv (py% "GLOBAL_Version") with
                      | none => exact ⟨rfl, rfl, ha.same.attrs, ha.same.custom⟩
                      | some e =>
                        simp only
                        obtain ⟨t1, t2⟩ := Open.putTarget targetKeys (by decide)
                          (o := { o1 with conv := conv, prot := false }) (o' := { o1' with conv := conv, prot := false })
                          ⟨⟨ha.attrs, ha.custom, rfl⟩, rfl, rfl, hcust⟩
                        rw [t1]
                        cases (Sofar.putTarget targetKeys { o1 with conv := conv, prot := false }).1 with
                        | error x => exact ⟨rfl, rfl, t2.alike.same⟩
                        | ok _ =>
                          obtain ⟨d1, d2, d3⟩ := hdata t2 hpl
                          simp only [d1, d2]
                          exact ⟨trivial, trivial, d3⟩
                  · exact ⟨rfl, rfl, ha.same⟩
              · cases targetsText targets with
                | error e => exact ⟨rfl, rfl, ha.same⟩
                | ok s => exact ⟨rfl, rfl, ha.same⟩
      · exact ⟨rfl, rfl, ha.same⟩

example : (∀ f ∈ exEnvUp.files, py% "protected" ∉ f.content.map Prod.fst) ∧ Spec.PlainUpgrades exEnvUp ∧
    exOutdated.custom = none ∧ Spec.SameData exOutdated { exOutdated with prot := false, conv := [] } ∧
    (upgradeConvention exEnvUp exOutdated (some (py% "FIR_1.0")) .no).out = .ok none := by
  refine ⟨by decide +kernel, ?_, by decide +kernel, ⟨rfl, rfl⟩, by decide +kernel⟩
  intro c up id u h1 h2
  obtain ⟨p, hp⟩ : ∃ p, p ∈ exEnvUp.upgrade ∧ p = (c, up) := ⟨_, Dict.mem_of_get? h1, rfl⟩
  have h3 : (id, u) ∈ up.defs := Dict.mem_of_get? h2
  have h4 : ∀ p ∈ exEnvUp.upgrade, ∀ d ∈ p.2.defs,
      (∀ q ∈ d.2.move, (Spec.sofarName q.1).head? ≠ some '_' ∧ Spec.sofarName q.2.target ≠ py% "protected") ∧
      ∀ t ∈ d.2.remove, (Spec.sofarName t).head? ≠ some '_' := by decide +kernel
  obtain ⟨h5, h6⟩ := h4 p hp.1 (id, u) (by rw [hp.2]; exact h3)
  exact ⟨fun s m hm => h5 (s, m) hm, h6⟩

end Sofar
