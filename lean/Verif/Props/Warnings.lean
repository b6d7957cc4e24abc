import Verif.Lemmas.Paths
import Verif.Lemmas.Warnings
import Verif.Props.Files
import Verif.Props.RoundTrip
/-!
# C74: warnings about versions
-/
namespace Sofar

theorem sofarName_protected {k : Str} (h : Spec.sofarName k = py% "protected") : k = py% "protected" := by
  have key : ∀ (k t : Str), '_' ∉ t → Spec.sofarName k = t → k = t := by
    intro k
    induction k with
    | nil => intro t _ h; exact h
    | cons c k ih =>
      intro t ht h
      cases t with
      | nil => simp [Spec.sofarName] at h
      | cons d t =>
        unfold Spec.sofarName at h ih
        simp only [List.map_cons, List.cons.injEq] at h
        simp only [List.mem_cons, not_or] at ht
        have h2 := ih t ht.2 h.2
        have h1 := h.1
        split at h1
        · exact absurd h1 ht.1
        · rw [h1, h2]
  exact key _ _ (by decide) h

theorem unprotected_of_files {env : Env} (hk : ∀ f ∈ env.files, py% "protected" ∉ f.content.map Prod.fst) {c : Str}
    {ver : VersionArg} (conv : Dict Entry) (h : loadConvention env c ver = .ok conv) :
    py% "protected" ∉ conv.map Prod.fst := by
  obtain ⟨f, hf, h1, _⟩ := C16_names env c ver conv h
  intro hm
  obtain ⟨⟨k, e⟩, hp, hpk⟩ := List.mem_map.1 hm
  simp only at hpk
  subst hpk
  obtain ⟨_, _, k0, hk0, he⟩ := h1 _ _ hp
  rw [sofarName_protected he.symm] at hk0
  exact hk f hf (List.mem_map_of_mem hk0)

/-- C74: if verification of an object of a preliminary version succeeds, there is a warning about this version, for
reading and for writing. -/
theorem C74_verify (env : Env) (o : Obj) (mode : Mode) (r : Option Str) (v : Str)
    (h : (verify env o .raise mode).out = .ok r) (hv : Spec.HasText o (py% "GLOBAL_SOFAConventionsVersion") v)
    (hp : Spec.Preliminary v) : Spec.WarnsPreliminary (verify env o .raise mode).ev v :=
  verifyG_warns h hv hp

/-- C74: creating an object of a preliminary version warns about the version, whether or not the object is verified
and whether or not it contains only mandatory data. -/
theorem C74_new_object (env : Env) (hk : ∀ f ∈ env.files, py% "protected" ∉ f.content.map Prod.fst) (c : Str) (m : Bool)
    (ver : VersionArg) (a : VerifyArg) (o : Obj) (v : Str) (h : (initSofa env c m ver a).out = .ok o)
    (hv : Spec.HasText o (py% "GLOBAL_SOFAConventionsVersion") v) (hp : Spec.Preliminary v) :
    Spec.WarnsPreliminary (initSofa env c m ver a).ev v :=
  initSofa_warns h (fun conv hl => unprotected_of_files hk conv hl) hv hp

/-- C74: reading a file of a preliminary version warns about the version. -/
theorem C74_read (env : Env) (hk : ∀ f ∈ env.files, py% "protected" ∉ f.content.map Prod.fst) (nc : Nc) (fs : FS)
    (filename path : Str) (arg : VerifyArg) (verbose : Bool) (o new : Obj) (f : NcFile) (c v : Str)
    (h : (readSofa env nc fs filename arg verbose).out = .ok o) (hloc : Spec.FileFor filename path)
    (hfile : Dict.get? fs.files path = some (.nc f))
    (hc : ∃ w, Dict.get? f.attrs (py% "SOFAConventions") = some w ∧ Spec.text w = some c)
    (hv : ∃ w, Dict.get? f.attrs (py% "SOFAConventionsVersion") = some w ∧ Spec.text w = some v)
    (hnew : (initSofa env c false (.exact v) arg).out = .ok new)
    (hs : Spec.HasText new (py% "GLOBAL_SOFAConventionsVersion") v) (hp : Spec.Preliminary v) :
    Spec.WarnsPreliminary (readSofa env nc fs filename arg verbose).ev v := by
  simp only [← withSuffix_iff] at *
  obtain ⟨t, ht, hi⟩ := C74_new_object env hk c false (.exact v) arg new v hnew hs hp
  refine ⟨t, ?_, hi⟩
  obtain ⟨wc, hwc, htc⟩ := hc
  obtain ⟨wv, hwv, htv⟩ := hv
  revert h
  unfold readSofa openFile fileAttr
  simp only [hloc, hfile, hwc, hwv, asStr_text, htc, htv, hnew]
  cases hk : verifyConvention env v c with
  | error x => simp
  | ok u =>
    simp only
    cases hr : (loadFile nc f new verbose).out with
    | error x => simp
    | ok o' =>
      intro _
      simp only
      exact List.mem_append_left _ (List.mem_append_left _ ht)

theorem parseVersion_simple {v : Str} {m d : Nat} (h : Spec.SimpleVersion v m d) : parseVersion v = .ok [m, d] := by
  obtain ⟨a, c, rfl, h1, h2⟩ := h
  have ha : a ≠ [] := by rintro rfl; simp [Str.digits?] at h1
  have h1' := h1
  unfold Str.digits? at h1'
  rw [if_neg (by simpa using ha)] at h1'
  have hc : c ≠ '.' := by rintro rfl; simp [Str.digit?] at h2
  have h3 : Str.splitChar '.' (a ++ ['.', c]) = [a, [c]] := by
    rw [splitChar_append (digitsGo_dot 0 a m h1'), splitChar_not_mem (by simpa using Ne.symm hc)]
  unfold parseVersion
  rw [h3]
  have h4 : Str.digits? [c] = some d := by simp [Str.digits?, Str.digitsGo, h2]
  simp [List.mapM_cons, h1, h4]

theorem stable_simple {v : Str} {m d : Nat} (h : Spec.SimpleVersion v m d) (hm : 1 ≤ m) :
    isStable v = .ok true ∧ ∃ q, pyFloat v = some q ∧ ¬ q < 1 := by
  constructor
  · unfold isStable
    rw [parseVersion_simple h]
    simp [versionLt]
    omega
  · refine ⟨_, (pyFloat_simple h).1, ?_⟩
    rw [Rat.div_lt_iff (by decide)]
    intro hlt
    have h10 : m * 10 + d < 10 := by
      have : ((m * 10 + d : Nat) : Rat) < ((10 : Nat) : Rat) := by simpa using hlt
      exact_mod_cast this
    omega

/-- C74: creating an object of a version 1.0 or higher without verification does not warn. -/
theorem C74_stable_new (env : Env) (hk : ∀ f ∈ env.files, py% "protected" ∉ f.content.map Prod.fst) (c : Str) (m : Bool)
    (ver : VersionArg) (o : Obj) (v : Str) (major minor : Nat) (h : (initSofa env c m ver .no).out = .ok o)
    (hv : Spec.HasText o (py% "GLOBAL_SOFAConventionsVersion") v) (hs : Spec.SimpleVersion v major minor)
    (hm : 1 ≤ major) : (initSofa env c m ver .no).ev = [] := by
  obtain ⟨conv, o0, hl, hs', _⟩ := initSofa_ok h
  have hu := initSofa_version h hl (unprotected_of_files hk conv hl) hv
  revert h
  unfold initSofa
  simp only [hl, hs']
  cases hcv : conventionVersion conv with
  | error x => simp
  | ok u =>
    have := hu u hcv
    subst this
    intro _
    simp only [finishInit, Bool.false_and, Bool.false_eq_true, if_false, (stable_simple hs hm).1]

/-- C74: verification of an object of a version 1.0 or higher that can be written and has no custom data does not
warn. -/
theorem C74_stable_verify (env : Env) (o : Obj) (r : Option Str) (v : Str) (major minor : Nat)
    (h : (verify env o .raise .write).out = .ok r) (hv : Spec.HasText o (py% "GLOBAL_SOFAConventionsVersion") v)
    (hs : Spec.SimpleVersion v major minor) (hm : 1 ≤ major) (hc : o.custom = none) :
    (verify env o .raise .write).ev = [] :=
  verifyG_silent h hv (stable_simple hs hm).2 hc

theorem latest_version {env : Env} {c : Str} {n : Obj} {l : Val} {conv : Dict Entry} {f : ConvFile} {w : Str}
    (hk : py% "protected" ∉ conv.map Prod.fst) (hl : loadConvention env c .latest = .ok conv)
    (hc : conv = convertKeys f.content) (hs : Spec.States f.content w)
    (hn : (initSofa env c false .latest .auto).out = .ok n)
    (hv : n.getAttr (py% "GLOBAL_SOFAConventionsVersion") = .ok l) : l = .str w := by
  have hg := getAttr_data (by decide) (by decide) hv
  obtain ⟨d, hdf, hnd, hd⟩ := initSofa_data hn hl hk
  rw [hd, get?_foldl_stamps _ _ _ (by rw [stamps_names]; decide)] at hg
  obtain ⟨_, e, he, hdo, _⟩ := hdf.values _ l (Dict.mem_of_get? hg)
  have he2 := Dict.get?_of_mem (loadConvention_nodup hl) he
  rw [hc] at he2
  obtain ⟨k0, hk0, hkn⟩ := convertKeys_get he2
  have := hs k0 e hk0 hkn.symm
  simp only [Spec.DefaultOf, this] at hdo
  exact hdo

/-- C74: writing an object warns about an outdated version if and only if there is a file of the convention with a
higher version. Missing: versions that are not of the form `major.minor` with a single digit after the dot, see
`C74_refuted`. -/
theorem C74_outdated_partial (env : Env) (hk : ∀ f ∈ env.files, py% "protected" ∉ f.content.map Prod.fst)
    (hf : ∀ f ∈ env.files, ∃ n w, Spec.FileOf f.base n w) (nc : Nc) (fs : FS) (filename : Str) (o : Obj) (z : Nat)
    (c v : Str) (hc : Spec.HasText o (py% "GLOBAL_SOFAConventions") c) (hci : c ≠ py% "invalid-value") (hcu : '_' ∉ c)
    (hv : Spec.HasText o (py% "GLOBAL_SOFAConventionsVersion") v)
    (hs : ∀ f ∈ env.files, ∀ w, Spec.FileOf f.base c w → Spec.States f.content w ∧ ∃ m d, Spec.SimpleVersion w m d)
    (h : (writeSofa env nc fs filename o z).out = .ok ()) :
    ∃ mv dv, Spec.SimpleVersion v mv dv ∧
      (Event.warn (Spec.outdatedNotice v) ∈ (writeSofa env nc fs filename o z).ev ↔
        ∃ f ∈ env.files, ∃ w m d, Spec.FileOf f.base c w ∧ Spec.SimpleVersion w m d ∧
          Spec.VersionLt [mv, dv] [m, d]) := by
  obtain ⟨n, l, pv, pl, h1, h2, ⟨lt, h3, h4⟩, h5, h6⟩ := write_outdated h hc hci hv
  obtain ⟨_, _, _, _, _, r, _, _, hr, _⟩ := writeSofa_ok h
  have hex : ∃ conv, loadConvention env c (.exact v) = .ok conv := by
    obtain ⟨o1, _, _, hV⟩ := verify_ok hr
    obtain ⟨cv, c', vv, conv, r1, r2, r3, _, r5, _⟩ := resetConvention_inv hV.reset
    obtain ⟨wc, hwc, htc⟩ := hc
    obtain ⟨wv, hwv, htv⟩ := hv
    rw [getAttr_of_get hwc] at r1
    rw [getAttr_of_get hwv] at r3
    cases r1
    cases r3
    rw [asStr_text, htc] at r2
    cases r2
    rw [pyStr_text htv] at r5
    exact ⟨_, r5⟩
  obtain ⟨g, hg, hgf⟩ := ((exact_lookup env c v hcu hf).1).1 hex
  obtain ⟨mv, dv, hmv⟩ := (hs g hg v hgf).2
  refine ⟨mv, dv, hmv, ?_⟩
  rw [h6]
  rw [parseVersion_simple hmv] at h5
  cases h5
  obtain ⟨conv, _, hl, _⟩ := initSofa_ok h1
  obtain ⟨f, hff, w, m, d, hfw, hmd, hcf, hmax⟩ :=
    latest_lookup env c hcu hf (fun f hf' w hw => (hs f hf' w hw).2) conv hl
  have hlw := latest_version (unprotected_of_files hk conv hl) hl hcf (hs f hff w hfw).1 h1 h2
  subst hlw
  cases h3
  rw [parseVersion_simple hmd] at h4
  cases h4
  constructor
  · intro hlt
    exact ⟨f, hff, _, m, d, hfw, hmd, (versionLt_iff _ _).1 hlt⟩
  · rintro ⟨g', hg', w', m', d', hfo, hsv, hlt⟩
    have := hmax g' hg' w' m' d' hfo hsv
    rw [← versionLt_iff] at this hlt
    simp [versionLt] at this hlt ⊢
    omega

/-! ## Examples -/

/-- the files of the example can be used in all theorems above -/
theorem exEnv_regular : (∀ f ∈ exEnv.files, py% "protected" ∉ f.content.map Prod.fst) ∧
    (∀ f ∈ exEnv.files, ∃ n w, Spec.FileOf f.base n w) := by
  refine ⟨by decide +kernel, ?_⟩
  intro f hf
  simp only [exEnv, List.mem_cons, List.not_mem_nil, or_false] at hf
  rcases hf with rfl | rfl
  · exact ⟨py% "FIR", py% "1.0", by decide, by decide, by decide⟩
  · exact ⟨py% "FIR", py% "0.9", by decide, by decide, by decide⟩

theorem exPreliminary_version : Spec.Preliminary (py% "0.9") := ⟨py% "9", rfl, by decide, by decide⟩

example : (verify exEnv exPreliminary .raise .write).out = .ok none ∧
    Spec.HasText exPreliminary (py% "GLOBAL_SOFAConventionsVersion") (py% "0.9") :=
  ⟨by decide +kernel, .str (py% "0.9"), by decide +kernel, rfl⟩

/-- a new object of a preliminary version -/
def exNewPreliminary (a : VerifyArg) : Obj :=
  match (initSofa exEnv (py% "FIR") false (.exact (py% "0.9")) a).out with
  | .ok o => o
  | .error _ => emptyObj []

example : ∀ a, (initSofa exEnv (py% "FIR") false (.exact (py% "0.9")) a).out = .ok (exNewPreliminary a) ∧
    Dict.get? (exNewPreliminary a).attrs (py% "GLOBAL_SOFAConventionsVersion") = some (.str (py% "0.9")) := by
  intro a
  cases a <;> decide +kernel

example : (readSofa exEnv exNc (exWritten exPreliminary) (py% "a") .auto false).out.toOption.isSome = true ∧
    (readSofa exEnv exNc (exWritten exPreliminary) (py% "a") .yes false).out.toOption.isSome = true := by
  decide +kernel

example : (writeSofa exEnv exNc exDisk (py% "a") exPreliminary 4).out = .ok () ∧
    Event.warn (Spec.outdatedNotice (py% "0.9")) ∈ (writeSofa exEnv exNc exDisk (py% "a") exPreliminary 4).ev ∧
    (writeSofa exEnv exNc exDisk (py% "a") exSofa 4).out = .ok () ∧
    Event.warn (Spec.outdatedNotice (py% "1.0")) ∉ (writeSofa exEnv exNc exDisk (py% "a") exSofa 4).ev := by
  decide +kernel

example : ∀ f ∈ exEnv.files, ∀ w, Spec.FileOf f.base (py% "FIR") w →
    Spec.States f.content w ∧ ∃ m d, Spec.SimpleVersion w m d := by
  intro f hf w hw
  have hb : fileVersion f.base = w := fileVersion_of hw
  have hst : ∀ v : Str, (∀ p ∈ exConvention v, Spec.sofarName p.1 = py% "GLOBAL_SOFAConventionsVersion" →
      p.2.default = .val (.str v)) → Spec.States (exConvention v) v := fun v h k e hk hs => h (k, e) hk hs
  simp only [exEnv, List.mem_cons, List.not_mem_nil, or_false] at hf
  rcases hf with rfl | rfl
  · have : w = py% "1.0" := by rw [← hb]; decide
    subst this
    exact ⟨hst _ (by decide +kernel), 1, 0, py% "1", '0', rfl, by decide, by decide⟩
  · have : w = py% "0.9" := by rw [← hb]; decide
    subst this
    exact ⟨hst _ (by decide +kernel), 0, 9, py% "0", '9', rfl, by decide, by decide⟩

example : (initSofa exEnv (py% "FIR") false .latest .no).out.toOption.isSome = true ∧
    (verify exEnv exSofa .raise .write).out = .ok none ∧ exSofa.custom = none ∧
    Spec.HasText exSofa (py% "GLOBAL_SOFAConventionsVersion") (py% "1.0") ∧ Spec.SimpleVersion (py% "1.0") 1 0 :=
  ⟨by decide +kernel, by decide +kernel, by decide +kernel, ⟨.str (py% "1.0"), by decide +kernel, rfl⟩,
   py% "1", '0', rfl, by decide, by decide⟩

/-- an environment with the versions 1.10 and 1.9 -/
def exEnvTen : Env := { exEnv with files := [⟨py% "FIR_1.10.json", exConvention (py% "1.10")⟩,
  ⟨py% "FIR_1.9.json", exConvention (py% "1.9")⟩] }

/-- an object of version 1.9 -/
def exNine : Obj := exPut exSofa (py% "GLOBAL_SOFAConventionsVersion") (.str (py% "1.9"))

/-- C74 is false: an object of version 1.9 is written without a warning although there is version 1.10. -/
theorem C74_refuted : ∃ (env : Env) (nc : Nc) (fs : FS) (filename : Str) (o : Obj) (f : ConvFile) (a b : List Nat),
    (writeSofa env nc fs filename o 4).out = .ok () ∧ (writeSofa env nc fs filename o 4).ev = [] ∧
    Spec.HasText o (py% "GLOBAL_SOFAConventions") (py% "FIR") ∧
    Spec.HasText o (py% "GLOBAL_SOFAConventionsVersion") (py% "1.9") ∧ Spec.VersionNumbers (py% "1.9") a ∧
    f ∈ env.files ∧ Spec.FileOf f.base (py% "FIR") (py% "1.10") ∧ Spec.VersionNumbers (py% "1.10") b ∧
    Spec.VersionLt a b := by
  refine ⟨exEnvTen, exNc, exDisk, py% "a", exNine, ⟨py% "FIR_1.10.json", exConvention (py% "1.10")⟩, [1, 9], [1, 10],
    by decide +kernel, by decide +kernel, ⟨.str (py% "FIR"), by decide +kernel, rfl⟩,
    ⟨.str (py% "1.9"), by decide +kernel, rfl⟩, parseVersion_iff.1 (by decide +kernel), by simp [exEnvTen],
    ⟨by decide, by decide, by decide⟩, parseVersion_iff.1 (by decide +kernel), ?_⟩
  rw [← versionLt_iff]
  decide

end Sofar
