import Verif.Lemmas.Paths
import Verif.Props.SecondTrip
import Verif.Lemmas.Trips2
import Verif.Lemmas.Checkers
/-!
# C73: files that were written can be read with verification, any number of times
-/
namespace Sofar

/-- `x` was read from a file that was written before -/
structure Reread (env : Env) (nc : Nc) (c v : Str) (x : Obj) : Prop where
  trip : ∃ fs filename o compression arg verbose, (writeSofa env nc fs filename o compression).out = .ok () ∧
    Spec.Portable env nc (writeSofa env nc fs filename o compression).obj ∧
    Spec.HasText o (py% "GLOBAL_SOFAConventions") c ∧ Spec.HasText o (py% "GLOBAL_SOFAConventionsVersion") v ∧
    (readSofa env nc (writeSofa env nc fs filename o compression).fs filename arg verbose).out = .ok x

theorem Reread.again {env : Env} {nc : Nc} {c v : Str} {x : Obj} (h : Reread env nc c v x) (hc : Spec.Supported env c v) :
    (∀ mode, (verify env x .raise mode).out = .ok none) ∧ (x.attrs.map Prod.fst).Nodup ∧
      Spec.HasText x (py% "GLOBAL_SOFAConventions") c ∧ Spec.HasText x (py% "GLOBAL_SOFAConventionsVersion") v ∧
      Spec.Portable env nc (verify env x .raise .write).obj := by
  obtain ⟨fs, filename, o, compression, arg, verbose, hw, hp, h1, h2, hr⟩ := h.trip
  obtain ⟨new, hnew, hd⟩ := hc.create arg
  obtain ⟨path, f, c', v', new', o0, hR⟩ := readSofa_ok hr
  obtain ⟨o1, api, ds, r, hV, hrr, hres, hra, hc2, hv2⟩ := resembles_of_read hw hp.storable hp.exchangeable h1 h2 hnew hd hR
  have hver := hres.verified hV hp.storable hp.repeatable hp.exchangeable h1 h2 hrr hra hc2 hv2
  obtain ⟨_, _, _, _, ⟨hnd, _⟩, _⟩ := round_trip hw hp.storable h1 h2 hnew hd hr
  refine ⟨hver, hnd, hc2, hv2, ?_⟩
  obtain ⟨r', api', ds', hV'⟩ := verify_ok (hver .write)
  have hreset := hV'.reset
  rw [hrr] at hreset
  cases hreset
  exact (hres.same (by rw [hV'.attrs.1, hra]) hV'.attrs.2.2.1 hV'.attrs.2.2.2).portable hV hp

/-- C73, reading: if an object was written that can be stored without loss, then the file can be read with or without
verification (and with any other argument), and the object that is read passes the verification for reading and for
writing. -/
theorem C73_readable_partial (env : Env) (nc : Nc) (fs : FS) (filename : Str) (o : Obj) (compression : Nat) (c v : Str)
    (hw : (writeSofa env nc fs filename o compression).out = .ok ())
    (hp : Spec.Portable env nc (writeSofa env nc fs filename o compression).obj)
    (hc : Spec.HasText o (py% "GLOBAL_SOFAConventions") c) (hv : Spec.HasText o (py% "GLOBAL_SOFAConventionsVersion") v)
    (hsup : Spec.Supported env c v) (arg : VerifyArg) (verbose : Bool) :
    ∃ o2, (readSofa env nc (writeSofa env nc fs filename o compression).fs filename arg verbose).out = .ok o2 ∧
      ∀ mode, (verify env o2 .raise mode).out = .ok none := by
  obtain ⟨new, hnew, hd⟩ := hsup.create arg
  obtain ⟨pv, hpv⟩ := hsup.parse
  obtain ⟨o2, h2⟩ := read_total (verbose := verbose) hw hp.storable hp.repeatable hp.exchangeable hc hv hnew hd (parseVersion_iff.2 hpv)
  exact ⟨o2, h2, (Reread.again ⟨fs, filename, o, compression, arg, verbose, hw, hp, hc, hv, h2⟩ hsup).1⟩

/-- C73, any number of times: the object that was read can be written to any file that can be opened and read from this
file, and so on; none of these steps fails, and none of them changes any data. -/
theorem C73_any_number_partial (env : Env) (nc : Nc) (fs : FS) (filename : Str) (o : Obj) (compression : Nat) (c v : Str)
    (arg : VerifyArg) (verbose : Bool) (o2 o3 : Obj)
    (hw : (writeSofa env nc fs filename o compression).out = .ok ())
    (hp : Spec.Portable env nc (writeSofa env nc fs filename o compression).obj)
    (hc : Spec.HasText o (py% "GLOBAL_SOFAConventions") c) (hv : Spec.HasText o (py% "GLOBAL_SOFAConventionsVersion") v)
    (hsup : Spec.Supported env c v)
    (hr : (readSofa env nc (writeSofa env nc fs filename o compression).fs filename arg verbose).out = .ok o2)
    (ht : Spec.Trips env nc o2 o3) :
    (∀ k, Dict.get? o3.attrs k = Dict.get? o2.attrs k) ∧
      ∀ fs3 filename3 path compression3 arg3 verbose3, Spec.FileFor filename3 path → fs3.canWrite path = true →
        compression3 ≤ 9 → (writeSofa env nc fs3 filename3 o3 compression3).out = .ok () ∧
          ∃ o4, (readSofa env nc (writeSofa env nc fs3 filename3 o3 compression3).fs filename3 arg3 verbose3).out = .ok o4 ∧
            Spec.Trips env nc o2 o4 := by
  simp only [← withSuffix_iff] at *
  have hstep : ∀ {x : Obj} {fs3 : FS} {filename3 : Str} {compression3 : Nat}, Reread env nc c v x →
      (writeSofa env nc fs3 filename3 x compression3).out = .ok () →
      Spec.Portable env nc (writeSofa env nc fs3 filename3 x compression3).obj ∧
        Spec.HasText x (py% "GLOBAL_SOFAConventions") c ∧ Spec.HasText x (py% "GLOBAL_SOFAConventionsVersion") v := by
    intro x fs3 filename3 compression3 hx hwx
    obtain ⟨_, _, g1, g2, g3⟩ := hx.again hsup
    obtain ⟨_, _, _, _, _, _, _, _, _, hobj⟩ := writeSofa_ok hwx
    exact ⟨hobj ▸ g3, g1, g2⟩
  have hall : ∀ {a b : Obj}, Spec.Trips env nc a b → Reread env nc c v a →
      Reread env nc c v b ∧ ∀ k, Dict.get? b.attrs k = Dict.get? a.attrs k := by
    intro a b hab
    induction hab with
    | none o => exact fun h => ⟨h, fun _ => rfl⟩
    | more fs' filename' compression' arg' verbose' a a' a'' hwa hra _ ih =>
      intro h
      obtain ⟨g1, g2, g3⟩ := hstep h hwa
      obtain ⟨i1, i2⟩ := ih ⟨fs', filename', a, compression', arg', verbose', hwa, g1, g2, g3, hra⟩
      refine ⟨i1, fun k => ?_⟩
      obtain ⟨fs0, filename0, o0, compression0, arg0, verbose0, q1, q2, q3, q4, q5⟩ := h.trip
      obtain ⟨new, hnew, hd⟩ := hsup.create arg0
      obtain ⟨new', hnew', hd'⟩ := hsup.create arg'
      rw [i2 k]
      exact (C72_second_trip env nc fs0 fs' filename0 filename' o0 compression0 compression' c v arg0 arg' verbose0 verbose'
        new new' a a' q1 q2.storable q2.repeatable q3 q4 hnew hd hnew' hd' q5 hwa hra k).1
  obtain ⟨h3, hk⟩ := hall ht ⟨fs, filename, o, compression, arg, verbose, hw, hp, hc, hv, hr⟩
  refine ⟨hk, fun fs3 filename3 path compression3 arg3 verbose3 hpath hfs hcomp => ?_⟩
  obtain ⟨g1, g2, g3, g4, g5⟩ := h3.again hsup
  obtain ⟨newl, l, pl, l1, l2, l3⟩ := hsup.latest
  obtain ⟨pv, hpv⟩ := hsup.parse
  have hw3 := C36_writable_partial env nc fs3 filename3 path o3 compression3 c v l newl none pv pl (withSuffix_iff.1 hpath) hfs hcomp (g1 .write) g2
    g5.storable g5.accepted g5.ascii g3 g4 l1 l2 hpv l3
  obtain ⟨p1, _⟩ := hstep h3 hw3
  obtain ⟨o4, h4, _⟩ := C73_readable_partial env nc fs3 filename3 o3 compression3 c v hw3 p1 g3 g4 hsup arg3 verbose3
  refine ⟨hw3, o4, h4, ?_⟩
  have trans : ∀ {a b d : Obj}, Spec.Trips env nc a b → Spec.Trips env nc b d → Spec.Trips env nc a d := by
    intro a b d hab
    induction hab with
    | none o => exact id
    | more fs' filename' compression' arg' verbose' a a' a'' hwa hra _ ih =>
      exact fun h => .more fs' filename' compression' arg' verbose' a a' d hwa hra (ih h)
  exact trans ht (.more fs3 filename3 compression3 arg3 verbose3 o3 o4 o4 hw3 h4 (.none o4))

/-! ## An object with custom data -/

theorem exAccepted {o : Obj} (hkeys : ∀ k ∈ o.attrs.map Prod.fst,
      k ≠ [] ∧ '/' ∉ k ∧ ¬ (py% "_") <:+ k ∧ ¬ (py% "_dimensions") <:+ k ∧ ¬ (py% "__FillValue") <:+ k)
    (hdims : ∀ p ∈ o.conv, ∀ c ∈ p.2.dims.getD [], Str.upperC c ≠ '/') : Spec.AcceptedNames exNc o := by
  refine ⟨⟨by decide, by decide, by decide, ?_⟩, ?_, ?_⟩
  · intro k e d alt c he hd ha hc
    have := hdims _ (Dict.mem_of_get? he) c (by rw [hd]; exact mem_alternative ha hc)
    simp only [exNc, Bool.and_eq_true, decide_eq_true_eq, List.mem_singleton]
    exact ⟨by simp, fun h => this h.symm⟩
  · intro k v e hv n hn
    obtain ⟨h1, h2, _⟩ := hkeys k (mem_keys_of_get hv.1)
    simp only [exNc, Bool.and_eq_true, decide_eq_true_eq]
    constructor
    · rintro rfl
      exact h1 (by rw [← hn]; rfl)
    · intro hm
      refine h2 ?_
      rw [← hn]
      exact List.mem_map.2 ⟨'/', hm, rfl⟩
  · intro k v hv x a hk
    obtain ⟨h1, h2, h3, h4, h5⟩ := hkeys k (mem_keys_of_get hv.1)
    subst hk
    simp only [exNc, Bool.and_eq_true, decide_eq_true_eq, beq_eq_false_iff_ne, ne_eq]
    refine ⟨⟨?_, ?_⟩, ?_, ?_⟩
    · rintro rfl; exact h3 ⟨x, rfl⟩
    · intro hm; exact h2 (by simp [hm])
    · rintro rfl; exact h4 ⟨x, rfl⟩
    · rintro rfl; exact h5 ⟨x, rfl⟩

theorem exAscii {o : Obj} (h : ∀ p ∈ o.attrs, ∀ e ∈ Spec.elems p.2, ∀ c ∈ charText e, c.toNat < 128) : Spec.AsciiOnly o := by
  intro k v e hv _ s hs c hc
  exact h (k, v) (Dict.mem_of_get? hv.1) (.str s) hs c (by
    have : s ≠ [] := List.ne_nil_of_mem hc
    simpa [charText, this] using hc)

/-- dimensions with one alternative, or without lower case letters, are steady -/
theorem exSteady {d : Str} (h : ',' ∉ d ∨ ∀ c ∈ d, Str.isLowerC c = false) : Spec.SteadyDims d := by
  intro first alt i x hf ha hi hl
  rcases h with h | h
  · have f1 := first_is_alternative hf
    rw [(alternatives_single h).1] at f1 ha
    subst f1
    subst ha
    exact ⟨x, hi, rfl⟩
  · rw [h x (mem_alternative (first_is_alternative hf) (List.mem_of_getElem? hi))] at hl
    simp at hl

theorem exCustomized_portable : Spec.Portable exEnv exNc (writeSofa exEnv exNc exDisk (py% "a") exCustomized 4).obj := by
  refine ⟨exCustomized_stored, exCustomized_repeatable, ?_, exAccepted (by decide +kernel) (by decide +kernel),
    exAscii (by decide +kernel)⟩
  have h1 : ∀ p ∈ (writeSofa exEnv exNc exDisk (py% "a") exCustomized 4).obj.conv,
      p.2.dims ≠ none → p.2.typ ≠ py% "attribute" := by decide +kernel
  have h2 : ∀ p ∈ (writeSofa exEnv exNc exDisk (py% "a") exCustomized 4).obj.conv,
      ',' ∉ p.2.dims.getD [] ∨ ∀ c ∈ p.2.dims.getD [], Str.isLowerC c = false := by decide +kernel
  have h3 : ∀ p ∈ (writeSofa exEnv exNc exDisk (py% "a") exCustomized 4).obj.custom.getD [],
      p.1 ∈ (writeSofa exEnv exNc exDisk (py% "a") exCustomized 4).obj.attrs.map Prod.fst ∧
        p.2.dims.getD [] = (p.2.dims.getD []).map
          (fun c => if Str.upperC c ∈ py% "ERMNCIS" then Str.upperC c else Str.lowerC c) := by decide +kernel
  have h4 : ∀ r ∈ exEnv.rules, ∀ sp ∈ r.2.specific, ∀ t ∈ sp, ∀ i ∈ t.2,
      (match i with | .dims l => decide (∀ x ∈ l, x.1 ≠ py% "S") | _ => true) = true := by decide +kernel
  refine ⟨checkableB_sound (by decide +kernel), regularRulesB_sound (by decide +kernel), ?_, ?_, ?_, ?_⟩
  · intro k e d he hd
    exact h1 _ (Dict.mem_of_get? he) (by rw [hd]; simp)
  · intro k v e d hk hd
    have := h2 _ (Dict.mem_of_get? hk.2.1)
    rw [hd] at this
    exact exSteady this
  · intro c k e hc hm
    have := h3 (k, e) (by rw [hc]; exact hm)
    refine ⟨this.1, fun d hd => ?_⟩
    have h := this.2
    rw [hd] at h
    exact h
  · intro key rule sp t items l d hm hs ht hi hd
    have := h4 _ hm sp hs _ (Dict.mem_of_get? ht) _ hi
    obtain ⟨x, x1, rfl⟩ := List.mem_map.1 hd
    exact of_decide_eq_true this x x1

/-- the object that `read_sofa` starts with by default -/
def exNewAuto : Obj := ((initSofa exEnv (py% "FIR") false (.exact (py% "1.0")) .auto).out.toOption).getD exSofa

theorem exSupported : Spec.Supported exEnv (py% "FIR") (py% "1.0") := by
  refine ⟨?_, ⟨exSofa, py% "1.0", [1, 0], by decide +kernel, ⟨.str (py% "1.0"), by decide +kernel, rfl⟩,
    parseVersion_iff.1 (by decide +kernel)⟩, ⟨[1, 0], parseVersion_iff.1 (by decide +kernel)⟩⟩
  intro arg
  cases arg with
  | no => exact ⟨_, exNew_ok⟩
  | yes => exact ⟨_, exNewVerified_ok⟩
  | auto =>
    refine ⟨exNewAuto, by decide +kernel, ⟨.str (py% "FIR"), by decide +kernel, rfl⟩,
      ⟨.str (py% "1.0"), by decide +kernel, rfl⟩, ?_⟩
    have : ∀ k ∈ exNewAuto.attrs.map Prod.fst, k ∈ exNewAuto.conv.map Prod.fst := by decide +kernel
    exact this

/-- the object with custom data can be read with verification -/
example : ∃ o2, (readSofa exEnv exNc (writeSofa exEnv exNc exDisk (py% "a") exCustomized 4).fs (py% "a") .yes true).out = .ok o2 ∧
    ∀ mode, (verify exEnv o2 .raise mode).out = .ok none :=
  C73_readable_partial exEnv exNc exDisk (py% "a") exCustomized 4 (py% "FIR") (py% "1.0") (by decide +kernel)
    exCustomized_portable ⟨.str (py% "FIR"), by decide +kernel, rfl⟩ ⟨.str (py% "1.0"), by decide +kernel, rfl⟩ exSupported .yes true

/-- two further round trips with different files, compression and arguments do not change it any more -/
example : ∃ o3 o4, (writeSofa exEnv exNc exDisk (py% "b") exFirst 0).out = .ok () ∧
    (readSofa exEnv exNc (writeSofa exEnv exNc exDisk (py% "b") exFirst 0).fs (py% "b") .auto false).out = .ok o3 ∧
    (writeSofa exEnv exNc exDisk (py% "a.sofa") o3 9).out = .ok () ∧
    (readSofa exEnv exNc (writeSofa exEnv exNc exDisk (py% "a.sofa") o3 9).fs (py% "a.sofa") .yes true).out = .ok o4 ∧
    ∀ k, Dict.get? o4.attrs k = Dict.get? exFirst.attrs k := by
  have hfirst := C73_any_number_partial exEnv exNc exDisk (py% "a") exCustomized 4 (py% "FIR") (py% "1.0") .no true exFirst
  have hw : (writeSofa exEnv exNc exDisk (py% "a") exCustomized 4).out = .ok () := by decide +kernel
  have hr : (readSofa exEnv exNc (writeSofa exEnv exNc exDisk (py% "a") exCustomized 4).fs (py% "a") .no true).out =
    .ok exFirst := by decide +kernel
  have hall := fun o3 => hfirst o3 hw exCustomized_portable ⟨.str (py% "FIR"), by decide +kernel, rfl⟩
    ⟨.str (py% "1.0"), by decide +kernel, rfl⟩ exSupported hr
  obtain ⟨w1, o3, r1, t1⟩ := (hall exFirst (.none _)).2 exDisk (py% "b") (py% "b.sofa") 0 .auto false (by decide +kernel)
    (by decide +kernel) (by decide)
  obtain ⟨w2, o4, r2, t2⟩ := (hall o3 t1).2 exDisk (py% "a.sofa") (py% "a.sofa") 9 .yes true (by decide +kernel)
    (by decide +kernel) (by decide)
  exact ⟨o3, o4, w1, r1, w2, r2, (hall o4 t2).1⟩

/-- exSofa with a custom variable that has a dot in its name -/
def exDotted : Obj :=
  (addVariable exSofa (py% "Foo.Bar") (.val (.arr (exNums .f [1] [1]))) (py% "double") (some (py% "I"))).obj

/-- C73 is false: a custom variable with a dot in its name passes the verification and can be written, but the file can not
be read with the default arguments of `read_sofa` because the name then contains an underscore. -/
theorem C73_refuted : ∃ (env : Env) (nc : Nc) (fs : FS) (filename : Str) (o : Obj),
    (verify env o .raise .write).out = .ok none ∧ (verify env o .raise .read).out = .ok none ∧
    (writeSofa env nc fs filename o 4).out = .ok () ∧
    (readSofa env nc (writeSofa env nc fs filename o 4).fs filename .auto true).out =
      .error (.valueError (py% "The SOFA object could not be verified")) ∧
    (readSofa env nc (writeSofa env nc fs filename o 4).fs filename .no true).out.toOption.isSome = true :=
  ⟨exEnv, exNc, exDisk, py% "a", exDotted, by decide +kernel, by decide +kernel, by decide +kernel, by decide +kernel,
    by decide +kernel⟩

end Sofar
