import Verif.Props.RoundTrip
import Verif.Lemmas.SecondTrip
/-!
# C72: data that was read from a file does not change any more
-/
namespace Sofar

/-- C72, for objects that can be stored without loss: an object that was read from a file is the same after it was written
to any other file (with any compression) and read again (with or without verification). All values are identical, including their type, shape and every
number, and so are the entries of the convention and of custom data that belong to them. -/
theorem C72_second_trip (env : Env) (nc : Nc) (fs fs2 : FS) (filename filename2 : Str) (o : Obj)
    (compression compression2 : Nat) (c v : Str) (arg arg2 : VerifyArg) (verbose verbose2 : Bool)
    (new new2 o2 o3 : Obj)
    (hw : (writeSofa env nc fs filename o compression).out = .ok ())
    (hs : Spec.Storable env.rnd nc.isFill (writeSofa env nc fs filename o compression).obj)
    (hrep : Spec.Repeatable (writeSofa env nc fs filename o compression).obj)
    (hc : Spec.HasText o (py% "GLOBAL_SOFAConventions") c) (hv : Spec.HasText o (py% "GLOBAL_SOFAConventionsVersion") v)
    (hnew : (initSofa env c false (.exact v) arg).out = .ok new) (hd : Spec.DescribesItself c v new)
    (hnew2 : (initSofa env c false (.exact v) arg2).out = .ok new2) (hd2 : Spec.DescribesItself c v new2)
    (hr : (readSofa env nc (writeSofa env nc fs filename o compression).fs filename arg verbose).out = .ok o2)
    (hw2 : (writeSofa env nc fs2 filename2 o2 compression2).out = .ok ())
    (hr2 : (readSofa env nc (writeSofa env nc fs2 filename2 o2 compression2).fs filename2 arg2 verbose2).out = .ok o3) :
    ∀ k, Dict.get? o3.attrs k = Dict.get? o2.attrs k ∧
      (Spec.IsData o2 k → Dict.get? o3.conv k = Dict.get? o2.conv k ∧
        Dict.get? (o3.custom.getD []) k = Dict.get? (o2.custom.getD []) k) := by
  obtain ⟨o1, api, ds, hV, ⟨hnd2, hcn2, _⟩, hIs, htyp⟩ := round_trip hw hs hc hv hnew hd hr
  obtain ⟨hstd, _⟩ := newSofa_conv hnew hd.name hd.version
  obtain ⟨hstd2, _⟩ := newSofa_conv hnew2 hd2.name hd2.version
  have hnn : new2.conv = new.conv := by
    rw [hstd] at hstd2
    exact (Except.ok.inj hstd2).symm
  -- name and version are still the same
  have htext : ∀ k t, (py% "GLOBAL_") <+: k → Spec.HasText o k t → Spec.HasText o2 k t := by
    rintro k t hpre ⟨x, hx, ht⟩
    rw [← hV.attrs.1] at hx
    obtain ⟨w, hw⟩ := get_of_mem_keys ((hIs k).1 (mem_keys_of_get hx))
    obtain ⟨i, e, e2, rfl, rfl, hg, _⟩ := htyp k x w hx hw
    have h4 : e.typ = py% "attribute" := by
      refine Classical.byContradiction fun hne => ?_
      exact (hs.separate _ _ _ ⟨hg.value, hg.entry, hne⟩).1 hpre
    obtain ⟨t', t1, t2⟩ := hg.exact.attr h4
    rw [ht] at t1
    cases t1
    exact ⟨_, hw, by rw [t2]; rfl⟩
  have hc2 := htext _ _ (by decide) hc
  have hv2 := htext _ _ (by decide) hv
  -- the second object in memory
  obtain ⟨_, _, o1b, apib, dsb, _, hWb, _, _, _⟩ := writeSofa_ok hw2
  have hVb := hWb.verified
  have hconv : ∀ k, Spec.IsData o2 k →
      Dict.get? (writeSofa env nc fs2 filename2 o2 compression2).obj.conv k = Dict.get? o2.conv k := by
    intro k hk
    rw [hVb.attrs.2.2.1]
    obtain ⟨w, hw⟩ := get_of_mem_keys hk
    obtain ⟨x, hx⟩ := get_of_mem_keys ((hIs k).2 hk)
    obtain ⟨i, e, e2, rfl, rfl, hg, g1, g2, g3⟩ := htyp k x w hx hw
    rw [g1]
    rcases g3 with ⟨g4, rfl, g5⟩ | ⟨g4, _, g5⟩
    · exact resetConvention_std hVb.reset hc2 hv2 hstd g4
    · obtain ⟨cv, c', vv, conv', r1, r2, r3, r4, r5, r6⟩ := resetConvention_inv hVb.reset
      obtain ⟨wc, hwc, htc⟩ := hc2
      obtain ⟨wv, hwv, htv⟩ := hv2
      rw [getAttr_of_get hwc] at r1
      rw [getAttr_of_get hwv] at r3
      cases r1
      cases r3
      rw [asStr_text, htc] at r2
      cases r2
      rw [pyStr_text htv, hstd] at r5
      cases r5
      cases hcu : o2.custom with
      | none => rw [hcu] at g5; simp at g5
      | some cu =>
        rw [hcu] at r6 g5 hcn2
        subst r6
        simp only [Option.getD_some] at g5 hcn2
        rw [(get?_mergeCustom new.conv cu i.name hcn2).1, g4]
        exact g5
  have hattrs := hVb.attrs.1
  have hs2 : Spec.Storable env.rnd nc.isFill (writeSofa env nc fs2 filename2 o2 compression2).obj := by
    apply second_storable hs hrep
    · intro k
      rw [hIs]
      unfold Spec.IsData
      rw [hattrs]
    · intro k x w hx hw
      rw [hattrs] at hw
      obtain ⟨i, e, e2, rfl, rfl, hg, g1, g2, g3⟩ := htyp k x w hx hw
      refine ⟨e, e2, hg.entry, by rw [hconv _ (mem_keys_of_get hw), g1], g2, hg.same, hg.fits, hg.exact, ?_⟩
      rcases g3 with ⟨_, h, _⟩ | ⟨_, ⟨cd, hcd, h⟩, _⟩
      · exact Or.inl h
      · refine Or.inr fun hne => ?_
        rcases hcd with ⟨h', _⟩ | ⟨_, d, alt, d1, d2, _, d3⟩
        · exact absurd h' hne
        · exact ⟨d, alt, d1, d2, by rw [h, d3]; rfl⟩
  obtain ⟨o1c, apic, dsc, hVc, ⟨hnd3, hcn3, _⟩, hIs3, htyp3⟩ := round_trip hw2 hs2 hc2 hv2 hnew2 hd2 hr2
  have hdata : ∀ k, Spec.IsData o2 k ↔ Spec.IsData o3 k := by
    intro k
    rw [← hIs3]
    unfold Spec.IsData
    rw [hattrs]
  intro k
  by_cases hk : Spec.IsData o2 k
  · obtain ⟨w, hw⟩ := get_of_mem_keys hk
    obtain ⟨x, hx⟩ := get_of_mem_keys ((hIs k).2 hk)
    obtain ⟨y, hy⟩ := get_of_mem_keys ((hdata k).1 hk)
    obtain ⟨i, e, e2, rfl, rfl, hg, g1, g2, g3⟩ := htyp k x w hx hw
    obtain ⟨j, e', e3, hj, rfl, hg', g1', g2', g3'⟩ := htyp3 i.name i.value y (hattrs ▸ hw) hy
    rw [hnn] at g3'
    have he' : e' = e2 := by
      have := hg'.entry
      rw [hj, hconv _ hk, g1] at this
      cases this
      rfl
    subst he'
    have htyps : e.typ = py% "attribute" ∨ e.typ = py% "double" ∨ e.typ = py% "string" := by
      rcases hg.same with ⟨h, _⟩ | ⟨h, _⟩ | ⟨h, _⟩ <;> simp [h]
    -- dimensions
    have hdims : e.typ ≠ py% "attribute" → ∃ d d2 n, e.dims = some d ∧ e'.dims = some d2 ∧ Spec.UniformDims d n ∧
        Spec.UniformDims d2 n ∧ 1 ≤ n := by
      intro hne
      obtain ⟨_, _, d, n, s3, s4, s5, _⟩ := hs.shapes _ _ _ ⟨hg.value, hg.entry, hne⟩
      rcases g3 with ⟨_, rfl, _⟩ | ⟨_, ⟨cd, hcd, h⟩, _⟩
      · exact ⟨d, d, n, s3, s3, s4, s4, s5⟩
      · rcases hcd with ⟨h', _⟩ | ⟨_, d', alt, d1, d2, _, d3⟩
        · exact absurd h' hne
        · rw [s3] at d1
          cases d1
          obtain ⟨u1, u2⟩ := s4 alt d2
          refine ⟨d, _, n, s3, by rw [h, d3]; rfl, s4, fun a ha => ?_, s5⟩
          rw [(alternatives_single (customDims_comma u2)).1] at ha
          subst ha
          exact ⟨by rw [customDims_length, u1], customDims_comma u2⟩
    have hval : j.value = i.value := by
      by_cases hat : e.typ = py% "attribute"
      · exact exact_again (d := []) (d2 := []) (n := 0) hg.exact hg'.exact g2 htyps (fun h => absurd hat h)
      · obtain ⟨d, d2, n, h⟩ := hdims hat
        exact exact_again hg.exact hg'.exact g2 htyps (fun _ => h)
    refine ⟨by rw [hy, hw, hval], fun _ => ?_⟩
    rw [g1', g1]
    rcases g3' with ⟨b1, rfl, b3⟩ | ⟨b1, ⟨cd, hcd, h⟩, b3⟩
    · refine ⟨rfl, ?_⟩
      rcases g3 with ⟨_, _, a3⟩ | ⟨a1, _⟩
      · rw [b3, a3]
      · rw [b1] at a1; simp at a1
    · rcases g3 with ⟨a1, _⟩ | ⟨a1, ⟨cd', hcd', h'⟩, a3⟩
      · rw [b1] at a1; simp at a1
      · have : e3 = e' := by
          rw [h]
          rcases hcd with ⟨c1, rfl⟩ | ⟨c1, d, alt, c2, c3, _, rfl⟩
          · rw [h'] at c1 ⊢
            rcases hcd' with ⟨c1', rfl⟩ | ⟨c1', _⟩
            · rfl
            · exact absurd c1 c1'
          · rcases hcd' with ⟨c1', rfl⟩ | ⟨c1', d', alt', c2', c3', _, rfl⟩
            · rw [h'] at c1; exact absurd c1' c1
            · obtain ⟨_, _, d'', n, s3, s4, s5, _⟩ := hs.shapes _ _ _ ⟨hg.value, hg.entry, c1'⟩
              rw [c2'] at s3
              cases s3
              rw [h'] at c2
              simp only [customEntry, Option.some.injEq] at c2
              subst c2
              rw [(alternatives_single (customDims_comma (s4 alt' c3').2)).1] at c3
              subst c3
              rw [customDims_again, h']
              rfl
        subst this
        exact ⟨rfl, by rw [b3, a3]⟩
  · refine ⟨?_, fun h => absurd h hk⟩
    rw [(Dict.get?_eq_none_iff _ _).2 hk, (Dict.get?_eq_none_iff _ _).2 (fun h => hk ((hdata k).2 h))]

/-- the object with custom data, after one round trip -/
def exFirst : Obj :=
  ((readSofa exEnv exNc (writeSofa exEnv exNc exDisk (py% "a") exCustomized 4).fs (py% "a") .no true).out.toOption).getD exSofa

/-- the same object, written to another file without compression and read again -/
def exSecond : Obj :=
  ((readSofa exEnv exNc (writeSofa exEnv exNc exDisk (py% "b") exFirst 0).fs (py% "b") .no false).out.toOption).getD exSofa

/-- the first entry that is a variable of type string (examples only) -/
def exStrings (o : Obj) : Bool :=
  match Dict.get? o.attrs (py% "Names"), Dict.get? o.conv (py% "Names") with
  | some (.arr a), some e => decide (e.typ = py% "string") && a.data.contains (.str (py% "right"))
  | _, _ => false

theorem exCustomized_repeatable : Spec.Repeatable (writeSofa exEnv exNc exDisk (py% "a") exCustomized 4).obj := by
  have h1 : ∀ p ∈ (writeSofa exEnv exNc exDisk (py% "a") exCustomized 4).obj.conv, 's' ∉ p.2.dims.getD [] := by decide +kernel
  have h2 : exStrings (writeSofa exEnv exNc exDisk (py% "a") exCustomized 4).obj = true := by decide +kernel
  generalize (writeSofa exEnv exNc exDisk (py% "a") exCustomized 4).obj = o at h1 h2
  refine ⟨fun k v e d hk hd hm => ?_, fun _ _ _ _ _ => ?_⟩
  · refine h1 (k, e) (Dict.mem_of_get? hk.2.1) ?_
    rw [hd]
    exact hm
  · unfold exStrings at h2
    split at h2
    · rename_i a e ha he
      simp only [Bool.and_eq_true, decide_eq_true_eq, List.contains_iff_mem] at h2
      exact ⟨_, _, e, py% "right", 'r', ⟨ha, he, by rw [h2.1]; decide⟩, h2.1, h2.2, by decide, by decide⟩
    · simp at h2

example : (∀ k, Dict.get? exSecond.attrs k = Dict.get? exFirst.attrs k) ∧
    Dict.get? exFirst.attrs (py% "Foo") = some (.arr (exNums .f [1, 3] [1, 2, 3])) ∧
    Dict.get? exCustomized.attrs (py% "Names") ≠ Dict.get? exFirst.attrs (py% "Names") :=
  ⟨fun k => (C72_second_trip exEnv exNc exDisk exDisk (py% "a") (py% "b") exCustomized 4 0 (py% "FIR") (py% "1.0") .no .no true
    false exNew exNew exFirst exSecond (by decide +kernel) exCustomized_stored exCustomized_repeatable
    ⟨.str (py% "FIR"), by decide +kernel, rfl⟩ ⟨.str (py% "1.0"), by decide +kernel, rfl⟩ exNew_ok.1 exNew_ok.2
    exNew_ok.1 exNew_ok.2 (by decide +kernel) (by decide +kernel) (by decide +kernel) k).1, by decide +kernel, by decide +kernel⟩

end Sofar
