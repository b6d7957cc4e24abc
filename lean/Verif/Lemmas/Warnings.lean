import Verif.Lemmas.Events
import Verif.Lemmas.Stored
import Verif.Spec.Warnings
import Verif.Props.Lookup
import Verif.Props.Init
/-!
# Warnings about versions
-/
namespace Sofar

theorem digit?_of_mem {c : Char} (h : c ∈ py% "0123456789") : ∃ n, Str.digit? c = some n ∧ n < 10 := by
  simp only [List.mem_cons, List.not_mem_nil, or_false] at h
  rcases h with rfl | rfl | rfl | rfl | rfl | rfl | rfl | rfl | rfl | rfl <;> exact ⟨_, rfl, by decide⟩

theorem digitsGo_bound (s : Str) (acc : Nat) (h : ∀ c ∈ s, c ∈ py% "0123456789") :
    ∃ n, Str.digitsGo acc s = some n ∧ n < (acc + 1) * 10 ^ s.length := by
  induction s generalizing acc with
  | nil => exact ⟨acc, rfl, by simp⟩
  | cons c s ih =>
    obtain ⟨d, hd, hlt⟩ := digit?_of_mem (h c List.mem_cons_self)
    obtain ⟨n, hn, hb⟩ := ih (acc * 10 + d) (fun x hx => h x (List.mem_cons_of_mem _ hx))
    refine ⟨n, by simp only [Str.digitsGo, hd, hn], Nat.lt_of_lt_of_le hb ?_⟩
    rw [List.length_cons, Nat.pow_succ, Nat.mul_comm (10 ^ s.length) 10, ← Nat.mul_assoc]
    exact Nat.mul_le_mul_right _ (by omega)

theorem preliminary_split {d : Str} (h : ∀ c ∈ d, c ∈ py% "0123456789") :
    Str.splitChar '.' ('0' :: '.' :: d) = [py% "0", d] := by
  have h1 : '.' ∉ d := fun hd => by
    have := h _ hd
    revert this
    decide
  rw [show ('0' :: '.' :: d : Str) = py% "0" ++ '.' :: d from rfl, splitChar_append (by decide),
    splitChar_not_mem h1]

theorem preliminary_float {v : Str} (h : Spec.Preliminary v) : ∃ q, pyFloat v = some q ∧ q < 1 := by
  obtain ⟨d, rfl, hne, hd⟩ := h
  obtain ⟨n, hn, hb⟩ := digitsGo_bound d 0 hd
  unfold pyFloat
  rw [preliminary_split hd]
  have h0 : Str.digitsGo 0 (py% "0") = some 0 := by decide
  simp only [List.isEmpty_cons, Bool.false_and, Bool.false_eq_true, if_false, h0, hn]
  refine ⟨_, rfl, ?_⟩
  have hp : (0 : Rat) < ((10 ^ d.length : Nat) : Rat) := by
    exact_mod_cast Nat.pos_of_ne_zero (by simp)
  rw [Rat.div_lt_iff hp, Rat.one_mul]
  have : 0 * 10 ^ d.length + n < 10 ^ d.length := by simpa using hb
  exact_mod_cast this

theorem preliminary_stable {v : Str} (h : Spec.Preliminary v) : isStable v = .ok false := by
  obtain ⟨d, rfl, hne, hd⟩ := h
  obtain ⟨n, hn, hb⟩ := digitsGo_bound d 0 hd
  unfold isStable parseVersion
  rw [preliminary_split hd]
  have h0 : Str.digits? (py% "0") = some 0 := by decide
  have h1 : Str.digits? d = some n := by
    unfold Str.digits?
    rw [if_neg (by simpa using hne), hn]
  simp [List.mapM_cons, h0, h1, versionLt]

theorem phaseDeprecations_preliminary {env : Env} {o : Obj} {mode : Mode} {v e w : Str}
    (hv : Spec.HasText o (py% "GLOBAL_SOFAConventionsVersion") v) (hp : Spec.Preliminary v)
    (h : phaseDeprecations env o mode = .ok (e, w)) : Spec.preliminaryNotice v <:+: w := by
  obtain ⟨x, hx, ht⟩ := hv
  obtain ⟨q, hq, hlt⟩ := preliminary_float hp
  unfold phaseDeprecations at h
  cases hc : o.getAttr (py% "GLOBAL_SOFAConventions") with
  | error x => simp [hc] at h
  | ok c =>
    simp only [hc, getAttr_of_get hx] at h
    have hf : valFloat x = .ok q := by
      cases x with
      | str s => cases ht; simp only [valFloat, hq]
      | npstr s => cases ht; simp only [valFloat, hq]
      | _ => cases ht
    have ht' : ∃ s, preliminaryText env x = .ok (py% "\n\n" ++ Spec.preliminaryNotice v ++ s) := by
      unfold preliminaryText
      rw [hf]
      simp only [hlt, if_true, pyStr_text ht]
      refine ⟨py% ":\n - Upgrade data to version >= 1.0 if possible. Preliminary conventions might change in the future, which could invalidate data that was written before the changes.", ?_⟩
      unfold Spec.preliminaryNotice
      simp only [List.append_assoc]
      rfl
    obtain ⟨s, hs⟩ := ht'
    simp only [hs] at h
    cases mode with
    | write =>
      simp only [Except.ok.injEq, Prod.mk.injEq] at h
      rw [← h.2]
      exact ⟨py% "\n\n", s, rfl⟩
    | read =>
      simp only [Except.ok.injEq, Prod.mk.injEq] at h
      rw [← h.2]
      have h2 : Spec.preliminaryNotice v <:+: py% "\n\n" ++ Spec.preliminaryNotice v ++ s := ⟨py% "\n\n", s, rfl⟩
      exact h2.trans (List.suffix_append _ _).isInfix

theorem handle_raise_warns {w e m : Str} (h : m <:+: w) (hm : m ≠ []) :
    ∃ t, Event.warn t ∈ (handleIssues w e .raise).ev ∧ m <:+: t := by
  have hw : w ≠ [] := by
    rintro rfl
    exact hm (List.eq_nil_of_infix_nil h)
  refine ⟨warningHeader ++ w, ?_, h.trans (List.suffix_append _ _).isInfix⟩
  cases w with
  | nil => exact absurd rfl hw
  | cons a w => cases e <;> simp [handleIssues]

theorem notice_ne (v : Str) : Spec.preliminaryNotice v ≠ [] := by
  unfold Spec.preliminaryNotice
  simp

theorem verifyTail_warns {env : Env} {o : Obj} {mode : Mode} {w e v : Str} {ev : List Event} {r : Option Str}
    (h : (verifyTail env o .raise mode w e ev).out = .ok r)
    (hv : Spec.HasText o (py% "GLOBAL_SOFAConventionsVersion") v) (hp : Spec.Preliminary v) :
    Spec.WarnsPreliminary (verifyTail env o .raise mode w e ev).ev v := by
  obtain ⟨_, h1, ⟨w8, h2⟩, _⟩ := (verifyTail_raise_ok_iff _ _ _ _ _ _ _).1 h
  have hn := phaseDeprecations_preliminary hv hp h2
  unfold verifyTail
  simp only [h1, h2]
  obtain ⟨t, ht, hi⟩ := handle_raise_warns (w := w ++ w8) (e := e ++ [] ++ [])
    (hn.trans (List.suffix_append _ _).isInfix) (notice_ne v)
  refine ⟨t, ?_, hi⟩
  split <;> exact List.mem_append_right _ ht

theorem verifyG_warns {inner : Env → Obj → Inner} {env : Env} {o : Obj} {mode : Mode} {r : Option Str} {v : Str}
    (h : (verifyG inner env o .raise mode).out = .ok r)
    (hv : Spec.HasText o (py% "GLOBAL_SOFAConventionsVersion") v) (hp : Spec.Preliminary v) :
    Spec.WarnsPreliminary (verifyG inner env o .raise mode).ev v := by
  obtain ⟨_, o1, o3, h1, h2⟩ := (verifyG_raise_ok_iff _ _ _ _ _).1 h
  have hat : o3.attrs = o.attrs := by
    have ha := verifyG_raise_ok_obj _ _ _ _ _ _ h1 h2
    obtain ⟨api, hapi, _⟩ := phaseDims_ok h2.dims
    have hsh := h2.shapes
    rw [hapi] at hsh
    obtain ⟨dims, hd, _⟩ := phaseShapes_nil hsh
    rw [hd]
    exact (show o1.attrs = o.attrs from resetConvention_attrs h1)
  have hv3 : Spec.HasText o3 (py% "GLOBAL_SOFAConventionsVersion") v := by
    obtain ⟨w, hw, ht⟩ := hv
    exact ⟨w, by rw [hat]; exact hw, ht⟩
  revert h
  unfold verifyG
  have hf := fillMissing_raise o1.keys o1.conv o1
  have hn := fillMissing_nil_iff false o1.keys o1.conv o1
  simp only [h1, ne_eq, not_true_eq_false, decide_false, if_true]
  generalize fillMissing false o1.keys o1.conv o1 = f at hf hn
  obtain ⟨f1, f2⟩ := f
  simp only at hf hn
  subst hf
  intro h
  cases f1 with
  | error x => simp at h
  | ok m =>
    have hm : m = [] := Except.ok.inj (hn.2 h2.mandatory)
    subst hm
    simp only [h2.types, section_, List.isEmpty_nil, if_true, List.append_nil, Bool.not_true, Bool.false_and,
      Bool.false_eq_true, if_false] at h ⊢
    revert h
    unfold verifyBody
    simp only [h2.names, h2.custom, h2.dims, h2.shapes]
    intro h
    exact verifyTail_warns h hv3 hp

theorem finishInit_warns {env : Env} {m b : Bool} {u v : Str} {o o' : Obj}
    (h : (finishInit env m u b o).out = .ok o') (hu : u = v)
    (hv : Spec.HasText o (py% "GLOBAL_SOFAConventionsVersion") v) (hp : Spec.Preliminary v) :
    Spec.WarnsPreliminary (finishInit env m u b o).ev v := by
  subst hu
  revert h
  unfold finishInit
  split
  · simp only
    cases hr : (verifyNew env o .raise .read).out with
    | error x => simp
    | ok r =>
      intro _
      exact verifyG_warns hr hv hp
  · rw [preliminary_stable hp]
    intro _
    refine ⟨_, List.mem_singleton.2 rfl, ?_⟩
    exact ⟨[], py% ". Upgrade data to version >= 1.0 if possible. Preliminary conventions might change in the future, which could invalidate data that was written before the changes.", rfl⟩

theorem initSofa_version {env : Env} {c v : Str} {m : Bool} {ver : VersionArg} {a : VerifyArg} {o : Obj}
    {conv : Dict Entry} (h : (initSofa env c m ver a).out = .ok o) (hl : loadConvention env c ver = .ok conv)
    (hk : py% "protected" ∉ conv.map Prod.fst) (hv : Spec.HasText o (py% "GLOBAL_SOFAConventionsVersion") v) :
    ∀ u, conventionVersion conv = .ok u → u = v := by
  intro u hcv
  obtain ⟨l, hdf, hnd, hd⟩ := initSofa_data h hl hk
  obtain ⟨w, hw, ht⟩ := hv
  rw [hd, get?_foldl_stamps _ _ _ (by rw [stamps_names]; decide)] at hw
  obtain ⟨_, e, he, hdo, _⟩ := hdf.values _ w (Dict.mem_of_get? hw)
  unfold conventionVersion at hcv
  rw [Dict.get?_of_mem (loadConvention_nodup hl) he] at hcv
  simp only at hcv
  split at hcv
  · rename_i s hs'
    simp only [Except.ok.injEq] at hcv
    subst hcv
    simp only [Spec.DefaultOf, hs'] at hdo
    rw [hdo] at ht
    exact Option.some.inj ht
  · cases hcv

theorem initSofa_warns {env : Env} {c v : Str} {m : Bool} {ver : VersionArg} {a : VerifyArg} {o : Obj}
    (h : (initSofa env c m ver a).out = .ok o)
    (hk : ∀ conv, loadConvention env c ver = .ok conv → py% "protected" ∉ conv.map Prod.fst)
    (hv : Spec.HasText o (py% "GLOBAL_SOFAConventionsVersion") v) (hp : Spec.Preliminary v) :
    Spec.WarnsPreliminary (initSofa env c m ver a).ev v := by
  obtain ⟨conv, o0, hl, hs, hat, _⟩ := initSofa_ok h
  have hkc := hk conv hl
  have hver := initSofa_version h hl hkc hv
  have hv0 : Spec.HasText o0 (py% "GLOBAL_SOFAConventionsVersion") v := by
    obtain ⟨w, hw, ht⟩ := hv
    exact ⟨w, by rw [← hat]; exact hw, ht⟩
  revert h
  unfold initSofa
  simp only [hl, hs]
  cases hcv : conventionVersion conv with
  | error x => simp
  | ok u =>
    have hu := hver u hcv
    simp only
    cases a with
    | yes => exact fun h => finishInit_warns h hu hv0 hp
    | no => exact fun h => finishInit_warns h hu hv0 hp
    | auto =>
      simp only
      cases isStable u with
      | error x => simp
      | ok b => exact fun h => finishInit_warns h hu hv0 hp

theorem phaseDeprecations_silent {env : Env} {o : Obj} {v e w : Str}
    (hv : Spec.HasText o (py% "GLOBAL_SOFAConventionsVersion") v) (hp : ∃ q, pyFloat v = some q ∧ ¬ q < 1)
    (h : phaseDeprecations env o .write = .ok (e, w)) : w = [] := by
  obtain ⟨x, hx, ht⟩ := hv
  obtain ⟨q, hq, hlt⟩ := hp
  unfold phaseDeprecations at h
  cases hc : o.getAttr (py% "GLOBAL_SOFAConventions") with
  | error x => simp [hc] at h
  | ok c =>
    simp only [hc, getAttr_of_get hx] at h
    have hf : valFloat x = .ok q := by
      cases x with
      | str s => cases ht; simp only [valFloat, hq]
      | npstr s => cases ht; simp only [valFloat, hq]
      | _ => cases ht
    have ht' : preliminaryText env x = .ok [] := by
      unfold preliminaryText
      rw [hf]
      simp only [hlt, if_false]
    simp only [ht', Except.ok.injEq, Prod.mk.injEq] at h
    exact h.2.symm

theorem verifyG_silent {inner : Env → Obj → Inner} {env : Env} {o : Obj} {r : Option Str} {v : Str}
    (h : (verifyG inner env o .raise .write).out = .ok r)
    (hv : Spec.HasText o (py% "GLOBAL_SOFAConventionsVersion") v) (hp : ∃ q, pyFloat v = some q ∧ ¬ q < 1)
    (hc : o.custom = none) : (verifyG inner env o .raise .write).ev = [] := by
  obtain ⟨_, o1, o3, h1, h2⟩ := (verifyG_raise_ok_iff _ _ _ _ _).1 h
  have hat : o3.attrs = o.attrs := by
    obtain ⟨api, hapi, _⟩ := phaseDims_ok h2.dims
    have hsh := h2.shapes
    rw [hapi] at hsh
    obtain ⟨dims, hd, _⟩ := phaseShapes_nil hsh
    rw [hd]
    exact (show o1.attrs = o.attrs from resetConvention_attrs h1)
  have hv3 : Spec.HasText o3 (py% "GLOBAL_SOFAConventionsVersion") v := by
    obtain ⟨w, hw, ht⟩ := hv
    exact ⟨w, by rw [hat]; exact hw, ht⟩
  have hc1 : o1.custom = none := by
    obtain ⟨_, _, _, _, _, _, _, _, _, h6⟩ := resetConvention_inv h1
    rw [h6, hc]
  have hce : (phaseCustomNames (inner env o1) o1).2 = [] := by
    unfold phaseCustomNames
    rw [hc1]
  obtain ⟨w8, hd⟩ := h2.deprec
  have hw8 := phaseDeprecations_silent hv3 hp hd
  subst hw8
  unfold verifyG
  have hf := fillMissing_raise o1.keys o1.conv o1
  have hn := fillMissing_nil_iff false o1.keys o1.conv o1
  simp only [h1, ne_eq, not_true_eq_false, decide_false, if_true]
  generalize fillMissing false o1.keys o1.conv o1 = f at hf hn
  obtain ⟨f1, f2⟩ := f
  simp only at hf hn
  subst hf
  have hm := hn.2 h2.mandatory
  subst hm
  simp only [h2.types, section_, List.isEmpty_nil, if_true, List.append_nil, Bool.not_true, Bool.false_and,
    Bool.false_eq_true, if_false]
  unfold verifyBody
  simp only [h2.names, h2.custom, h2.dims, h2.shapes, hce]
  unfold verifyTail
  simp only [h2.rules, hd]
  simp [handleIssues]

/-- the events contain no warning about an outdated version -/
def NoOutdated (ev : List Event) : Prop := ∀ m, Event.warn ('W' :: m) ∉ ev

theorem NoOutdated.nil : NoOutdated [] := fun _ => by simp

theorem NoOutdated.append {a b : List Event} (ha : NoOutdated a) (hb : NoOutdated b) : NoOutdated (a ++ b) :=
  fun m h => (List.mem_append.1 h).elim (ha m) (hb m)

theorem handle_outdated (w e : Str) : NoOutdated (handleIssues w e .raise).ev := by
  intro m
  cases w <;> cases e <;> simp [handleIssues, warningHeader]

theorem early_outdated (o : Obj) (e : Str) : NoOutdated (verifyEarly o .raise e).ev := by
  unfold verifyEarly
  simp only
  split <;> exact handle_outdated _ _

theorem tail_outdated (env : Env) (o : Obj) (mode : Mode) (w e : Str) (ev : List Event) (h : NoOutdated ev) :
    NoOutdated (verifyTail env o .raise mode w e ev).ev := by
  unfold verifyTail
  split
  · exact h
  · split
    · exact h
    · simp only
      split <;> exact h.append (handle_outdated _ _)

theorem custom_outdated (inner : Inner) (o : Obj) (h : NoOutdated inner.ev) :
    NoOutdated (phaseCustomNames inner o).2 := by
  unfold phaseCustomNames
  split
  · exact .nil
  · split <;> exact h

theorem body_outdated (inner : Inner) (env : Env) (o : Obj) (keys : List Str) (mode : Mode) (w e : Str)
    (h : NoOutdated inner.ev) : NoOutdated (verifyBody inner env o keys .raise mode w e).ev := by
  have hc := custom_outdated inner o h
  unfold verifyBody
  split
  · exact .nil
  · simp only
    split
    · exact hc
    · split
      · exact hc
      · split
        · exact hc
        · exact tail_outdated _ _ _ _ _ _ hc

theorem verifyG_outdated (inner : Env → Obj → Inner) (env : Env) (o : Obj) (mode : Mode)
    (h : ∀ o', NoOutdated (inner env o').ev) : NoOutdated (verifyG inner env o .raise mode).ev := by
  unfold verifyG
  split
  · exact .nil
  · simp only
    split
    · exact .nil
    · split
      · exact .nil
      · simp only [if_true]
        split
        · exact early_outdated _ _
        · exact body_outdated _ _ _ _ _ _ _ (h _)

theorem initSofa_outdated (env : Env) (c : Str) (b : Bool) (v : VersionArg) (a : VerifyArg) :
    NoOutdated (initSofa env c b v a).ev := by
  have hf : ∀ ver ver' o, NoOutdated (finishInit env b ver ver' o).ev := by
    intro ver ver' o
    unfold finishInit
    split
    · have := verifyG_outdated (fun _ _ => ⟨.error .unmodelled, []⟩) env o .read (fun _ => .nil)
      simp only
      split <;> exact this
    · split <;> intro m <;> simp [preliminaryWarning]
  unfold initSofa
  split
  · exact .nil
  · split
    · exact .nil
    · split
      · exact .nil
      · split
        · exact hf _ _ _
        · exact hf _ _ _
        · split
          · exact .nil
          · exact hf _ _ _

theorem referenceNames_outdated (env : Env) (o : Obj) : NoOutdated (referenceNames env o).ev := by
  unfold referenceNames
  split
  · exact .nil
  · split
    · exact .nil
    · split
      · simp only
        split <;> exact initSofa_outdated _ _ _ _ _
      · exact .nil
      · exact .nil

theorem verify_outdated (env : Env) (o : Obj) (mode : Mode) : NoOutdated (verify env o .raise mode).ev :=
  verifyG_outdated _ _ _ _ (fun _ => referenceNames_outdated _ _)

theorem outdatedWarning_eq (v : Str) : outdatedWarning v = .warn (Spec.outdatedNotice v) := rfl

theorem outdatedNotice_W (v : Str) : ∃ m, Spec.outdatedNotice v = 'W' :: m := ⟨_, rfl⟩

/-- the warning is given if and only if the latest version is higher -/
theorem write_outdated {env : Env} {nc : Nc} {fs : FS} {filename : Str} {o : Obj} {z : Nat} {c v : Str}
    (h : (writeSofa env nc fs filename o z).out = .ok ())
    (hc : Spec.HasText o (py% "GLOBAL_SOFAConventions") c) (hci : c ≠ py% "invalid-value")
    (hv : Spec.HasText o (py% "GLOBAL_SOFAConventionsVersion") v) :
    ∃ n l pv pl, (initSofa env c false .latest .auto).out = .ok n ∧
      n.getAttr (py% "GLOBAL_SOFAConventionsVersion") = .ok l ∧ (∃ lt, l.asStr = some lt ∧ parseVersion lt = .ok pl) ∧
      parseVersion v = .ok pv ∧
      (Event.warn (Spec.outdatedNotice v) ∈ (writeSofa env nc fs filename o z).ev ↔ versionLt pv pl = true) := by
  obtain ⟨wc, hwc, htc⟩ := hc
  obtain ⟨wv, hwv, htv⟩ := hv
  revert h
  unfold writeSofa writeSofaG
  cases hp : withSuffix filename with
  | error x => simp
  | ok path =>
    simp only [if_true]
    have hcl : ∀ u, (checkLatest env o).1 = .ok u → ∃ n l pv pl, (initSofa env c false .latest .auto).out = .ok n ∧
        n.getAttr (py% "GLOBAL_SOFAConventionsVersion") = .ok l ∧
        (∃ lt, l.asStr = some lt ∧ parseVersion lt = .ok pl) ∧ parseVersion v = .ok pv ∧
        (checkLatest env o).2 = (initSofa env c false .latest .auto).ev ++
          (if versionLt pv pl then [outdatedWarning v] else []) := by
      intro u
      unfold checkLatest
      rw [getAttr_of_get hwc]
      simp only [asStr_text, htc, Option.some.injEq, hci, if_false]
      cases hi : (initSofa env c false .latest .auto).out with
      | error x => simp
      | ok n =>
        simp only
        cases hl : n.getAttr (py% "GLOBAL_SOFAConventionsVersion") with
        | error x => simp
        | ok l =>
          simp only [getAttr_of_get hwv, htv]
          cases hlt : Spec.text l with
          | none => simp
          | some lt =>
            simp only
            cases hpv : parseVersion v with
            | error x => simp
            | ok pv =>
              simp only
              cases hpl : parseVersion lt with
              | error x => simp
              | ok pl =>
                intro _
                exact ⟨n, l, pv, pl, rfl, hl, ⟨lt, hlt, hpl⟩, rfl, rfl⟩
    cases hl : (checkLatest env o).1 with
    | error x => simp
    | ok u =>
      obtain ⟨n, l, pv, pl, h1, h2, h3, h4, h5⟩ := hcl u hl
      simp only
      cases hr : (verify env o .raise .write).out with
      | error x => simp
      | ok r =>
        intro _
        refine ⟨n, l, pv, pl, h1, h2, h3, h4, ?_⟩
        simp only [h5]
        obtain ⟨m, hm⟩ := outdatedNotice_W v
        constructor
        · intro hmem
          rcases List.mem_append.1 hmem with hmem | hmem
          · rcases List.mem_append.1 hmem with hmem | hmem
            · rw [hm] at hmem
              exact absurd hmem (initSofa_outdated _ _ _ _ _ _)
            · split at hmem
              · assumption
              · simp at hmem
          · rw [hm] at hmem
            exact absurd hmem (verify_outdated _ _ _ _)
        · intro hlt
          rw [if_pos hlt, outdatedWarning_eq]
          simp

end Sofar
