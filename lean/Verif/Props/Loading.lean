import Verif.Spec.Loading
import Verif.Props.Misc
import Verif.Props.Rules
import Verif.Props.Init
import Verif.Lemmas.Upgrade
import Verif.Lemmas.Report
import Verif.Lemmas.History
import Verif.Lemmas.Stored
import Verif.Model.Text
import Verif.Model.IO
/-!
# C78: checks use the convention that the object names
-/
namespace Sofar

theorem foldl_put_fresh {V : Type} (l : Dict V) (d : Dict V) (hd : ∀ p ∈ l, p.1 ∉ d.map Prod.fst)
    (hl : (l.map Prod.fst).Nodup) : l.foldl (fun d p => Dict.put d p.1 p.2) d = d ++ l := by
  induction l generalizing d with
  | nil => simp
  | cons p l ih =>
    simp only [List.foldl_cons]
    have h1 : Dict.put d p.1 p.2 = d ++ [p] := by
      have := hd p (by simp)
      clear ih hd
      induction d with
      | nil => rfl
      | cons q d ih =>
        simp only [List.map_cons, List.mem_cons, not_or] at this
        simp only [Dict.put, List.cons_append]
        rw [if_neg (Ne.symm this.1), ih this.2]
    rw [h1, ih]
    · simp
    · intro q hq
      simp only [List.map_append, List.map_cons, List.map_nil, List.mem_append, List.mem_singleton, not_or]
      refine ⟨hd q (by simp [hq]), ?_⟩
      intro hqp
      simp only [List.map_cons, List.nodup_cons] at hl
      exact hl.1 (List.mem_map.2 ⟨q, hq, hqp⟩)
    · simp only [List.map_cons, List.nodup_cons] at hl
      exact hl.2

theorem mergeCustom_rows {f : ConvFile} (hn : (f.content.map (fun p => Spec.sofarName p.1)).Nodup) {c : Dict Entry}
    (hc : (c.map Prod.fst).Nodup) :
    mergeCustom (convertKeys f.content) c = (Spec.rowsOf f ++ Spec.customOf f c, Spec.customOf f c) := by
  have h1 : convertKeys f.content = Spec.rowsOf f := convertKeys_injective _ hn
  have h2 : c.filter (fun p => ! Dict.has (Spec.rowsOf f) p.1) = Spec.customOf f c := by
    unfold Spec.customOf
    refine List.filter_congr fun p _ => ?_
    by_cases h : p.1 ∈ (Spec.rowsOf f).map Prod.fst
    · have h' : Dict.has (Spec.rowsOf f) p.1 = true := (Dict.has_iff_mem _ _).2 h
      simp only [h', h, not_true_eq_false, decide_false, Bool.not_true]
    · have h' : Dict.has (Spec.rowsOf f) p.1 = false := by
        rw [← Bool.not_eq_true]
        exact fun hh => h ((Dict.has_iff_mem _ _).1 hh)
      simp only [h', h, not_false_eq_true, decide_true, Bool.not_false]
  unfold mergeCustom
  rw [h1]
  simp only [h2]
  rw [foldl_put_fresh]
  · intro p hp
    simpa using (List.mem_filter.1 hp).2
  · exact (List.filter_sublist.map _).nodup hc

/-- the file of a convention and version is unique -/
theorem file_unique {env : Env} (h : Spec.RegularFolder env) {f g : ConvFile} (hf : f ∈ env.files) (hg : g ∈ env.files)
    (he : f.base = g.base) : f = g := by
  have := h.unique
  exact List.inj_on_of_nodup_map this hf hg he

/-- C78: the convention is loaded from the file that the object names: all outcomes. Missing: folders where versions are
written in other ways (see `C67_refuted`), or different rows become the same attribute (see `C77_refuted`). -/
theorem C78_loaded_partial (env : Env) (o o' : Obj) (hr : Spec.RegularFolder env) (hw : Spec.WF o) :
    resetConvention env o = .ok o' ↔ ∃ f, Spec.Names env o f ∧ o' = Spec.withRows f o := by
  have hf : ∀ f ∈ env.files, ∃ n w, Spec.FileOf f.base n w := fun f hm => by
    obtain ⟨n, w, h, -⟩ := hr.names f hm
    exact ⟨n, w, h⟩
  have hv : ∀ n, ∀ f ∈ env.files, ∀ w', Spec.FileOf f.base n w' → Spec.PlainVersion w' := fun n f hm w' h => by
    obtain ⟨n', w, h', hp⟩ := hr.names f hm
    exact (fileOf_unique h h').2 ▸ hp
  have hnone : ∀ f ∈ env.files, o.custom = none → { o with conv := convertKeys f.content } = Spec.withRows f o := by
    intro f hm hc
    have h1 : convertKeys f.content = Spec.rowsOf f := convertKeys_injective _ (hr.rows f hm)
    unfold Spec.withRows
    simp only [h1, hc, Option.getD_none, Option.map_none, Spec.customOf, List.filter_nil, List.append_nil]
  have hsome : ∀ f ∈ env.files, ∀ cust, o.custom = some cust →
      { o with conv := (mergeCustom (convertKeys f.content) cust).1,
               custom := some (mergeCustom (convertKeys f.content) cust).2 } = Spec.withRows f o := by
    intro f hm cust hc
    unfold Spec.withRows
    simp only [mergeCustom_rows (hr.rows f hm) (hw.custom cust hc), hc, Option.getD_some, Option.map_some]
  constructor
  · intro h
    obtain ⟨cv, c, v, conv, h1, h2, h3, h4, h5, rfl⟩ := resetConvention_inv h
    have hc : '_' ∉ c := by
      obtain ⟨f, -, hfo⟩ := (C67_valid_partial env hf c (pyStr env v) (hv c)).2 h4
      exact hfo.2.1
    obtain ⟨f, hm, hfo, rfl⟩ := (exact_lookup env c (pyStr env v) hc hf).2 conv h5
    refine ⟨f, ⟨hm, cv, c, v, ?_, by rw [← asStr_text]; exact h2, ?_, pyStr_shown env v ▸ hfo⟩, ?_⟩
    · exact (getAttr_std (by decide) (by decide)).1 h1
    · exact (getAttr_std (by decide) (by decide)).1 h3
    · split
      · rename_i hc
        exact hnone f hm hc
      · rename_i cust hc
        exact hsome f hm cust hc
  · rintro ⟨f, ⟨hm, cv, c, v, h1, h2, h3, hfo⟩, rfl⟩
    have a1 := (getAttr_std (o := o) (k := py% "GLOBAL_SOFAConventions") (by decide) (by decide)).2 h1
    have a3 := (getAttr_std (o := o) (k := py% "GLOBAL_SOFAConventionsVersion") (by decide) (by decide)).2 h3
    rw [← pyStr_shown] at hfo
    have h4 := (C67_valid_partial env hf c (pyStr env v) (hv c)).1 ⟨f, hm, hfo⟩
    obtain ⟨conv, h5⟩ := (exact_lookup env c (pyStr env v) hfo.2.1 hf).1.2 ⟨f, hm, hfo⟩
    obtain ⟨g, hg, hgo, rfl⟩ := (exact_lookup env c (pyStr env v) hfo.2.1 hf).2 conv h5
    have hfg : g = f := file_unique hr hg hm (hgo.1.trans hfo.1.symm)
    subst hfg
    unfold resetConvention
    rw [a1, a3]
    simp only [asStr_text, h2, h4, h5]
    split
    · rename_i hc
      rw [← hnone g hg hc]
    · rename_i cust hc
      rw [← hsome g hg cust hc]

/-- C78: all functions that check the object use the rows of the file that the object names, and the custom entries. -/
theorem C78_checks (env : Env) (o : Obj) (f : ConvFile) (hr : Spec.RegularFolder env) (hw : Spec.WF o)
    (hn : Spec.Names env o f) :
    (∀ ih mode, Spec.Uses f o (verify env o ih mode).obj) ∧
    (∀ m opt vb, Spec.Uses f o (addMissing env o m opt vb).obj) ∧
    (∀ d, Spec.Uses f o (getDimension env o d).obj) ∧
    (∀ nc fs filename c, (writeSofa env nc fs filename o c).out = .ok () →
      Spec.Uses f o (writeSofa env nc fs filename o c).obj) := by
  have h := (C78_loaded_partial env o _ hr hw).2 ⟨f, hn, rfl⟩
  have hv : ∀ ih mode, Spec.Uses f o (verify env o ih mode).obj := fun ih mode =>
    (verifyG_frame referenceNames env o ih mode).loaded _ h
  refine ⟨hv, ?_, ?_, ?_⟩
  · intro m opt vb
    have h1 := addMissingLoop_conv m opt (Spec.withRows f o).keys (Spec.withRows f o).conv
      { Spec.withRows f o with prot := false }
    have h2 := addMissingLoop_custom m opt (Spec.withRows f o).keys (Spec.withRows f o).conv
      { Spec.withRows f o with prot := false }
    unfold addMissing
    simp only [h]
    split
    · exact ⟨h1, h2⟩
    · exact ⟨h1, h2⟩
  · intro d
    rw [getDimension_obj]
    exact hv _ _
  · intro nc fs filename c hok
    obtain ⟨_, _, _, _, _, _, -, -, -, ho⟩ := writeSofa_ok hok
    rw [ho]
    exact hv _ _

theorem versionExists_error {version convention : Str} {l : List (Str × Str)} {e : Exc}
    (h : versionExists version convention l = .error e) : ∃ m, e = .valueError m := by
  fun_induction versionExists version convention l with
  | case1 => cases h
  | case2 => cases h; exact ⟨_, rfl⟩
  | case3 => simp_all
  | case4 => cases h
  | case5 => simp_all

theorem verifyConvention_error {env : Env} {v c : Str} {e : Exc} {nv : List (Str × Str)} (hg : getConventions env = .ok nv)
    (h : verifyConvention env v c = .error e) : ∃ m, e = .valueError m := by
  unfold verifyConvention at h
  simp only [hg] at h
  split at h
  · split at h
    · rename_i e' he
      cases h
      exact versionExists_error he
    · cases h
    · cases h
      exact ⟨_, rfl⟩
  · cases h
    exact ⟨_, rfl⟩

/-- C78: without a file of the named convention and version all functions that check the object fail. Nothing is changed. The
error is a `ValueError` if the object names a convention and version. -/
theorem C78_unknown (env : Env) (o : Obj) (hr : Spec.RegularFolder env) (hw : Spec.WF o)
    (hn : ∀ f, ¬ Spec.Names env o f) :
    ∃ x, (∀ ih mode, verify env o ih mode = ⟨.error x, o, []⟩) ∧
      (∀ m opt vb, addMissing env o m opt vb = ⟨.error x, o, []⟩) ∧
      (∀ t arg, upgradeConvention env o t arg = ⟨.error x, o, []⟩) ∧
      (∀ d, getDimension env o d = ⟨.error x, o, []⟩) ∧
      (∀ nc fs filename c, (writeSofa env nc fs filename o c).out ≠ .ok () ∧
        (writeSofa env nc fs filename o c).fs = fs ∧ (writeSofa env nc fs filename o c).obj = o) ∧
      (py% "GLOBAL_SOFAConventions" ∈ o.attrs.map Prod.fst →
        py% "GLOBAL_SOFAConventionsVersion" ∈ o.attrs.map Prod.fst → ∃ m, x = .valueError m) := by
  cases h : resetConvention env o with
  | ok o1 =>
    obtain ⟨f, hf, -⟩ := (C78_loaded_partial env o o1 hr hw).1 h
    exact absurd hf (hn f)
  | error x =>
    have hv : ∀ ih mode, verify env o ih mode = ⟨.error x, o, []⟩ := fun ih mode => by
      unfold verify verifyG
      simp only [h]
    refine ⟨x, hv, ?_, ?_, ?_, ?_, ?_⟩
    · intro m opt vb
      unfold addMissing
      simp only [h]
    · intro t arg
      unfold upgradeConvention
      simp only [h]
    · intro d
      unfold getDimension updateDimensions
      simp only [hv]
    · intro nc fs filename c
      unfold writeSofa writeSofaG
      cases withSuffix filename with
      | error y => exact ⟨by simp, rfl, rfl⟩
      | ok path =>
        simp only [if_true]
        cases (checkLatest env o).1 with
        | error y => exact ⟨by simp, rfl, rfl⟩
        | ok u =>
          simp [hv .raise .write]
    · intro hc hv
      obtain ⟨cv, hc⟩ := (Dict.has_iff _ _).1 ((Dict.has_iff_mem _ _).2 hc)
      obtain ⟨v, hv⟩ := (Dict.has_iff _ _).1 ((Dict.has_iff_mem _ _).2 hv)
      have a1 := (getAttr_std (o := o) (k := py% "GLOBAL_SOFAConventions") (by decide) (by decide)).2 hc
      have a3 := (getAttr_std (o := o) (k := py% "GLOBAL_SOFAConventionsVersion") (by decide) (by decide)).2 hv
      have hf : ∀ f ∈ env.files, ∃ n w, Spec.FileOf f.base n w := fun f hm => by
        obtain ⟨n, w, h, -⟩ := hr.names f hm
        exact ⟨n, w, h⟩
      obtain ⟨r, hr1, -⟩ := mapM_names hf
      unfold resetConvention at h
      simp only [a1, a3] at h
      cases ht : cv.asStr with
      | none =>
        simp only [ht] at h
        cases h
        exact ⟨_, rfl⟩
      | some c =>
        simp only [ht] at h
        cases h4 : verifyConvention env (pyStr env v) c with
        | error y =>
          simp only [h4] at h
          cases h
          exact verifyConvention_error hr1 h4
        | ok u =>
          obtain ⟨f, hm, hfo⟩ := (C67_valid_partial env hf c (pyStr env v) (fun f hm w' h => by
            obtain ⟨n', w, h', hp⟩ := hr.names f hm
            exact (fileOf_unique h h').2 ▸ hp)).2 h4
          exact absurd ⟨hm, cv, c, v, hc, by rw [← asStr_text]; exact ht, hv, pyStr_shown env v ▸ hfo⟩ (hn f)

theorem exEnv_regularFolder : Spec.RegularFolder exEnv := by
  refine ⟨?_, by decide +kernel, by decide +kernel⟩
  intro f hf
  simp only [exEnv, List.mem_cons, List.not_mem_nil, or_false] at hf
  rcases hf with rfl | rfl
  · exact ⟨py% "FIR", py% "1.0", by unfold Spec.FileOf; decide,
      ⟨1, 0, py% "1", '0', by decide, by decide, by decide⟩, by simp⟩
  · exact ⟨py% "FIR", py% "0.9", by unfold Spec.FileOf; decide,
      ⟨0, 9, py% "0", '9', by decide, by decide, by decide⟩, by simp⟩

/-- an object with custom data that names the older version after the assignment -/
def exOlder : Obj :=
  { exCustom with attrs := Dict.put exCustom.attrs (py% "GLOBAL_SOFAConventionsVersion") (.str (py% "0.9")) }

/-- an object that names a version that does not exist -/
def exFuture : Obj :=
  { exCustom with attrs := Dict.put exCustom.attrs (py% "GLOBAL_SOFAConventionsVersion") (.str (py% "2.0")) }

/-- The rows of version 0.9 are used for the object, and the custom data. -/
example : ∃ f, Spec.Names exEnv exOlder f ∧ f.base = py% "FIR_0.9.json" :=
  ⟨⟨py% "FIR_0.9.json", exConvention (py% "0.9")⟩, ⟨by simp [exEnv], .str (py% "FIR"), py% "FIR", .str (py% "0.9"),
    by decide +kernel, rfl, by decide +kernel, by unfold Spec.FileOf; decide⟩, rfl⟩

example : Spec.WF exOlder ∧ Spec.WF exFuture := by
  have hc : ∀ c, exCustom.custom = some c → (c.map Prod.fst).Nodup := by
    intro c h
    have h1 : exCustom.custom.map (fun c => c.map Prod.fst) = some [py% "Temperature"] := by decide +kernel
    rw [h] at h1
    simp only [Option.map_some, Option.some.injEq] at h1
    rw [h1]
    decide
  exact ⟨⟨by decide +kernel, by decide +kernel, hc⟩, ⟨by decide +kernel, by decide +kernel, hc⟩⟩

example : ∀ f, ¬ Spec.Names exEnv exFuture f := by
  rintro f ⟨hf, c, n, v, h1, h2, h3, h4⟩
  have h3' : Dict.get? exFuture.attrs (py% "GLOBAL_SOFAConventionsVersion") = some (.str (py% "2.0")) := by decide +kernel
  rw [h3'] at h3
  cases h3
  simp only [exEnv, List.mem_cons, List.not_mem_nil, or_false] at hf
  rcases hf with rfl | rfl
  · have := (fileOf_unique h4 (n' := py% "FIR") (v' := py% "1.0") (by unfold Spec.FileOf; decide)).2
    revert this
    decide
  · have := (fileOf_unique h4 (n' := py% "FIR") (v' := py% "0.9") (by unfold Spec.FileOf; decide)).2
    revert this
    decide

/-- a folder with a file for version 1.10 -/
def exTenEnv : Env := { exEnv with files := exEnv.files ++ [⟨py% "FIR_1.10.json", exConvention (py% "1.10")⟩] }

/-- an object that names version 1.10 -/
def exTen : Obj :=
  { exCustom with attrs := Dict.put exCustom.attrs (py% "GLOBAL_SOFAConventionsVersion") (.str (py% "1.10")) }

/-- C78 is false for versions with two digits after the dot: the file of the version that the object names exists, but the object
can not be verified. -/
theorem C78_refuted : ∃ (env : Env) (o : Obj) (f : ConvFile), Spec.Names env o f ∧
    ∀ ih mode, ∃ m, (verify env o ih mode).out = .error (.valueError m) := by
  refine ⟨exTenEnv, exTen, ⟨py% "FIR_1.10.json", exConvention (py% "1.10")⟩,
    ⟨by simp [exTenEnv], .str (py% "FIR"), py% "FIR", .str (py% "1.10"),
      by decide +kernel, rfl, by decide +kernel, by unfold Spec.FileOf; decide⟩, ?_⟩
  intro ih mode
  have h : (match resetConvention exTenEnv exTen with | .error (.valueError m) => some m | _ => none).isSome = true := by
    decide +kernel
  unfold verify verifyG
  generalize hr : resetConvention exTenEnv exTen = r at h
  match r, h with
  | .error (.valueError m), _ =>
    exact ⟨m, by simp [hr]⟩

end Sofar
