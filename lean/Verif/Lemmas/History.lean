import Verif.Spec.History
import Verif.Lemmas.Init
/-!
# Lemmas on histories of calls
-/
namespace Sofar

/-- assigning ordinary data to an unprotected object always works -/
theorem setAttr_free {o : Obj} {k : Str} {d : Inp} (hp : o.prot = false) (hk : Spec.OrdinaryName k) (hd : d ≠ .ragged) :
    ∃ w, normalise d = .ok w ∧ setAttr o k d = ⟨.ok (), { o with attrs := Dict.put o.attrs k w }, []⟩ := by
  obtain ⟨w, hw⟩ := normalise_ok hd
  refine ⟨w, hw, ?_⟩
  have h1 : k ≠ py% "protected" := by rintro rfl; exact hk.1 (by decide)
  have h2 : k ≠ py% "list_dimensions" := by rintro rfl; exact hk.1 (by decide)
  unfold setAttr
  simp [hp, h1, hw, h2, (show isPrivate k = false from hk.2)]

theorem fillMissing_prot {b : Bool} {keys : List Str} {l : Dict Entry} {o : Obj} (hl : Spec.RegularConvention l)
    (hp : o.prot = true) : (fillMissing b keys l o).2.prot = true := by
  induction l generalizing o with
  | nil => exact hp
  | cons p l ih =>
    obtain ⟨k, e⟩ := p
    have hl' : Spec.RegularConvention l := fun k e h => hl k e (by simp [h])
    simp only [fillMissing]
    split
    · have hr : ∃ u, (if b = true then addDefault o k e.default else (Except.ok (), o)).1 = .ok u ∧
          (if b = true then addDefault o k e.default else (Except.ok (), o)).2.prot = true := by
        cases b with
        | false => exact ⟨(), rfl, hp⟩
        | true =>
          obtain ⟨h1, h2⟩ := hl k e (by simp)
          obtain ⟨w, _, hs⟩ := setAttr_free (o := { o with prot := false }) rfl h1 h2
          simp only [if_true, addDefault, hs]
          exact ⟨(), trivial, trivial⟩
      obtain ⟨u, hu, hpu⟩ := hr
      rw [hu]
      simp only
      split
      · exact ih hl' hpu
      · exact ih hl' hpu
    · exact ih hl' hp

theorem verifyBody_prot {inner : Inner} {env : Env} {o : Obj} {keys : List Str} {ih : IH} {mode : Mode} {w e : Str}
    (hp : o.prot = true) : (verifyBody inner env o keys ih mode w e).obj.prot = true := by
  unfold verifyBody
  obtain ⟨a, ha⟩ := phaseDims_obj o
  obtain ⟨d, hd⟩ := phaseShapes_obj (phaseDims o).2
  simp only
  split
  · exact hp
  · split
    · exact hp
    · split
      · rw [ha]
      · split
        · rw [hd, ha]
        · rw [verifyTail_obj, hd, ha]

theorem verify_prot {env : Env} {o : Obj} {ih : IH} {mode : Mode} (hp : o.prot = true)
    (hc : ∀ o1, resetConvention env o = .ok o1 → Spec.RegularConvention o1.conv) :
    (verify env o ih mode).obj.prot = true := by
  unfold verify verifyG
  cases hr : resetConvention env o with
  | error x => exact hp
  | ok o1 =>
    have hp1 : o1.prot = true := by
      obtain ⟨_, _, rfl, _⟩ := resetConvention_frame hr
      exact hp
    simp only
    have hf := fillMissing_prot (b := decide (ih ≠ .raise)) (keys := o1.keys) (hc o1 hr) hp1
    split
    · exact hf
    · split
      · exact hf
      · rename_i e2 _
        generalize (if ih = IH.raise then [] else _) = w
        generalize (if ih = IH.raise then _ else _) ++ e2 = e
        by_cases hc : (!e.isEmpty && ih != IH.ignore) = true
        · rw [if_pos hc, verifyEarly_obj]; exact hf
        · rw [if_neg hc]; exact verifyBody_prot hf

theorem addMissingLoop_free {m opt : Bool} {keys : List Str} {conv : Dict Entry} {o : Obj}
    (hl : Spec.RegularConvention conv) (hp : o.prot = false) :
    ∃ s, (addMissingLoop m opt keys conv o).1 = .ok s := by
  induction conv generalizing o with
  | nil => exact ⟨_, rfl⟩
  | cons p l ih =>
    obtain ⟨k, e⟩ := p
    have hl' : Spec.RegularConvention l := fun k e h => hl k e (by simp [h])
    simp only [addMissingLoop]
    split
    · obtain ⟨h1, h2⟩ := hl k e (by simp)
      obtain ⟨w, _, hs⟩ := setAttr_free hp h1 h2
      rw [hs]
      simp only
      obtain ⟨s, hs'⟩ := ih hl' (o := { o with attrs := Dict.put o.attrs k w }) hp
      rw [hs']
      exact ⟨_, rfl⟩
    · exact ih hl' hp

/-- the frame of `add_missing` -/
theorem addMissing_frame {env : Env} {o : Obj} {m opt vb : Bool}
    (hc : ∀ o1, resetConvention env o = .ok o1 → Spec.RegularConvention o1.conv) :
    (addMissing env o m opt vb).obj = o ∨ ∃ o1, resetConvention env o = .ok o1 ∧
      (addMissing env o m opt vb).obj.prot = true ∧
      (addMissing env o m opt vb).obj.conv = o1.conv ∧
      (addMissing env o m opt vb).obj.custom = o1.custom ∧
      (addMissing env o m opt vb).obj.readOnly = o.readOnly ∧
      ∀ k v, Dict.get? o.attrs k = some v → Dict.get? (addMissing env o m opt vb).obj.attrs k = some v := by
  unfold addMissing
  cases hr : resetConvention env o with
  | error x => exact Or.inl rfl
  | ok o1 =>
    right
    obtain ⟨s, hs⟩ := addMissingLoop_free (m := m) (opt := opt) (keys := o1.keys) (o := { o1 with prot := false })
      (hc o1 hr) rfl
    have hk : py% "protected" ∉ o1.conv.map Prod.fst := by
      intro h
      obtain ⟨⟨k, e⟩, h1, rfl⟩ := List.mem_map.1 h
      exact (hc o1 hr _ e h1).1.1 (by decide)
    obtain ⟨l, hl, ho⟩ := addMissingLoop_ok hk hs
    simp only [hs]
    refine ⟨o1, rfl, trivial, ?_, ?_, ?_, ?_⟩
    · rw [ho]
    · rw [ho]
    · rw [ho]
      obtain ⟨_, _, rfl, _⟩ := resetConvention_frame hr
      rfl
    · intro k v hv
      rw [ho]
      simp only
      rw [resetConvention_attrs hr, Dict.get?_foldl_put]
      split
      · rename_i p hp
        exfalso
        have h1 := List.mem_of_find?_eq_some hp
        have h2 := List.find?_some hp
        simp only [decide_eq_true_eq] at h2
        rw [List.mem_reverse] at h1
        have h3 : p.1 ∈ l.map Prod.fst := List.mem_map.2 ⟨p, h1, rfl⟩
        rw [hl.names] at h3
        obtain ⟨q, hq, hq1⟩ := List.mem_map.1 h3
        have := (List.mem_filter.1 hq).2
        simp only [Bool.and_eq_true, Bool.not_eq_true', ← Bool.not_eq_true, List.contains_iff_mem] at this
        apply this.1
        rw [hq1, h2]
        have hk : o1.keys = o.keys := by unfold Obj.keys; rw [resetConvention_attrs hr]
        rw [hk]
        exact mem_keys_of_get hv
      · exact hv

theorem getDimension_obj (env : Env) (o : Obj) (d : Str) :
    (getDimension env o d).obj = (verify env o .ret .write).obj := by
  have h : (updateDimensions env o).obj = (verify env o .ret .write).obj := by
    unfold updateDimensions
    simp only
    split
    · rfl
    · rfl
    · split <;> rfl
  unfold getDimension
  simp only
  split
  · exact h
  · split
    · exact h
    · split <;> exact h

theorem mem_put {V : Type} {d : Dict V} {k k' : Str} {e e' : V} (h : (k, e) ∈ Dict.put d k' e') :
    (k, e) ∈ d ∨ (k = k' ∧ e = e') := by
  induction d with
  | nil => simp [Dict.put] at h; exact Or.inr h
  | cons p d ih =>
    obtain ⟨a, b⟩ := p
    simp only [Dict.put] at h
    split at h
    · rename_i hc
      rcases List.mem_cons.1 h with h | h
      · cases h; exact Or.inr ⟨hc, rfl⟩
      · exact Or.inl (by simp [h])
    · rcases List.mem_cons.1 h with h | h
      · exact Or.inl (by simp [h])
      · exact (ih h).imp (fun h => by simp [h]) id

theorem mem_foldl_put {V : Type} {l d : Dict V} {k : Str} {e : V}
    (h : (k, e) ∈ l.foldl (fun d p => Dict.put d p.1 p.2) d) : (k, e) ∈ d ∨ (k, e) ∈ l := by
  induction l generalizing d with
  | nil => exact Or.inl h
  | cons p l ih =>
    rcases ih h with h | h
    · rcases mem_put h with h | ⟨h1, h2⟩
      · exact Or.inl h
      · right; rw [h1, h2]; simp
    · exact Or.inr (by simp [h])

/-- what is kept by all calls -/
structure Kept (keep : List Str) (o0 o : Obj) : Prop where
  prot : o.prot = true
  vals : ∀ k ∈ keep, ∃ v, Dict.get? o0.attrs k = some v ∧ Dict.get? o.attrs k = some v
  readOnly : ∀ k ∈ keep, o.readOnly.has k = true
  mand : ∀ k ∈ keep, Spec.MandatoryIn o.conv k
  custom : ∀ c, o.custom = some c → Spec.RegularConvention c ∧ (c.map Prod.fst).Nodup

/-- the convention files that can be loaded for the object are regular -/
def FilesOk (env : Env) (keep : List Str) (o0 : Obj) : Prop :=
  ∀ cv c v conv, Dict.get? o0.attrs (py% "GLOBAL_SOFAConventions") = some cv → cv.asStr = some c →
    Dict.get? o0.attrs (py% "GLOBAL_SOFAConventionsVersion") = some v →
    loadConvention env c (.exact (pyStr env v)) = .ok conv →
    Spec.RegularConvention conv ∧ ∀ k ∈ keep, Spec.MandatoryIn conv k

theorem Kept.reset {env : Env} {keep : List Str} {o0 o o1 : Obj} (h : Kept keep o0 o) (hf : FilesOk env keep o0)
    (hk : py% "GLOBAL_SOFAConventions" ∈ keep) (hk' : py% "GLOBAL_SOFAConventionsVersion" ∈ keep)
    (hr : resetConvention env o = .ok o1) :
    Spec.RegularConvention o1.conv ∧ (∀ k ∈ keep, Spec.MandatoryIn o1.conv k) ∧
      (∀ c, o1.custom = some c → Spec.RegularConvention c ∧ (c.map Prod.fst).Nodup) := by
  obtain ⟨cv, c, v, conv, h1, h2, h3, h4, h5, h6⟩ := resetConvention_inv hr
  have h1' := getAttr_data (by decide) (by decide) h1
  have h3' := getAttr_data (by decide) (by decide) h3
  obtain ⟨w, hw1, hw2⟩ := h.vals _ hk
  obtain ⟨w', hw1', hw2'⟩ := h.vals _ hk'
  rw [h1'] at hw2
  cases hw2
  rw [h3'] at hw2'
  cases hw2'
  obtain ⟨hreg, hman⟩ := hf cv c v conv hw1 h2 hw1' h5
  cases hc : o.custom with
  | none =>
    rw [hc] at h6
    subst h6
    exact ⟨hreg, hman, fun c h => by simp at h⟩
  | some cu =>
    rw [hc] at h6
    obtain ⟨hcr, hcn⟩ := h.custom cu hc
    subst h6
    refine ⟨?_, ?_, ?_⟩
    · intro k e hke
      rcases mem_foldl_put hke with hke | hke
      · exact hreg k e hke
      · exact hcr k e (List.mem_filter.1 hke).1
    · intro k hkk
      obtain ⟨e, he, hm⟩ := hman k hkk
      refine ⟨e, ?_, hm⟩
      have := (get?_mergeCustom conv cu k hcn).1
      simp only [he] at this
      exact this
    · intro c' hc'
      simp only [Option.some.injEq] at hc'
      subst hc'
      exact ⟨fun k e hke => hcr k e (List.mem_filter.1 hke).1, Dict.nodup_filter _ hcn⟩

theorem MandatoryIn.put {d : Dict Entry} {k n : Str} {e : Entry} (h : Spec.MandatoryIn d k) (hn : Dict.has d n = false) :
    Spec.MandatoryIn (Dict.put d n e) k := by
  obtain ⟨e', he, hm⟩ := h
  refine ⟨e', ?_, hm⟩
  rw [Dict.get?_put_ne _ _ _, he]
  rintro rfl
  rw [(Dict.has_iff _ _).2 ⟨e', he⟩] at hn
  cases hn

theorem Kept.addEntry {keep : List Str} {o0 o : Obj} (h : Kept keep o0 o) {n : Str} {v : Inp} {t : Str}
    {d : Option Str} (hv : v ≠ .ragged) (hn : isPrivate n = false) : Kept keep o0 (addEntry o n v t d).obj := by
  cases hc : checkEntry o n t d with
  | some e =>
    have : (Sofar.addEntry o n v t d).obj = o := by unfold Sofar.addEntry; rw [hc]
    rw [this]
    exact h
  | none =>
    obtain ⟨w, hw⟩ := normalise_ok hv
    rw [addEntry_ok o n v w t d hc hw hn]
    have hnew := checkEntry_new hc
    have hvals : ∀ k ∈ keep, ∃ v, Dict.get? o0.attrs k = some v ∧ Dict.get? (Dict.put o.attrs n w) k = some v := by
      intro k hk
      obtain ⟨x, h1, h2⟩ := h.vals k hk
      refine ⟨x, h1, ?_⟩
      rw [Dict.get?_put_ne _ _ _, h2]
      rintro rfl
      simp [Obj.hasAttr, Dict.has, h2] at hnew
    have hreg : registerCustom { o with prot := false } n
        (customEntry none ((d.map Str.upper).map customDims) t) = { o with prot := false } ∨
      (Dict.has o.conv n = false ∧ registerCustom { o with prot := false } n
        (customEntry none ((d.map Str.upper).map customDims) t) = { o with
          conv := Dict.put o.conv n (customEntry none ((d.map Str.upper).map customDims) t)
          custom := some (Dict.put (o.custom.getD []) n (customEntry none ((d.map Str.upper).map customDims) t))
          prot := false }) := by
      unfold registerCustom
      cases hh : Dict.has o.conv n with
      | true => left; simp
      | false => right; simp
    rcases hreg with hreg | ⟨hhas, hreg⟩
    · rw [hreg]
      exact ⟨rfl, hvals, h.readOnly, h.mand, h.custom⟩
    · rw [hreg]
      refine ⟨rfl, hvals, h.readOnly, fun k hk => MandatoryIn.put (h.mand k hk) hhas, ?_⟩
      intro c hc'
      simp only [Option.some.injEq] at hc'
      subst hc'
      have hpub : n ∉ publicMembers := fun hm => new_ne_member hnew hm rfl
      cases hcu : o.custom with
      | none =>
        refine ⟨?_, by simp [Dict.put]⟩
        intro k e hke
        rcases mem_put hke with hke | ⟨rfl, rfl⟩
        · simp at hke
        · exact ⟨⟨hpub, hn⟩, by simp [customEntry]⟩
      | some cu =>
        obtain ⟨h1, h2⟩ := h.custom cu hcu
        refine ⟨?_, Dict.nodup_put _ _ h2⟩
        intro k e hke
        rcases mem_put hke with hke | ⟨rfl, rfl⟩
        · exact h1 k e hke
        · exact ⟨⟨hpub, hn⟩, by simp [customEntry]⟩

theorem Kept.verify {env : Env} {keep : List Str} {o0 o : Obj} (h : Kept keep o0 o) (hf : FilesOk env keep o0)
    (hk : py% "GLOBAL_SOFAConventions" ∈ keep) (hk' : py% "GLOBAL_SOFAConventionsVersion" ∈ keep)
    (ih : IH) (mode : Mode) : Kept keep o0 (verify env o ih mode).obj := by
  have hfr := verifyG_frame referenceNames env o ih mode
  change VerifyFrame env o ih (Sofar.verify env o ih mode).obj at hfr
  refine ⟨verify_prot h.prot (fun o1 hr => (h.reset hf hk hk' hr).1), ?_, ?_, ?_, ?_⟩
  · intro k hkk
    obtain ⟨v, h1, h2⟩ := h.vals k hkk
    refine ⟨v, h1, ?_⟩
    rcases hfr.attrs k with h3 | ⟨_, h3, _⟩
    · rw [h3, h2]
    · exact absurd (mem_keys_of_get h2) h3
  · rw [hfr.readOnly]; exact h.readOnly
  · rcases hfr.conv with h3 | ⟨o1, hr, h3, _⟩
    · rw [h3]; exact h.mand
    · rw [h3]; exact (h.reset hf hk hk' hr).2.1
  · rcases hfr.conv with h3 | ⟨o1, hr, _, h3⟩
    · rw [h3]; exact h.custom
    · rw [h3]; exact (h.reset hf hk hk' hr).2.2

theorem Kept.step {env : Env} {keep : List Str} {o0 o : Obj} (h : Kept keep o0 o) (hf : FilesOk env keep o0)
    (hk : py% "GLOBAL_SOFAConventions" ∈ keep) (hk' : py% "GLOBAL_SOFAConventionsVersion" ∈ keep)
    (op : Op) (hop : Spec.RegularOp op) : Kept keep o0 (step env o op) := by
  cases op with
  | set n v =>
    simp only [Sofar.step]
    rcases setAttr_cases o n v with ⟨e, _, h2, _⟩ | ⟨b, h1, h2, _, h3⟩ | ⟨w, _, _, _, h2, h3, _⟩
    · rw [h2]; exact h
    · rw [h3]
      cases b with
      | false => exact absurd ⟨h2, h1⟩ hop
      | true => exact ⟨rfl, h.vals, h.readOnly, h.mand, h.custom⟩
    · rw [h3]
      refine ⟨h.prot, ?_, h.readOnly, h.mand, h.custom⟩
      intro k hkk
      obtain ⟨x, h4, h5⟩ := h.vals k hkk
      refine ⟨x, h4, ?_⟩
      simp only
      rw [Dict.get?_put_ne _ _ _, h5]
      rintro rfl
      have := h2 h.prot
      rw [h.readOnly k hkk] at this
      cases this
  | delete n =>
    simp only [Sofar.step]
    rcases delAttr_cases o n with ⟨e, _, h2⟩ | ⟨_, h2, h3⟩
    · rw [h2]; exact h
    · rw [h3]
      refine ⟨h.prot, ?_, h.readOnly, h.mand, ?_⟩
      · intro k hkk
        obtain ⟨x, h4, h5⟩ := h.vals k hkk
        refine ⟨x, h4, ?_⟩
        simp only
        rw [Dict.get?_del_ne _ _, h5]
        rintro rfl
        obtain ⟨e, he, hm⟩ := h2 h.prot
        obtain ⟨e', he', hm'⟩ := h.mand k hkk
        rw [he] at he'
        cases he'
        rw [← mandatory_iff, hm] at hm'
        cases hm'
      · intro c hc
        simp only [Option.map_eq_some_iff] at hc
        obtain ⟨cu, hcu, rfl⟩ := hc
        obtain ⟨h4, h5⟩ := h.custom cu hcu
        exact ⟨fun k e hke => h4 k e (List.mem_filter.1 hke).1, Dict.nodup_filter _ h5⟩
  | addVariable n v t d => exact h.addEntry hop.1 hop.2
  | addAttribute n v => exact h.addEntry hop.1 hop.2
  | addMissing m opt vb =>
    simp only [Sofar.step]
    rcases addMissing_frame (env := env) (o := o) (m := m) (opt := opt) (vb := vb)
      (fun o1 hr => (h.reset hf hk hk' hr).1) with h1 | ⟨o1, hr, h1, h2, h3, h4, h5⟩
    · rw [h1]; exact h
    · refine ⟨h1, ?_, by rw [h4]; exact h.readOnly, by rw [h2]; exact (h.reset hf hk hk' hr).2.1,
        by rw [h3]; exact (h.reset hf hk hk' hr).2.2⟩
      intro k hkk
      obtain ⟨x, h6, h7⟩ := h.vals k hkk
      exact ⟨x, h6, h5 k x h7⟩
  | verify ih mode => exact h.verify hf hk hk' ih mode
  | getDimension d =>
    simp only [Sofar.step]
    rw [getDimension_obj]
    exact h.verify hf hk hk' .ret .write

theorem Kept.run {env : Env} {keep : List Str} {o0 o : Obj} (h : Kept keep o0 o) (hf : FilesOk env keep o0)
    (hk : py% "GLOBAL_SOFAConventions" ∈ keep) (hk' : py% "GLOBAL_SOFAConventionsVersion" ∈ keep)
    (ops : List Op) (hop : ∀ op ∈ ops, Spec.RegularOp op) : Kept keep o0 (run env o ops) := by
  unfold Sofar.run
  induction ops generalizing o with
  | nil => exact h
  | cons op ops ih => exact ih (h.step hf hk hk' op (hop op (by simp))) (fun p hp => hop p (by simp [hp]))

theorem readOnly_has_of_mem {l : List Str} {k : Str} (h : k ∈ l) : (ReadOnly.ofList l).has k = true := by
  match l, h with
  | [s], h =>
    simp only [List.mem_singleton] at h
    subst h
    simp only [ReadOnly.ofList, ReadOnly.has]
    rw [hasSub_iff]
    exact List.infix_refl _
  | a :: b :: l, h =>
    simp only [ReadOnly.ofList, ReadOnly.has, List.contains_iff_mem]
    exact h

theorem initSofa_conv {env : Env} {c : Str} {m : Bool} {ver : VersionArg} {a : VerifyArg} {o o0 : Obj}
    {conv : Dict Entry} {c' v' : Str}
    (h : (initSofa env c m ver a).out = .ok o) (hl : loadConvention env c ver = .ok conv)
    (h2 : conventionToSofa env m (emptyObj conv) = .ok o0) (hc0 : o0.conv = conv) (hu0 : o0.custom = none)
    (hC : Dict.get? o0.attrs (py% "GLOBAL_SOFAConventions") = some (.str c'))
    (hV : Dict.get? o0.attrs (py% "GLOBAL_SOFAConventionsVersion") = some (.str v'))
    (hload : loadConvention env c' (.exact v') = .ok conv) : o.conv = conv ∧ o.custom = none := by
  have hfin : ∀ v b, (finishInit env m v b o0).out = .ok o → o.conv = conv ∧ o.custom = none := by
    intro v b hb
    unfold finishInit at hb
    split at hb
    · simp only at hb
      split at hb
      · cases hb
      · simp only [Except.ok.injEq] at hb
        subst hb
        have hf := verifyG_frame (fun _ _ => ⟨.error .unmodelled, []⟩) env o0 .raise .read
        change VerifyFrame env o0 .raise (verifyNew env o0 .raise .read).obj at hf
        rcases hf.conv with h3 | ⟨o1, hr, h3, h4⟩
        · simp only [h3]; exact ⟨hc0, hu0⟩
        · simp only [h3, h4]
          obtain ⟨cv, s, v, cnv, g1, g2, g3, _, g5, g6⟩ := resetConvention_inv hr
          rw [getAttr_of_get hC] at g1
          cases g1
          rw [getAttr_of_get hV] at g3
          cases g3
          simp only [Val.asStr, Option.some.injEq] at g2
          subst g2
          change loadConvention env c' (.exact v') = _ at g5
          rw [hload] at g5
          cases g5
          rw [g6, hu0]
          exact ⟨rfl, rfl⟩
    · split at hb
      · cases hb
      · simp only [Except.ok.injEq] at hb; subst hb; exact ⟨hc0, hu0⟩
      · simp only [Except.ok.injEq] at hb; subst hb; exact ⟨hc0, hu0⟩
  unfold initSofa at h
  simp only [hl, h2] at h
  split at h
  · cases h
  · split at h
    · exact hfin _ _ h
    · exact hfin _ _ h
    · split at h
      · cases h
      · exact hfin _ _ h

theorem argmaxFile_mem (l : List (ConvFile × Rat)) (p : ConvFile × Rat) :
    argmaxFile p l ∈ (p :: l).map Prod.fst := by
  induction l generalizing p with
  | nil => simp [argmaxFile]
  | cons q l ih =>
    rw [argmaxFile]
    have := ih (if p.2 < q.2 then q else p)
    split at this <;> grind

theorem mapM_files (l : List ConvFile) (r : List (ConvFile × Rat))
    (hr : l.mapM (fun g => (pyFloat (fileVersion g.base)).map (fun q => (g, q))) = some r) :
    r.map Prod.fst = l := by
  induction l generalizing r with
  | nil => simp at hr; subst hr; rfl
  | cons x l ih =>
    simp only [List.mapM_cons, Option.bind_eq_bind, Option.bind_eq_some_iff, Option.map_eq_some_iff,
      Option.pure_def, Option.some.injEq] at hr
    obtain ⟨y, ⟨q, _, rfl⟩, r', hr', rfl⟩ := hr
    simp [ih r' hr']

theorem selectFile_mem {env : Env} {c : Str} {ver : VersionArg} {f : ConvFile}
    (hs : selectFile env c ver = .ok f) : f ∈ env.files := by
  unfold selectFile at hs
  simp only at hs
  split at hs
  · cases hs
  · rename_i g gs hg
    have hsub : ∀ x ∈ g :: gs, x ∈ env.files := by
      intro x hx
      rw [← hg] at hx
      exact (List.mem_filter.1 hx).1
    cases ver with
    | exact v =>
      simp only at hs
      split at hs
      · rename_i x hx
        cases hs
        exact hsub _ (List.mem_of_find?_eq_some hx)
      · cases hs
    | latest =>
      simp only at hs
      split at hs
      · rename_i p l hm
        cases hs
        apply hsub
        rw [← mapM_files _ _ hm]
        exact argmaxFile_mem _ _
      · cases hs

end Sofar
