import Verif.Spec.FileOrder
import Verif.Lemmas.Order
import Verif.Lemmas.ExtendedRead
/-!
# The order of the data in files
-/
namespace Sofar

/-! ## The entries of the files -/

theorem attrItems_allowed {nc : Nc} {pre : Str} {d : Dict Val} {l : List Item} (h : attrItems nc pre d = .ok l) :
    ∀ a v, (a, v) ∈ d → nc.reserved a = false ∧ nc.special a = false := by
  induction d generalizing l with
  | nil => intro a v hm; cases hm
  | cons p d ih =>
    obtain ⟨a, v⟩ := p
    simp only [attrItems] at h
    split at h
    · cases h
    · rename_i hr
      split at h
      · cases h
      · rename_i r hr2
        intro b w hm
        rcases List.mem_cons.1 hm with he | hm
        · cases he
          simpa using hr
        · exact ih hr2 b w hm

theorem attrItems_perm {nc : Nc} {pre : Str} {d d' : Dict Val} {l : List Item} (hp : d'.Perm d)
    (h : attrItems nc pre d = .ok l) : ∃ l', attrItems nc pre d' = .ok l' ∧ l'.Perm l := by
  refine ⟨_, attrItems_total (fun a v hm => attrItems_allowed h a v (hp.mem_iff.1 hm)), ?_⟩
  rw [attrItems_ok h]
  exact hp.map _

theorem varItems_perm {nc : Nc} {n : Str} {x x' : NcVar} {l : List Item} (hx : Spec.SameVariable x x')
    (h : (varItems nc n x).1 = .ok l) : ∃ l', (varItems nc n x').1 = .ok l' ∧ l'.Perm l := by
  unfold varItems at h ⊢
  rw [hx.data, hx.dims]
  cases hf : (formatFrom nc n x.data).1 with
  | error e => simp [hf] at h
  | ok v =>
    simp only [hf] at h ⊢
    cases ha : attrItems nc (sofarName n ++ py% "_") (withoutSkipped x.attrs) with
    | error e => simp [ha] at h
    | ok r =>
      simp only [ha, Except.ok.injEq] at h
      obtain ⟨r', h1, h2⟩ := attrItems_perm (d' := withoutSkipped x'.attrs) (hx.attrs.filter _) ha
      rw [h1]
      exact ⟨_, rfl, h ▸ h2.cons _⟩

theorem allVarItems_perm {nc : Nc} {d d' : Dict NcVar} (hp : d.Perm d') : ∀ {l : List Item},
    allVarItems nc d = .ok l → ∃ l', allVarItems nc d' = .ok l' ∧ l'.Perm l := by
  induction hp with
  | nil => exact fun h => ⟨_, h, .refl _⟩
  | @cons p a b hab ih =>
    intro l h
    obtain ⟨n, x⟩ := p
    simp only [allVarItems] at h ⊢
    cases h1 : (varItems nc n x).1 with
    | error e => simp [h1] at h
    | ok u =>
      simp only [h1] at h ⊢
      cases h2 : allVarItems nc a with
      | error e => simp [h2] at h
      | ok w =>
        simp only [h2, Except.ok.injEq] at h
        obtain ⟨w', h3, h4⟩ := ih h2
        rw [h3]
        exact ⟨_, rfl, h ▸ h4.append_left u⟩
  | swap p q a =>
    intro l h
    obtain ⟨n, x⟩ := p
    obtain ⟨m, y⟩ := q
    simp only [allVarItems] at h ⊢
    cases h1 : (varItems nc n x).1 <;> cases h2 : (varItems nc m y).1 <;> cases h3 : allVarItems nc a <;>
      simp [h1, h2, h3] at h ⊢
    rw [← h, ← List.append_assoc, ← List.append_assoc]
    exact List.perm_append_comm.append_right _
  | trans _ _ ih1 ih2 =>
    intro l h
    obtain ⟨l1, h1, h2⟩ := ih1 h
    obtain ⟨l2, h3, h4⟩ := ih2 h1
    exact ⟨l2, h3, h4.trans h2⟩

theorem allVarItems_same {nc : Nc} {d d' : Dict NcVar}
    (hp : List.Forall₂ (fun p p' => p'.1 = p.1 ∧ Spec.SameVariable p.2 p'.2) d d') : ∀ {l : List Item},
    allVarItems nc d = .ok l → ∃ l', allVarItems nc d' = .ok l' ∧ l'.Perm l := by
  induction hp with
  | nil => exact fun h => ⟨_, h, .refl _⟩
  | @cons p p' a b hab _ ih =>
    intro l h
    obtain ⟨n, x⟩ := p
    obtain ⟨n', x'⟩ := p'
    obtain ⟨rfl, hx⟩ := hab
    simp only [allVarItems] at h ⊢
    cases h1 : (varItems nc n' x).1 with
    | error e => simp [h1] at h
    | ok u =>
      simp only [h1] at h ⊢
      cases h2 : allVarItems nc a with
      | error e => simp [h2] at h
      | ok w =>
        simp only [h2, Except.ok.injEq] at h
        obtain ⟨w', h3, h4⟩ := ih h2
        obtain ⟨u', h5, h6⟩ := varItems_perm hx h1
        simp only at h5
        rw [h3, h5]
        exact ⟨_, rfl, h ▸ h6.append h4⟩

theorem fileItems_perm {nc : Nc} {f f' : NcFile} {l : List Item} (hf : Spec.SameContent f f') (h : fileItems nc f = .ok l) :
    ∃ l', fileItems nc f' = .ok l' ∧ l'.Perm l := by
  obtain ⟨m, hm, hv⟩ := hf.vars
  unfold fileItems at h ⊢
  cases h1 : attrItems nc (py% "GLOBAL_") f.attrs with
  | error e => simp [h1] at h
  | ok g =>
    simp only [h1] at h
    cases h2 : allVarItems nc f.vars with
    | error e => simp [h2] at h
    | ok v =>
      simp only [h2, Except.ok.injEq] at h
      obtain ⟨g', h3, h4⟩ := attrItems_perm hf.attrs h1
      obtain ⟨v1, h5, h6⟩ := allVarItems_perm hm.symm h2
      obtain ⟨v2, h7, h8⟩ := allVarItems_same hv h5
      rw [h3]
      simp only [h7]
      exact ⟨_, rfl, h ▸ h4.append (h8.trans h6)⟩

theorem allVarItems_names {nc : Nc} {d : Dict NcVar} {l : List Item} (h : allVarItems nc d = .ok l) :
    l.map (·.name) = d.flatMap (fun p => Spec.dotName p.1 ::
      (p.2.attrs.filter (fun q => q.1 ≠ py% "_Encoding")).map (fun q => Spec.dotName p.1 ++ '_' :: q.1)) := by
  induction d generalizing l with
  | nil => cases h; rfl
  | cons p d ih =>
    obtain ⟨n, x⟩ := p
    simp only [allVarItems] at h
    cases h1 : (varItems nc n x).1 with
    | error e => simp [h1] at h
    | ok u =>
      simp only [h1] at h
      cases h2 : allVarItems nc d with
      | error e => simp [h2] at h
      | ok w =>
        simp only [h2, Except.ok.injEq] at h
        obtain ⟨v, _, hu⟩ := varItems_ok h1
        rw [← h, List.map_append, ih h2, hu, List.flatMap_cons]
        simp [withoutSkipped, Function.comp_def]

theorem fileItems_list {nc : Nc} {f : NcFile} {l : List Item} (h : fileItems nc f = .ok l) :
    l.map (·.name) = Spec.namesInFile f := by
  unfold fileItems at h
  cases h1 : attrItems nc (py% "GLOBAL_") f.attrs with
  | error e => simp [h1] at h
  | ok g =>
    simp only [h1] at h
    cases h2 : allVarItems nc f.vars with
    | error e => simp [h2] at h
    | ok v =>
      simp only [h2, Except.ok.injEq] at h
      rw [← h, List.map_append, allVarItems_names h2, attrItems_ok h1]
      simp [Spec.namesInFile, Function.comp_def]

/-! ## Loading the entries -/

/-- what is known after loading entries with different names -/
structure AllLoaded (st st' : Reading) (l : List Item) : Prop where
  attr : ∀ i ∈ l, Dict.get? st'.obj.attrs i.name = some i.value
  otherAttr : ∀ k, k ∉ l.map (·.name) → Dict.get? st'.obj.attrs k = Dict.get? st.obj.attrs k
  custom : ∀ i ∈ l, Dict.get? (st'.obj.custom.getD []) i.name =
    if st.obj.hasAttr i.name || Dict.has st.obj.conv i.name then Dict.get? (st.obj.custom.getD []) i.name
    else some (customEntry none (i.dims.map customDims) i.typ)
  otherCustom : ∀ k, k ∉ l.map (·.name) → Dict.get? (st'.obj.custom.getD []) k = Dict.get? (st.obj.custom.getD []) k
  isSome : st'.obj.custom.isSome = (st.obj.custom.isSome ||
    l.any (fun i => ! (st.obj.hasAttr i.name || Dict.has st.obj.conv i.name)))
  nodup : (Dict.keys (st.obj.custom.getD [])).Nodup → (Dict.keys (st'.obj.custom.getD [])).Nodup
  nodupAttrs : (Dict.keys st.obj.attrs).Nodup → (Dict.keys st'.obj.attrs).Nodup

/-- knowledge of other names does not change -/
theorem Loaded.others {st st' : Reading} {i : Item} (h : Loaded st st' i) {k : Str} (hk : k ≠ i.name) :
    Dict.get? st'.obj.attrs k = Dict.get? st.obj.attrs k ∧
    Dict.get? (st'.obj.custom.getD []) k = Dict.get? (st.obj.custom.getD []) k ∧
    Dict.has st'.obj.conv k = Dict.has st.obj.conv k := by
  refine ⟨by rw [h.attrs, Dict.get?_put_ne _ _ hk], ?_⟩
  rcases h.api with ⟨_, a2, a3, _⟩ | ⟨_, _, ⟨_, a3, a4⟩ | ⟨_, a3, a4⟩⟩
  · rw [a2, a3]; exact ⟨rfl, rfl⟩
  · rw [a3, a4]; exact ⟨rfl, rfl⟩
  · rw [a3, a4]
    unfold Dict.has
    rw [Dict.get?_put_ne _ _ hk]
    refine ⟨?_, rfl⟩
    simp only [Option.getD_some]
    rw [Dict.get?_put_ne _ _ hk]

theorem loadItems_all {l : List Item} {st st' : Reading} (hp : st.obj.prot = false) (hn : (l.map (·.name)).Nodup)
    (h : loadItems l st = .ok st') : AllLoaded st st' l := by
  induction l generalizing st with
  | nil =>
    cases h
    exact ⟨by simp, by simp, by simp, by simp, by simp, id, id⟩
  | cons i l ih =>
    have hpriv : ∀ j ∈ i :: l, isPrivate j.name = false := fun j hj => (loadItems_can hp h j hj).2.2
    simp only [loadItems] at h
    cases h1 : loadItem st i with
    | error e => simp [h1] at h
    | ok s1 =>
      simp only [h1] at h
      simp only [List.map_cons, List.nodup_cons] at hn
      have hl := loadItem_ok hp h1
      have hr := ih hl.prot hn.2 h
      have hne : ∀ j ∈ l, j.name ≠ i.name := fun j hj he => hn.1 (he ▸ List.mem_map_of_mem hj)
      have hcond : ∀ j ∈ l, (s1.obj.hasAttr j.name || Dict.has s1.obj.conv j.name) =
          (st.obj.hasAttr j.name || Dict.has st.obj.conv j.name) := by
        intro j hj
        obtain ⟨o1, _, o3⟩ := hl.others (hne j hj)
        have : s1.obj.hasAttr j.name = st.obj.hasAttr j.name := by
          rw [Bool.eq_iff_iff, hasAttr_public _ _ (hpriv j (by simp [hj])), hasAttr_public _ _ (hpriv j (by simp [hj]))]
          unfold Dict.has
          rw [o1]
        rw [this, o3]
      refine ⟨?_, ?_, ?_, ?_, ?_, ?_, ?_⟩
      · intro j hj
        rcases List.mem_cons.1 hj with rfl | hj
        · rw [hr.otherAttr _ hn.1, hl.attrs, Dict.get?_put_self]
        · exact hr.attr j hj
      · intro k hk
        simp only [List.map_cons, List.mem_cons, not_or] at hk
        rw [hr.otherAttr k hk.2, (hl.others hk.1).1]
      · intro j hj
        rcases List.mem_cons.1 hj with rfl | hj
        · rw [hr.otherCustom _ hn.1]
          rcases hl.api with ⟨a1, _, a3, _⟩ | ⟨a1, _, ⟨a2, _, a4⟩ | ⟨a2, _, a4⟩⟩
          · simp [a1, a3]
          · simp [a1, a2, a4]
          · simp [a1, a2, a4, Dict.get?_put_self]
        · rw [hr.custom j hj, hcond j hj, (hl.others (hne j hj)).2.1]
      · intro k hk
        simp only [List.map_cons, List.mem_cons, not_or] at hk
        rw [hr.otherCustom k hk.2, (hl.others hk.1).2.1]
      · rw [hr.isSome, List.any_cons]
        have : l.any (fun i => ! (s1.obj.hasAttr i.name || Dict.has s1.obj.conv i.name)) =
            l.any (fun i => ! (st.obj.hasAttr i.name || Dict.has st.obj.conv i.name)) := by
          rw [Bool.eq_iff_iff, List.any_eq_true, List.any_eq_true]
          constructor <;> rintro ⟨j, hj, hc⟩ <;> refine ⟨j, hj, ?_⟩
          · rw [← hcond j hj]; exact hc
          · rw [hcond j hj]; exact hc
        rw [this]
        rcases hl.api with ⟨a1, _, a3, _⟩ | ⟨a1, _, ⟨a2, _, a4⟩ | ⟨a2, _, a4⟩⟩
        · simp [a1, a3]
        · simp [a1, a2, a4]
        · simp [a1, a2, a4]
      · intro hd
        apply hr.nodup
        rcases hl.api with ⟨_, _, a3, _⟩ | ⟨_, _, ⟨_, _, a4⟩ | ⟨_, _, a4⟩⟩
        · rw [a3]; exact hd
        · rw [a4]; exact hd
        · rw [a4]; exact Dict.nodup_put _ _ hd
      · intro hd
        apply hr.nodupAttrs
        rw [hl.attrs]
        exact Dict.nodup_put _ _ hd

theorem perm_of_get? {V : Type} {d d' : Dict V} (hn : (Dict.keys d).Nodup) (hn' : (Dict.keys d').Nodup)
    (h : ∀ k, Dict.get? d' k = Dict.get? d k) : d'.Perm d := by
  rw [List.perm_ext_iff_of_nodup (List.Nodup.of_map _ hn') (List.Nodup.of_map _ hn)]
  rintro ⟨k, v⟩
  exact mem_iff_of_get? hn hn' h k v

/-- loading in another order -/
theorem AllLoaded.perm {st s1 s2 : Reading} {l l' : List Item} (h1 : AllLoaded st s1 l) (h2 : AllLoaded st s2 l')
    (hp : l'.Perm l) (ha : (Dict.keys st.obj.attrs).Nodup) (hc : (Dict.keys (st.obj.custom.getD [])).Nodup) :
    Spec.Reordered s1.obj s2.obj := by
  have hnames : ∀ k, k ∈ l'.map (·.name) ↔ k ∈ l.map (·.name) := fun k => (hp.map _).mem_iff
  refine ⟨⟨?_, h1.nodupAttrs ha⟩, ?_⟩
  · apply perm_of_get? (h1.nodupAttrs ha) (h2.nodupAttrs ha)
    intro k
    by_cases hk : k ∈ l.map (·.name)
    · obtain ⟨i, hi, rfl⟩ := List.mem_map.1 hk
      rw [h1.attr i hi, h2.attr i (hp.mem_iff.2 hi)]
    · rw [h1.otherAttr k hk, h2.otherAttr k (fun hm => hk ((hnames k).1 hm))]
  · have hget : ∀ k, Dict.get? (s2.obj.custom.getD []) k = Dict.get? (s1.obj.custom.getD []) k := by
      intro k
      by_cases hk : k ∈ l.map (·.name)
      · obtain ⟨i, hi, rfl⟩ := List.mem_map.1 hk
        rw [h1.custom i hi, h2.custom i (hp.mem_iff.2 hi)]
      · rw [h1.otherCustom k hk, h2.otherCustom k (fun hm => hk ((hnames k).1 hm))]
    have hperm := perm_of_get? (h1.nodup hc) (h2.nodup hc) hget
    have hsome : s2.obj.custom.isSome = s1.obj.custom.isSome := by
      rw [h1.isSome, h2.isSome, hp.any_eq]
    have hnd := h1.nodup hc
    cases e1 : s1.obj.custom with
    | none =>
      rw [e1] at hsome
      exact Or.inl ⟨rfl, by simpa using hsome⟩
    | some c =>
      rw [e1] at hsome
      cases e2 : s2.obj.custom with
      | none => rw [e2] at hsome; cases hsome
      | some c' =>
        rw [e1, e2] at hperm
        rw [e1] at hnd
        exact Or.inr ⟨c, c', rfl, rfl, hperm, hnd⟩

theorem loadFile_possible {nc : Nc} {f : NcFile} {new : Obj} {vb : Bool} {l : List Item}
    (hn : (Dict.keys new.attrs).Nodup) (hf : fileItems nc f = .ok l) (ho : ∀ i ∈ l, CanLoad i.name) :
    ∃ o, (loadFile nc f new vb).out = .ok o := by
  unfold fileItems at hf
  unfold loadFile
  cases hg : attrItems nc (py% "GLOBAL_") f.attrs with
  | error e => simp [hg] at hf
  | ok g =>
    simp only [hg] at hf
    cases hv : allVarItems nc f.vars with
    | error e => simp [hv] at hf
    | ok v =>
      simp only [hv, Except.ok.injEq] at hf
      subst hf
      obtain ⟨st, hst⟩ := loadItems_possible (l := g) (st := ⟨{ new with prot := false }, [], []⟩) rfl
        (fun i hi => ho i (by simp [hi]))
      obtain ⟨a, b, c⟩ := loadItems_ok (by rfl) hst
      obtain ⟨st', hst'⟩ := loadItems_possible (l := v) a (fun i hi => ho i (by simp [hi]))
      obtain ⟨a', b', c'⟩ := loadItems_ok a hst'
      have hr : (readVars nc f.vars st).1 = .ok st' := readVars_iff.2 ⟨v, hv, hst'⟩
      obtain ⟨o', d1, _⟩ := deleteExtra_ok (all := st'.all) (ks := st'.obj.keys) a' (fun k hk => hk) (by
        show (Dict.keys st'.obj.attrs).Nodup
        rw [c', c]
        exact nodup_foldl_items _ _ (nodup_foldl_items _ _ hn))
      simp only [hst, hr, d1]
      exact ⟨_, rfl⟩

theorem contains_perm {l l' : List Str} (h : l'.Perm l) (k : Str) : l'.contains k = l.contains k := by
  rw [Bool.eq_iff_iff, List.contains_iff_mem, List.contains_iff_mem, h.mem_iff]

theorem filter_sameEntries {V : Type} {d d' : Dict V} {p p' : Str × V → Bool} (h : Spec.SameEntries d d') (hp : ∀ x, p' x = p x) :
    Spec.SameEntries (d.filter p) (d'.filter p') := by
  obtain rfl : p' = p := funext hp
  exact ⟨h.1.filter _, h.2.sublist (List.filter_sublist.map _)⟩

theorem loadFile_perm {nc : Nc} {f f' : NcFile} {n o : Obj} {vb vb' : Bool} (hf : Spec.SameContent f f')
    (hnames : (Spec.namesInFile f).Nodup) (ha : (Dict.keys n.attrs).Nodup) (hc : n.custom = none)
    (h : (loadFile nc f n vb).out = .ok o) :
    ∃ o', (loadFile nc f' n vb').out = .ok o' ∧ Spec.Reordered o o' := by
  obtain ⟨l, st, hl, hI⟩ := loadFile_iff ha h
  obtain ⟨l', hl', hp⟩ := fileItems_perm hf hl
  have hcan := loadItems_can (st := ⟨{ n with prot := false }, [], []⟩) rfl hI.load
  obtain ⟨o', ho'⟩ := loadFile_possible (vb := vb') ha hl' (fun i hi => hcan i (hp.mem_iff.1 hi))
  obtain ⟨l2, su, hl2, hI'⟩ := loadFile_iff ha ho'
  rw [hl'] at hl2
  cases hl2
  have hnd : (l.map (·.name)).Nodup := by rw [fileItems_list hl]; exact hnames
  have hnd' : (l'.map (·.name)).Nodup := (hp.map _).nodup_iff.2 hnd
  have hR := (loadItems_all (st := ⟨{ n with prot := false }, [], []⟩) rfl hnd hI.load).perm
    (loadItems_all (st := ⟨{ n with prot := false }, [], []⟩) rfl hnd' hI'.load) hp ha (by simp [hc, Dict.keys])
  refine ⟨o', ho', ?_, ?_⟩
  · rw [hI.attrs, hI'.attrs]
    exact filter_sameEntries hR.attrs (fun x => contains_perm (hp.map _) _)
  · rcases hR.custom with ⟨e1, e2⟩ | ⟨c, c', e1, e2, hs⟩
    · left
      constructor
      · cases hh : o.custom with
        | none => rfl
        | some d => obtain ⟨d', e3, _⟩ := hI.custom d hh; rw [e1] at e3; cases e3
      · cases hh : o'.custom with
        | none => rfl
        | some d => obtain ⟨d', e3, _⟩ := hI'.custom d hh; rw [e2] at e3; cases e3
    · right
      cases hh : o.custom with
      | none => have := hI.noCustom hh; rw [e1] at this; cases this
      | some d =>
        cases hh' : o'.custom with
        | none => have := hI'.noCustom hh'; rw [e2] at this; cases this
        | some d' =>
          obtain ⟨q, e3, e4⟩ := hI.custom d hh
          obtain ⟨q', e3', e4'⟩ := hI'.custom d' hh'
          rw [e1] at e3
          cases e3
          rw [e2] at e3'
          cases e3'
          refine ⟨d, d', rfl, rfl, ?_⟩
          rw [e4, e4']
          apply filter_sameEntries hs
          intro x
          rw [contains_perm (hp.map (·.name)), contains_perm (show (Dict.keys su.obj.attrs).Perm (Dict.keys st.obj.attrs) from
            hR.attrs.1.map Prod.fst)]

theorem reordered_loaded {env : Env} {o o' o1 o1' : Obj} (h : Spec.Reordered o o') (h1 : resetConvention env o = .ok o1)
    (h1' : resetConvention env o' = .ok o1') : Spec.Reordered o1 o1' := by
  obtain ⟨cv, c, v, conv, g1, g2, g3, _, g5, g6⟩ := resetConvention_inv h1
  obtain ⟨cv', c', v', conv', g1', g2', g3', _, g5', g6'⟩ := resetConvention_inv h1'
  rw [reordered_public h (k := py% "GLOBAL_SOFAConventions") (by decide), g1] at g1'
  cases g1'
  rw [reordered_public h (k := py% "GLOBAL_SOFAConventionsVersion") (by decide), g3] at g3'
  cases g3'
  rw [g2] at g2'
  cases g2'
  rw [g5] at g5'
  cases g5'
  rcases h.custom with ⟨e1, e2⟩ | ⟨d, d', e1, e2, hs⟩
  · simp only [e1] at g6
    simp only [e2] at g6'
    rw [g6, g6']
    exact ⟨h.attrs, Or.inl ⟨rfl, rfl⟩⟩
  · simp only [e1] at g6
    simp only [e2] at g6'
    rw [g6, g6']
    exact ⟨h.attrs, Or.inr ⟨_, _, rfl, rfl, filter_sameEntries hs (fun _ => rfl)⟩⟩

/-- the objects after successful verifications -/
theorem reordered_verified {env : Env} {o o' : Obj} (h : Spec.Reordered o o') {mode : Mode}
    (hs : ∀ o1 o1', resetConvention env o = .ok o1 → resetConvention env o' = .ok o1' → Shuffled o1 o1' → SameLast o1 o1')
    (hv : (verify env o .raise mode).out = .ok none) :
    (verify env o' .raise mode).out = .ok none ∧ Spec.Reordered (verify env o .raise mode).obj (verify env o' .raise mode).obj := by
  unfold verify at hv ⊢
  obtain ⟨-, o1, o3, hr, hp⟩ := (verifyG_raise_ok_iff _ _ _ _ _).1 hv
  rcases reordered_reset (env := env) h with ⟨x, h1, h2⟩ | ⟨p1, p1', h1, h2, h3, -, -⟩
  · rw [hr] at h1; cases h1
  · rw [hr] at h1
    cases h1
    obtain ⟨o3', hp', _⟩ := h3.passes_of (hs o1 p1' hr h2 h3) hp
    refine ⟨(verifyG_raise_ok_iff _ _ _ _ _).2 ⟨rfl, p1', o3', h2, hp'⟩, ?_⟩
    have f1 := verifyG_frame referenceNames env o .raise mode
    have f2 := verifyG_frame referenceNames env o' .raise mode
    have hL := reordered_loaded h hr h2
    refine ⟨by rw [f1.raise rfl, f2.raise rfl]; exact h.attrs, ?_⟩
    rw [(f1.loaded o1 hr).2, (f2.loaded p1' h2).2]
    exact hL.custom

theorem Spec.AgreeOnSizes.congr {o o' : Obj} (h : Spec.AgreeOnSizes o) (ha : o'.attrs = o.attrs) (hc : o'.conv = o.conv) :
    Spec.AgreeOnSizes o' := by
  have key : ∀ k c n, Spec.Defines o' k c n → Spec.Defines o k c n := by
    rintro k c n ⟨v, e, d, a, i, x, ⟨g1, g2, g3⟩, rest⟩
    exact ⟨v, e, d, a, i, x, ⟨ha ▸ g1, hc ▸ g2, g3⟩, rest⟩
  exact fun k k' c n n' h1 h2 => h k k' c n n' (key _ _ _ h1) (key _ _ _ h2)

theorem Spec.SameContent.fileAttr {f f' : NcFile} (h : Spec.SameContent f f') (hn : (Spec.namesInFile f).Nodup) (k : Str) :
    Sofar.fileAttr f' k = Sofar.fileAttr f k := by
  have : (f.attrs.map Prod.fst).Nodup := by
    have h1 := (List.nodup_append.1 hn).1
    have h2 : f.attrs.map (fun p => py% "GLOBAL_" ++ p.1) = (f.attrs.map Prod.fst).map (fun k => py% "GLOBAL_" ++ k) := by
      simp [Function.comp_def]
    rw [h2] at h1
    exact List.Nodup.of_map _ h1
  unfold Sofar.fileAttr
  rw [get?_perm ⟨h.attrs, this⟩]

/-- reading a file with the same content -/
theorem readSofa_perm_of {env : Env} {nc : Nc} {fs fs' : FS} {name name' : Str} {f f' : NcFile} (h1 : openFile fs name = .ok f)
    (h2 : openFile fs' name' = .ok f') (hf : Spec.SameContent f f') (hn : (Spec.namesInFile f).Nodup) {arg : VerifyArg}
    {vb vb' : Bool} {o : Obj} (ho : (readSofa env nc fs name arg vb).out = .ok o)
    (hs : arg = .no ∨ ∀ cv vv c v n r r' o1 o1', fileAttr f (py% "SOFAConventions") = .ok cv →
      fileAttr f (py% "SOFAConventionsVersion") = .ok vv → cv.asStr = some c → vv.asStr = some v →
      (initSofa env c false (.exact v) arg).out = .ok n → (loadFile nc f n vb).out = .ok r →
      (loadFile nc f' n vb').out = .ok r' → (verify env r .raise .read).out = .ok none →
      (verify env r .raise .read).obj = o → resetConvention env r = .ok o1 → resetConvention env r' = .ok o1' →
      Shuffled o1 o1' → SameLast o1 o1') :
    ∃ o', (readSofa env nc fs' name' arg vb').out = .ok o' ∧ Spec.Reordered o o' := by
  unfold readSofa at ho ⊢
  rw [h1] at ho
  rw [h2]
  simp only at ho ⊢
  rw [hf.fileAttr hn, hf.fileAttr hn]
  cases e2 : fileAttr f (py% "SOFAConventions") with
  | error x => simp [e2] at ho
  | ok cv =>
    simp only [e2] at ho ⊢
    cases e3 : fileAttr f (py% "SOFAConventionsVersion") with
    | error x => simp [e3] at ho
    | ok vv =>
      simp only [e3] at ho ⊢
      cases e4 : cv.asStr with
      | none => simp [e4] at ho
      | some c =>
        cases e5 : vv.asStr with
        | none => simp [e4, e5] at ho
        | some v =>
          simp only [e4, e5] at ho ⊢
          cases e6 : Sofar.verifyConvention env v c with
          | error x => simp [e6] at ho
          | ok u =>
            simp only [e6] at ho ⊢
            cases e7 : (initSofa env c false (.exact v) arg).out with
            | error x => simp [e7] at ho
            | ok n =>
              simp only [e7] at ho ⊢
              obtain ⟨_, _, _, _, _, _, _, _, _, _, hc, _⟩ := initSofa_parts e7
              cases e8 : (loadFile nc f n vb).out with
              | error x => simp [e8] at ho
              | ok r =>
                simp only [e8] at ho
                obtain ⟨r', e8', hR⟩ := loadFile_perm (vb' := vb') hf hn (initSofa_nodup e7) hc e8
                simp only [e8']
                have hst : ∀ b, (b = true → arg ≠ .no) → (if b = true then
                      (match (verify env r .raise .read).out with
                        | .error _ => (⟨.error (.valueError (py% "The SOFA object could not be verified")),
                            (verify env r .raise .read).ev⟩ : Created)
                        | .ok _ => ⟨.ok (verify env r .raise .read).obj, (verify env r .raise .read).ev⟩)
                      else ⟨.ok r, []⟩).out = .ok o →
                    ∃ o', (if b = true then
                      (match (verify env r' .raise .read).out with
                        | .error _ => (⟨.error (.valueError (py% "The SOFA object could not be verified")),
                            (verify env r' .raise .read).ev⟩ : Created)
                        | .ok _ => ⟨.ok (verify env r' .raise .read).obj, (verify env r' .raise .read).ev⟩)
                      else ⟨.ok r', []⟩).out = .ok o' ∧ Spec.Reordered o o' := by
                  intro b hb hr
                  cases b with
                  | false =>
                    simp only [Bool.false_eq_true, if_false, Except.ok.injEq] at hr ⊢
                    exact ⟨r', rfl, hr ▸ hR⟩
                  | true =>
                    simp only [if_true] at hr ⊢
                    cases hq : (verify env r .raise .read).out with
                    | error x => simp [hq] at hr
                    | ok q =>
                      simp only [hq, Except.ok.injEq] at hr
                      have hq0 : q = none := ((verifyG_raise_ok_iff _ _ _ _ _).1 hq).1
                      subst hq0
                      obtain ⟨g1, g2⟩ := reordered_verified hR (fun o1 o1' h1 h2 h3 =>
                        hs.resolve_left (hb rfl) cv vv c v n r r' o1 o1' e2 e3 e4 e5 e7 e8 e8' hq hr h1 h2 h3) hq
                      rw [g1]
                      exact ⟨_, rfl, hr ▸ g2⟩
                unfold verifyRead at ho ⊢
                cases arg with
                | yes => exact hst true (fun _ => by simp) ho
                | no => exact hst false (fun hb => by cases hb) ho
                | auto =>
                  simp only at ho ⊢
                  cases hb : isStable v with
                  | error x => simp [hb] at ho
                  | ok b =>
                    simp only [hb] at ho ⊢
                    exact hst b (fun _ => by simp) ho

/-- if the variables agree on the sizes -/
theorem readSofa_perm {env : Env} {nc : Nc} {fs fs' : FS} {name name' : Str} {f f' : NcFile} (h1 : openFile fs name = .ok f)
    (h2 : openFile fs' name' = .ok f') (hf : Spec.SameContent f f') (hn : (Spec.namesInFile f).Nodup) {arg : VerifyArg}
    {vb vb' : Bool} {o : Obj} (ho : (readSofa env nc fs name arg vb).out = .ok o)
    (hs : arg = .no ∨ Spec.AgreeOnSizes o ∧ Spec.CustomNoMethod o) :
    ∃ o', (readSofa env nc fs' name' arg vb').out = .ok o' ∧ Spec.Reordered o o' := by
  refine readSofa_perm_of (vb' := vb') h1 h2 hf hn ho (hs.imp id ?_)
  rintro ⟨s1, s2⟩ _ _ _ _ _ r r' o1 o1' _ _ _ _ _ _ _ hq hr h1 _ h3
  have fr := verifyG_frame referenceNames env r .raise .read
  obtain ⟨f1, f2⟩ := fr.loaded o1 h1
  have f3 := fr.raise rfl
  have f4 : o1.attrs = r.attrs := by
    obtain ⟨_, _, _, _, _, _, _, _, _, g6⟩ := resetConvention_inv h1
    rw [g6]
    cases r.custom <;> rfl
  have ec : o1.conv = o.conv := by rw [← hr]; exact f1.symm
  have eu : o1.custom = o.custom := by rw [← hr]; exact f2.symm
  have ea : o1.attrs = o.attrs := by rw [f4, ← hr]; exact f3.symm
  exact h3.sameLast (fun c k e hc hk => s2 c k e (eu ▸ hc) hk) (s1.congr ea ec)

end Sofar
