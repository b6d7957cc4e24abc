import Verif.Lemmas.Extended
import Verif.Lemmas.Same
import Verif.Props.Reading
/-!
# Reading files with extended conventions
-/
namespace Sofar

/-- whether a new object is verified -/
def verifyChoice (a : VerifyArg) (v : Str) : Except Exc Bool :=
  match a with
  | .yes => .ok true
  | .no => .ok false
  | .auto => isStable v

theorem initSofa_parts {env : Env} {c : Str} {m : Bool} {ver : VersionArg} {a : VerifyArg} {n : Obj}
    (h : (initSofa env c m ver a).out = .ok n) :
    ∃ conv o0 v b, loadConvention env c ver = .ok conv ∧ conventionToSofa env m (emptyObj conv) = .ok o0 ∧
      conventionVersion conv = .ok v ∧ verifyChoice a v = .ok b ∧ n.attrs = o0.attrs ∧ o0.custom = none ∧
      n.custom = none ∧
      if b && ! m then ∃ r, resetConvention env o0 = .ok r ∧ n.conv = r.conv else n.conv = conv := by
  have hinit := h
  unfold initSofa at h
  cases hl : loadConvention env c ver with
  | error x => simp [hl] at h
  | ok conv =>
    simp only [hl] at h
    cases hc : conventionToSofa env m (emptyObj conv) with
    | error x => simp [hc] at h
    | ok o0 =>
      simp only [hc] at h
      cases hv : conventionVersion conv with
      | error x => simp [hv] at h
      | ok v =>
        simp only [hv] at h
        have hat : n.attrs = o0.attrs := by
          obtain ⟨conv2, o2, g1, g2, g3, _⟩ := initSofa_ok hinit
          rw [hl] at g1
          cases g1
          rw [hc] at g2
          cases g2
          exact g3
        have hcc : o0.conv = conv ∧ o0.custom = none := by
          unfold conventionToSofa at hc
          cases hd : addDefaults m (emptyObj conv).conv (emptyObj conv) with
          | error x => simp [hd] at hc
          | ok o1 =>
            simp only [hd, Except.ok.injEq] at hc
            rw [← hc]
            exact addDefaults_conv hd
        have hfin : ∀ b, (finishInit env m v b o0).out = .ok n → n.custom = none ∧
            if b && ! m then ∃ r, resetConvention env o0 = .ok r ∧ n.conv = r.conv else n.conv = conv := by
          intro b h
          unfold finishInit at h
          split at h
          · rename_i hbm
            rw [if_pos hbm]
            simp only at h
            cases hr : (verifyNew env o0 .raise .read).out with
            | error x => simp [hr] at h
            | ok r =>
              simp only [hr, Except.ok.injEq] at h
              obtain ⟨_, o1, o3, h1, h2⟩ := (verifyG_raise_ok_iff _ _ _ _ _).1 hr
              have hld := (verifyG_frame (fun _ _ => ⟨.error .unmodelled, []⟩) env o0 .raise .read).loaded o1 h1
              refine ⟨?_, o1, h1, ?_⟩
              · rw [← h]
                have : o1.custom = none := by
                  obtain ⟨cv, s, vv, cnv, _, _, _, _, _, g6⟩ := resetConvention_inv h1
                  simp only [hcc.2] at g6
                  rw [g6]
                exact hld.2.trans this
              · rw [← h]
                exact hld.1
          · rename_i hbm
            rw [if_neg hbm]
            cases hb : isStable v with
            | error x => simp [hb] at h
            | ok t =>
              cases t <;>
              · simp only [hb, Except.ok.injEq] at h
                rw [← h]
                exact ⟨hcc.2, hcc.1⟩
        cases a with
        | yes => exact ⟨conv, o0, v, true, rfl, hc, hv, rfl, hat, hcc.2, hfin true h⟩
        | no => exact ⟨conv, o0, v, false, rfl, hc, hv, rfl, hat, hcc.2, hfin false h⟩
        | auto =>
          simp only at h
          cases hb : isStable v with
          | error x => simp [hb] at h
          | ok b =>
            simp only [hb] at h
            exact ⟨conv, o0, v, b, rfl, hc, hv, hb, hat, hcc.2, hfin b h⟩

theorem Dict.eq_of_keys {V : Type} {a b : Dict V} (hk : Dict.keys a = Dict.keys b) (hn : (Dict.keys b).Nodup)
    (hg : ∀ k ∈ Dict.keys b, Dict.get? a k = Dict.get? b k) : a = b := by
  induction a generalizing b with
  | nil =>
    cases b with
    | nil => rfl
    | cons q b => cases hk
  | cons p a ih =>
    cases b with
    | nil => cases hk
    | cons q b =>
      obtain ⟨k, v⟩ := p
      obtain ⟨k', v'⟩ := q
      simp only [Dict.keys, List.map_cons, List.cons.injEq] at hk
      obtain ⟨rfl, hk⟩ := hk
      simp only [Dict.keys, List.map_cons, List.nodup_cons] at hn
      have hv := hg k (by simp [Dict.keys])
      simp only [Dict.get?, if_true, Option.some.injEq] at hv
      subst hv
      congr 1
      refine ih hk hn.2 ?_
      intro j hj
      have hne : k ≠ j := fun he => hn.1 (he ▸ hj)
      have := hg j (by simp only [Dict.keys, List.map_cons, List.mem_cons]; exact Or.inr hj)
      simpa [Dict.get?, hne] using this

/-- The new objects of a convention and its extension agree outside of the new names. -/
theorem Extended.newObjects {new : List Str} {env env' : Env} (h : Spec.Extended new env env') {c : Str} {ver : VersionArg}
    {a : VerifyArg} {n n' : Obj} (hp : ∀ f ∈ env'.files, ∀ key e, (key, e) ∈ f.content → Spec.sofarName key ≠ py% "protected")
    (hs : ∀ k ∈ Spec.stampNames, k ∉ new)
    (hn : (initSofa env c false ver a).out = .ok n) (hn' : (initSofa env' c false ver a).out = .ok n') :
    n.attrs = n'.attrs.filter (fun p => ! new.contains p.1) ∧ n.custom = none ∧ n'.custom = none ∧
      Wider new n.conv n'.conv := by
  obtain ⟨conv, o0, v, b, h1, h2, h3, h4, h5, h6, hcu, h7⟩ := initSofa_parts hn
  obtain ⟨conv', o0', v', b', h1', h2', h3', h4', h5', h6', hcu', h7'⟩ := initSofa_parts hn'
  rcases Extended.load h c ver with ⟨x, hx, _⟩ | ⟨f, f', hf, hf', hE, hl, hl'⟩
  · rw [h1] at hx; cases hx
  rw [h1] at hl
  cases hl
  rw [h1'] at hl'
  cases hl'
  have hw := Extends.wider hE
  have hpr' : py% "protected" ∉ (convertKeys f'.content).map Prod.fst := by
    intro hm
    obtain ⟨⟨k, e⟩, hke, rfl⟩ := List.mem_map.1 hm
    obtain ⟨k0, h0, hk⟩ := convertKeys_get (Dict.get?_of_mem hw.nodup' hke)
    exact hp f' hf' k0 e h0 hk.symm
  have hpr : py% "protected" ∉ (convertKeys f.content).map Prod.fst := by
    intro hm
    rw [Extends.convert hE] at hm
    obtain ⟨p, hpm, hpe⟩ := List.mem_map.1 hm
    exact hpr' (List.mem_map.2 ⟨p, (List.mem_filter.1 hpm).1, hpe⟩)
  have hval : ∀ k, k ∉ new → k ∉ Spec.stampNames → Dict.get? o0'.attrs k = Dict.get? o0.attrs k := by
    intro k hk hs
    rw [← h5, ← h5']
    rcases initSofa_value hn h1 hpr hs with ⟨g1, g2⟩ | ⟨e, d, w, g1, g2, g3, g4⟩ <;>
      rcases initSofa_value hn' h1' hpr' hs with ⟨g1', g2'⟩ | ⟨e', d', w', g1', g2', g3', g4'⟩
    · rw [g2, g2']
    · rw [hw.same k hk, g1] at g1'; cases g1'
    · rw [hw.same k hk, g1] at g1'; cases g1'
    · rw [hw.same k hk, g1] at g1'
      cases g1'
      rw [g2] at g2'
      cases g2'
      rw [g3] at g3'
      cases g3'
      rw [g4, g4']
  refine ⟨?_, hcu, hcu', ?_⟩
  · obtain ⟨l, hd, hnd, ha⟩ := initSofa_data hn h1 hpr
    obtain ⟨l', hd', hnd', ha'⟩ := initSofa_data hn' h1' hpr'
    have hst : stamps env' = stamps env := by rw [h.rest]; rfl
    have hll : l = l'.filter (fun p => ! new.contains p.1) := by
      have hkeys : Dict.keys (l'.filter (fun p => ! new.contains p.1)) = Dict.keys l := by
        have e1 := hd.names
        have e2 := hd'.names
        simp only [Bool.not_false, Bool.or_true, List.filter_true] at e1 e2
        unfold Dict.keys
        rw [e1, Extends.convert hE]
        have : ∀ {V : Type} (d : Dict V), (d.filter (fun p => ! new.contains p.1)).map Prod.fst =
            (d.map Prod.fst).filter (fun k => ! new.contains k) := by
          intro V d
          rw [List.filter_map]
          rfl
        rw [this, this, e2]
      symm
      apply Dict.eq_of_keys hkeys hnd
      intro k hk
      have hkn : k ∉ new := by
        rw [← hkeys] at hk
        obtain ⟨p, hp, rfl⟩ := List.mem_map.1 hk
        simpa using (List.mem_filter.1 hp).2
      rw [Dict.get?_filterKeys (fun k => ! new.contains k)]
      simp only [List.contains_eq_mem, hkn, decide_false, Bool.not_false, if_true]
      obtain ⟨p, hpm, rfl⟩ := List.mem_map.1 hk
      obtain ⟨_, e, he, _, d, g1, g2⟩ := hd.values p.1 p.2 hpm
      have hk' : p.1 ∈ Dict.keys l' := by
        rw [← hkeys] at hk
        obtain ⟨q, hq, hqe⟩ := List.mem_map.1 hk
        exact List.mem_map.2 ⟨q, (List.mem_filter.1 hq).1, hqe⟩
      obtain ⟨q, hq, hqe⟩ := List.mem_map.1 hk'
      obtain ⟨_, e', he', _, d', g1', g2'⟩ := hd'.values q.1 q.2 hq
      have hee : e' = e := by
        have a1 := Dict.get?_of_mem hw.nodup he
        have a2 := Dict.get?_of_mem hw.nodup' he'
        rw [hqe, hw.same _ hkn, a1] at a2
        cases a2
        rfl
      subst hee
      rw [g1] at g1'
      cases g1'
      rw [g2] at g2'
      have hval : q.2 = p.2 := by simpa using g2'.symm
      rw [Dict.get?_of_mem hnd (show (p.1, p.2) ∈ l from hpm), ← hqe,
        Dict.get?_of_mem hnd' (show (q.1, q.2) ∈ l' from hq), hval]
    have key : ∀ (s : List (Str × Str)) (d : Dict Val), (∀ p ∈ s, p.1 ∉ new) →
        (s.foldl (fun d p => Dict.put d p.1 (.str p.2)) d).filter (fun p => ! new.contains p.1) =
          s.foldl (fun d p => Dict.put d p.1 (Val.str p.2)) (d.filter (fun p => ! new.contains p.1)) := by
      intro s
      induction s with
      | nil => exact fun _ _ => rfl
      | cons p s ih =>
        intro d hsn
        rw [List.foldl_cons, List.foldl_cons, ih _ (fun q hq => hsn q (by simp [hq])),
          Dict.put_filter (fun k => ! new.contains k), if_pos (by simpa using hsn p (by simp))]
    rw [ha, ha', hst, key, ← hll]
    intro p hp
    apply hs
    rw [← stamps_names env]
    exact List.mem_map_of_mem hp
  have hv : v' = v := by
    unfold conventionVersion at h3 h3'
    rw [hw.same _ h.version, h3] at h3'
    cases h3'
    rfl
  subst hv
  rw [h4] at h4'
  cases h4'
  cases b with
  | false =>
    simp only [Bool.false_and, Bool.false_eq_true, if_false] at h7 h7'
    rw [h7, h7']
    exact hw
  | true =>
    simp only [Bool.not_false, Bool.and_true, if_true] at h7 h7'
    obtain ⟨r, hr, hr2⟩ := h7
    obtain ⟨r', hr', hr2'⟩ := h7'
    rw [hr2, hr2']
    obtain ⟨cv, s, vv, cnv, g1, g2, g3, _, g5, g6⟩ := resetConvention_inv hr
    obtain ⟨cv', s', vv', cnv', g1', g2', g3', _, g5', g6'⟩ := resetConvention_inv hr'
    simp only [h6] at g6
    simp only [h6'] at g6'
    have b1 : o0'.getAttr (py% "GLOBAL_SOFAConventions") = o0.getAttr (py% "GLOBAL_SOFAConventions") :=
      getAttr_same (by decide) (by decide) (hval _ h.name (by decide))
    have b2 : o0'.getAttr (py% "GLOBAL_SOFAConventionsVersion") = o0.getAttr (py% "GLOBAL_SOFAConventionsVersion") :=
      getAttr_same (by decide) (by decide) (hval _ h.version (by decide))
    rw [b1, g1] at g1'
    cases g1'
    rw [b2, g3] at g3'
    cases g3'
    rw [g2] at g2'
    cases g2'
    have hps : pyStr env' vv = pyStr env vv := by rw [h.rest]; rfl
    rw [hps] at g5'
    rcases Extended.load h s (.exact (pyStr env vv)) with ⟨x, hx, _⟩ | ⟨q, q', _, _, hQ, ql, ql'⟩
    · rw [g5] at hx; cases hx
    · rw [g5] at ql
      cases ql
      rw [g5'] at ql'
      cases ql'
      rw [g6, g6']
      exact Extends.wider hQ

/-! ## Loading the entries -/

/-- The objects agree outside of the new names. -/
structure Beside (new : List Str) (o o' : Obj) : Prop where
  attrs : o.attrs = o'.attrs.filter (fun p => ! new.contains p.1)
  custom : o'.custom = o.custom
  conv : Wider new o.conv o'.conv

theorem Beside.loadItem {new : List Str} {st su st' su' : Reading} {i : Item} (h : Beside new st.obj su.obj)
    (hp : st.obj.prot = false) (hp' : su.obj.prot = false) (hi : i.name ∉ new)
    (h1 : loadItem st i = .ok st') (h2 : Sofar.loadItem su i = .ok su') : Beside new st'.obj su'.obj := by
  have a := loadItem_ok hp h1
  have b := loadItem_ok hp' h2
  have hg : Dict.get? su.obj.attrs i.name = Dict.get? st.obj.attrs i.name := by
    rw [h.attrs, Dict.get?_filterKeys (fun k => ! new.contains k)]
    simp [hi]
  have hh : su.obj.hasAttr i.name = st.obj.hasAttr i.name := by
    rw [Bool.eq_iff_iff, hasAttr_public _ _ a.private_, hasAttr_public _ _ a.private_]
    unfold Dict.has
    rw [hg]
  have hc : Dict.has su.obj.conv i.name = Dict.has st.obj.conv i.name := by
    unfold Dict.has
    rw [h.conv.same _ hi]
  have hat : st'.obj.attrs = su'.obj.attrs.filter (fun p => ! new.contains p.1) := by
    rw [a.attrs, b.attrs, Dict.put_filter (fun k => ! new.contains k), if_pos (by simpa using hi), h.attrs]
  rcases a.api with ⟨a1, a2, a3, _⟩ | ⟨a1, _, ⟨a2, a3, a4⟩ | ⟨a2, a3, a4⟩⟩ <;>
    rcases b.api with ⟨b1, b2, b3, _⟩ | ⟨b1, _, ⟨b2, b3, b4⟩ | ⟨b2, b3, b4⟩⟩ <;>
    (try (rw [hh, a1] at b1; cases b1)) <;> (try (rw [hc, a2] at b2; cases b2))
  · exact ⟨hat, by rw [b3, a3, h.custom], by rw [a2, b2]; exact h.conv⟩
  · exact ⟨hat, by rw [b4, a4, h.custom], by rw [a3, b3]; exact h.conv⟩
  · exact ⟨hat, by rw [b4, a4, h.custom], by rw [a3, b3]; exact h.conv.put _ hi⟩

theorem Beside.loadItems {new : List Str} {l : List Item} {st su st' su' : Reading} (h : Beside new st.obj su.obj)
    (hp : st.obj.prot = false) (hp' : su.obj.prot = false) (hi : ∀ i ∈ l, i.name ∉ new)
    (h1 : loadItems l st = .ok st') (h2 : Sofar.loadItems l su = .ok su') : Beside new st'.obj su'.obj := by
  induction l generalizing st su with
  | nil =>
    cases h1
    cases h2
    exact h
  | cons i l ih =>
    simp only [Sofar.loadItems] at h1 h2
    cases e1 : Sofar.loadItem st i with
    | error x => simp [e1] at h1
    | ok s1 =>
      cases e2 : Sofar.loadItem su i with
      | error x => simp [e2] at h2
      | ok s2 =>
        simp only [e1, e2] at h1 h2
        exact ih (h.loadItem hp hp' (hi i (by simp)) e1 e2) (loadItem_ok hp e1).prot (loadItem_ok hp' e2).prot
          (fun j hj => hi j (by simp [hj])) h1 h2

/-- custom entries of objects that are read come from the file -/
theorem loadItems_customNames {l : List Item} {st st' : Reading} {N : List Str} (hp : st.obj.prot = false)
    (hc : ∀ c k, st.obj.custom = some c → k ∈ Dict.keys c → k ∈ N) (hl : ∀ i ∈ l, i.name ∈ N)
    (h : loadItems l st = .ok st') : ∀ c k, st'.obj.custom = some c → k ∈ Dict.keys c → k ∈ N := by
  induction l generalizing st with
  | nil =>
    cases h
    exact hc
  | cons i l ih =>
    simp only [loadItems] at h
    cases e1 : loadItem st i with
    | error x => simp [e1] at h
    | ok s1 =>
      simp only [e1] at h
      have a := loadItem_ok hp e1
      refine ih a.prot ?_ (fun j hj => hl j (by simp [hj])) h
      intro c k hcc hk
      rcases a.api with ⟨_, _, a3, _⟩ | ⟨_, _, ⟨_, _, a4⟩ | ⟨_, _, a4⟩⟩
      · rw [a3] at hcc; exact hc c k hcc hk
      · rw [a4] at hcc; exact hc c k hcc hk
      · rw [a4] at hcc
        cases hcc
        rw [Dict.mem_keys_put] at hk
        rcases hk with rfl | hk
        · exact hl i (by simp)
        · cases hcu : st.obj.custom with
          | none => rw [hcu] at hk; simp [Dict.keys] at hk
          | some c0 => rw [hcu] at hk; exact hc c0 k hcu hk

theorem loadFile_verbose (nc : Nc) (f : NcFile) (new : Obj) (vb : Bool) :
    (loadFile nc f new vb).out = (loadFile nc f new false).out := by
  unfold loadFile
  cases attrItems nc (py% "GLOBAL_") f.attrs with
  | error e => rfl
  | ok g =>
    simp only
    cases loadItems g ⟨{ new with prot := false }, [], []⟩ with
    | error e => rfl
    | ok st =>
      simp only
      cases (readVars nc f.vars st).1 with
      | error e => rfl
      | ok s1 =>
        simp only
        cases deleteExtra s1.all s1.obj.keys s1.obj <;> rfl

theorem Beside.loadFile {new : List Str} {n n' o : Obj} (h : Beside new n n') (hn : (Dict.keys n.attrs).Nodup)
    (hn' : (Dict.keys n'.attrs).Nodup) (hc : n.custom = none) {nc : Nc} {f : NcFile} {vb : Bool}
    (hf : ∀ k, Spec.InFile f k → k ∉ new) (ho : (loadFile nc f n vb).out = .ok o) :
    ∃ o', (Sofar.loadFile nc f n' vb).out = .ok o' ∧ Spec.SameData o o' ∧
      ∀ c k e, o.custom = some c → (k, e) ∈ c → Spec.InFile f k := by
  obtain ⟨o', h1, _, _⟩ := loadFile_other hn hn' ho
  rw [← loadFile_verbose nc f n' vb] at h1
  obtain ⟨l, st, hl, hI⟩ := loadFile_iff hn ho
  obtain ⟨l', su, hl', hI'⟩ := loadFile_iff hn' h1
  rw [hl] at hl'
  cases hl'
  have hnames := fileItems_names hl
  have hin : ∀ i ∈ l, i.name ∉ new := fun i hi => hf _ ((hnames _).1 (List.mem_map_of_mem hi))
  have hB : Beside new st.obj su.obj :=
    Beside.loadItems (st := ⟨{ n with prot := false }, [], []⟩) (su := ⟨{ n' with prot := false }, [], []⟩)
      ⟨h.attrs, h.custom, h.conv⟩ rfl rfl hin hI.load hI'.load
  have hcn : ∀ c k, st.obj.custom = some c → k ∈ Dict.keys c → k ∈ l.map (·.name) :=
    loadItems_customNames (st := ⟨{ n with prot := false }, [], []⟩) rfl (by intro c k hcc; simp [hc] at hcc)
      (fun i hi => List.mem_map_of_mem hi) hI.load
  have full : ∀ (ks : List Str) (c : Dict Entry), st.obj.custom = some c →
      c.filter (fun p => ! (ks.contains p.1 && ! (l.map (·.name)).contains p.1)) = c := by
    intro ks c hcc
    rw [List.filter_eq_self]
    intro p hp
    have := hcn c p.1 hcc (List.mem_map_of_mem hp)
    rw [List.contains_iff_mem.2 this]
    simp
  have hco : o.custom = st.obj.custom := by
    cases hcc : o.custom with
    | none => exact (hI.noCustom hcc).symm
    | some c =>
      obtain ⟨c', e1, e2⟩ := hI.custom c hcc
      rw [e1, e2, full _ c' e1]
  have hco' : o'.custom = st.obj.custom := by
    cases hcc : o'.custom with
    | none => rw [← hB.custom]; exact (hI'.noCustom hcc).symm
    | some c =>
      obtain ⟨c', e1, e2⟩ := hI'.custom c hcc
      rw [hB.custom] at e1
      rw [e1, e2, full _ c' e1]
  refine ⟨o', h1, ⟨?_, ?_⟩, ?_⟩
  · rw [hI.attrs, hI'.attrs, hB.attrs, List.filter_filter]
    apply List.filter_congr
    intro p hp
    by_cases hm : p.1 ∈ l.map (·.name)
    · have := hf _ ((hnames _).1 hm)
      simp [this]
    · have : (l.map (·.name)).contains p.1 = false := by simpa using hm
      rw [this]
      rfl
  · rw [hco, hco']
  · intro c k e hcc hk
    rw [hco] at hcc
    exact (hnames _).1 (hcn c k hcc (List.mem_map_of_mem hk))

theorem Extended.read {new : List Str} {env env' : Env} (h : Spec.Extended new env env')
    (hp : ∀ f ∈ env'.files, ∀ key e, (key, e) ∈ f.content → Spec.sofarName key ≠ py% "protected")
    (hs : ∀ k ∈ Spec.stampNames, k ∉ new)
    (hc : ∀ c ver a n, (initSofa env c false ver a).out = .ok n → ∃ n', (initSofa env' c false ver a).out = .ok n')
    {nc : Nc} {fs : FS} {name : Str} {arg : VerifyArg} {vb : Bool} {o : Obj}
    (hf : ∀ f, openFile fs name = .ok f → ∀ k, Spec.InFile f k →
      ∀ n ∈ new, Str.replace k (py% "GLOBAL_") [] ≠ Str.replace n (py% "GLOBAL_") [])
    (ho : (readSofa env nc fs name arg vb).out = .ok o) :
    ∃ o', (readSofa env' nc fs name arg vb).out = .ok o' ∧ Spec.SameData o o' := by
  unfold readSofa at ho ⊢
  cases e1 : openFile fs name with
  | error x => simp [e1] at ho
  | ok f =>
    simp only [e1] at ho ⊢
    cases e2 : fileAttr f (py% "SOFAConventions") with
    | error x => simp [e2] at ho
    | ok cv =>
      simp only [e2] at ho ⊢
      cases e3 : fileAttr f (py% "SOFAConventionsVersion") with
      | error x => simp [e3] at ho
      | ok vv =>
        simp only [e3] at ho ⊢
        cases e4 : cv.asStr with
        | none => simp [e4] at ho
        | some c =>
          cases e5 : vv.asStr with
          | none => simp [e4, e5] at ho
          | some v =>
            simp only [e4, e5] at ho ⊢
            rw [Extended.verifyConvention h]
            cases e6 : Sofar.verifyConvention env v c with
            | error x => simp [e6] at ho
            | ok u =>
              simp only [e6] at ho ⊢
              cases e7 : (initSofa env c false (.exact v) arg).out with
              | error x => simp [e7] at ho
              | ok n =>
                obtain ⟨n', e7'⟩ := hc _ _ _ _ e7
                simp only [e7, e7'] at ho ⊢
                obtain ⟨b1, b2, b3, b4⟩ := Extended.newObjects h hp hs e7 e7'
                cases e8 : (loadFile nc f n vb).out with
                | error x => simp [e8] at ho
                | ok r =>
                  simp only [e8] at ho
                  have hfn : ∀ k, Spec.InFile f k → k ∉ new := fun k hk hkn => hf f e1 k hk k hkn rfl
                  obtain ⟨r', e8', hsame, hcust⟩ := Beside.loadFile ⟨b1, by rw [b2, b3], b4⟩ (initSofa_nodup e7)
                    (initSofa_nodup e7') b2 hfn e8
                  simp only [e8']
                  have hr := loadFile_iff (initSofa_nodup e7) e8
                  obtain ⟨l, st, hl, hI⟩ := hr
                  have hun : Spec.Unused new r := by
                    refine ⟨?_, ?_⟩
                    · intro k hk
                      rw [Dict.get?_eq_none_iff]
                      intro hm
                      exact hfn k ((fileItems_names hl k).1 ((hI.keys k).1 hm)) hk
                    · intro c k e hcc hk
                      have hi := hcust c k e hcc hk
                      exact ⟨hfn k hi, hf f e1 k hi⟩
                  have hver : ∀ q, (Sofar.verify env r .raise .read).out = .ok q → ∃ q',
                      (Sofar.verify env' r' .raise .read).out = .ok q' ∧
                        Spec.SameData (Sofar.verify env r .raise .read).obj (Sofar.verify env' r' .raise .read).obj := by
                    intro q hq
                    have hq' : q = none := ((verifyG_raise_ok_iff _ _ _ _ _).1 hq).1
                    subst hq'
                    obtain ⟨conv', g1, g2⟩ := Extended.verify (mode := .read) h hun
                      (fun _ => ⟨hp, fun c ver n hn => hc c ver .auto n hn⟩) hq
                    obtain ⟨s1, _, s2, _⟩ := sameData_verify (env := env') hsame .raise .read
                    refine ⟨none, s1.trans g1, ?_⟩
                    rw [g2] at s2
                    exact ⟨s2.attrs, s2.custom⟩
                  have hst : ∀ b, (if b = true then
                        (match (Sofar.verify env r .raise .read).out with
                          | .error _ => (⟨.error (.valueError (py% "The SOFA object could not be verified")),
                              (Sofar.verify env r .raise .read).ev⟩ : Created)
                          | .ok _ => ⟨.ok (Sofar.verify env r .raise .read).obj, (Sofar.verify env r .raise .read).ev⟩)
                        else ⟨.ok r, []⟩).out = .ok o →
                      ∃ o', (if b = true then
                        (match (Sofar.verify env' r' .raise .read).out with
                          | .error _ => (⟨.error (.valueError (py% "The SOFA object could not be verified")),
                              (Sofar.verify env' r' .raise .read).ev⟩ : Created)
                          | .ok _ => ⟨.ok (Sofar.verify env' r' .raise .read).obj, (Sofar.verify env' r' .raise .read).ev⟩)
                        else ⟨.ok r', []⟩).out = .ok o' ∧ Spec.SameData o o' := by
                    intro b hb
                    cases b with
                    | false =>
                      simp only [Bool.false_eq_true, if_false, Except.ok.injEq] at hb ⊢
                      exact ⟨r', rfl, hb ▸ hsame⟩
                    | true =>
                      simp only [if_true] at hb ⊢
                      cases hq : (Sofar.verify env r .raise .read).out with
                      | error x => simp [hq] at hb
                      | ok q =>
                        simp only [hq, Except.ok.injEq] at hb
                        obtain ⟨q', g1, g2⟩ := hver q hq
                        rw [g1]
                        exact ⟨_, rfl, hb ▸ g2⟩
                  unfold verifyRead at ho ⊢
                  cases arg with
                  | yes => exact hst true ho
                  | no => exact hst false ho
                  | auto =>
                    simp only at ho ⊢
                    cases hb : isStable v with
                    | error x => simp [hb] at ho
                    | ok b =>
                      simp only [hb] at ho ⊢
                      exact hst b ho

end Sofar
