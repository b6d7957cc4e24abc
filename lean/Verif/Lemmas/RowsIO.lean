import Verif.Lemmas.Rows
import Verif.Lemmas.FileOrder
/-!
# The order of the rows of conventions: reading and writing
-/
namespace Sofar

/-! ## Writing -/

section
variable {env : Env} {files : List ConvFile}

theorem toDoubles_files (k : Kind) (l : List Elem) : toDoubles { env with files := files } k l = toDoubles env k l := by
  induction l with
  | nil => rfl
  | cons e l ih =>
    unfold toDoubles
    rw [ih]
    rfl

theorem netcdfData_files (k : Kind) (a : Arr) : netcdfData { env with files := files } k a = netcdfData env k a := by
  unfold netcdfData
  rw [toDoubles_files]

theorem writeGlobals_files (nc : Nc) (o : Obj) (l : List Str) : ∀ f, writeGlobals { env with files := files } nc o l f = writeGlobals env nc o l f := by
  induction l with
  | nil => intro f; rfl
  | cons k l ih =>
    intro f
    unfold writeGlobals
    cases h1 : o.getAttr k with
    | error e => rfl
    | ok v =>
      simp only
      rw [show pyStr { env with files := files } v = pyStr env v from rfl]
      cases h2 : putAttr nc f.attrs (k.drop 7) (pyStr env v) with
      | error e => rfl
      | ok a => exact ih _

theorem varAttrs_files (nc : Nc) (o : Obj) (n : Nat) (l : List Str) : ∀ d, varAttrs { env with files := files } nc o n l d = varAttrs env nc o n l d := by
  induction l with
  | nil => intro f; rfl
  | cons k l ih =>
    intro d
    unfold varAttrs
    cases h1 : o.getAttr k with
    | error e => rfl
    | ok v =>
      simp only
      rw [show pyStr { env with files := files } v = pyStr env v from rfl]
      cases h2 : putAttr nc d (k.drop n) (pyStr env v) with
      | error e => rfl
      | ok a => exact ih _

theorem writeVariable_files (nc : Nc) (o : Obj) (c : Nat) (key dtype dims : Str) (S : Nat) (v : Val) (f : NcFile) :
    writeVariable { env with files := files } nc o c key dtype dims S v f = writeVariable env nc o c key dtype dims S v f := by
  unfold writeVariable
  simp only [netcdfData_files, varAttrs_files]

theorem writeKeys_files (nc : Nc) (o : Obj) (c : Nat) (l : List Str) : ∀ f,
    writeKeys { env with files := files } nc o c l f = writeKeys env nc o c l f := by
  induction l with
  | nil => intro f; rfl
  | cons k l ih =>
    intro f
    have : writeKey { env with files := files } nc o c k f = writeKey env nc o c k f := by
      unfold writeKey
      simp only [writeVariable_files]
    unfold writeKeys
    simp only [this, ih]

theorem writeFile_files : writeFile { env with files := files } = writeFile env := by
  funext nc o c
  unfold writeFile
  simp only [writeGlobals_files, writeKeys_files]

end

theorem Spec.Rearranged.sameWriter {env env' : Env} (h : Spec.Rearranged env env') : writeFile env' = writeFile env := by
  rw [h.rest, writeFile_files]

theorem Rearranged.latest {env env' : Env} (h : Spec.Rearranged env env') {o o' : Obj} (hR : Spec.Reordered o o')
    (hpr : ∀ f ∈ env.files, ∀ key e, (key, e) ∈ f.content → Spec.sofarName key ≠ py% "protected")
    (hd : ∀ c m ver a n, (initSofa env c m ver a).out = .ok n → Spec.AgreeOnSizes n)
    (hl : (checkLatest env o).1 = .ok ()) : (checkLatest env' o').1 = .ok () := by
  unfold checkLatest at hl ⊢
  rw [reordered_public hR (k := py% "GLOBAL_SOFAConventions") (by decide),
    reordered_public hR (k := py% "GLOBAL_SOFAConventionsVersion") (by decide)]
  cases e1 : o.getAttr (py% "GLOBAL_SOFAConventions") with
  | error x => simp [e1] at hl
  | ok c =>
    simp only [e1] at hl ⊢
    by_cases e0 : c.asStr = some (py% "invalid-value")
    · simp [e0]
    · rw [if_neg e0] at hl ⊢
      cases e2 : c.asStr with
      | none => simp [e2] at hl
      | some s =>
        simp only [e2] at hl ⊢
        cases e3 : (initSofa env s false .latest .auto).out with
        | error x => simp [e3] at hl
        | ok n =>
          simp only [e3] at hl
          obtain ⟨n', e3', hRn, _⟩ := Rearranged.created h hpr e3 (hd _ _ _ _ _ e3)
          simp only [e3']
          rw [reordered_public hRn (k := py% "GLOBAL_SOFAConventionsVersion") (by decide)]
          cases e4 : n.getAttr (py% "GLOBAL_SOFAConventionsVersion") with
          | error x => simp [e4] at hl
          | ok l =>
            simp only [e4] at hl ⊢
            cases e5 : o.getAttr (py% "GLOBAL_SOFAConventionsVersion") with
            | error x => simp [e5] at hl
            | ok v =>
              simp only [e5] at hl ⊢
              cases e6 : v.asStr with
              | none => simp [e6] at hl
              | some v =>
                cases e7 : l.asStr with
                | none => simp [e6, e7] at hl
                | some l =>
                  simp only [e6, e7] at hl ⊢
                  cases e8 : parseVersion v with
                  | error x => simp [e8] at hl
                  | ok pv =>
                    cases e9 : parseVersion l with
                    | error x => simp [e8, e9] at hl
                    | ok pl => rfl

theorem Rearranged.write {env env' : Env} (h : Spec.Rearranged env env') {nc : Nc} {fs : FS} {name : Str} {o o' : Obj} {c : Nat}
    (hR : Spec.Reordered o o')
    (hs : ∀ o1, resetConvention env o = .ok o1 → Spec.AgreeOnSizes o1 ∧ Spec.CustomNoMethod o1)
    (hpr : ∀ f ∈ env.files, ∀ key e, (key, e) ∈ f.content → Spec.sofarName key ≠ py% "protected")
    (hd : ∀ c m ver a n, (initSofa env c m ver a).out = .ok n → Spec.AgreeOnSizes n)
    (hw : (writeSofa env nc fs name o c).out = .ok ()) :
    (writeSofa env' nc fs name o' c).out = .ok () ∧ ∃ path f f', withSuffix name = .ok path ∧
      (writeSofa env nc fs name o c).fs = { fs with files := Dict.put fs.files path (.nc f) } ∧
      (writeSofa env' nc fs name o' c).fs = { fs with files := Dict.put fs.files path (.nc f') } ∧
      Spec.SameContent f f' ∧ ∀ d, Dict.get? f'.dims d = Dict.get? f.dims d := by
  unfold writeSofa writeSofaG at hw ⊢
  cases hp : withSuffix name with
  | error e => simp [hp] at hw
  | ok path =>
    simp only [hp, if_true] at hw ⊢
    cases hl : (checkLatest env o).1 with
    | error e => simp [hl] at hw
    | ok u =>
      simp only [hl] at hw
      simp only [hl, Rearranged.latest h hR hpr hd hl]
      cases hv : (Sofar.verify env o .raise .write).out with
      | error e => simp [hv] at hw
      | ok q =>
        simp only [hv] at hw ⊢
        have hq0 : q = none := ((verifyG_raise_ok_iff _ _ _ _ _).1 hv).1
        subst hq0
        obtain ⟨_, o1, o3, h1, h2⟩ := (verifyG_raise_ok_iff _ _ _ _ _).1 hv
        have fr := verifyG_frame referenceNames env o .raise .write
        have ka1 : o1.attrs = o.attrs := by
          obtain ⟨_, _, _, _, _, _, _, _, _, g6⟩ := resetConvention_inv h1
          rw [g6]
          cases o.custom <;> rfl
        obtain ⟨s1, s2⟩ := hs o1 h1
        have ha : Spec.AgreeOnSizes (Sofar.verify env o .raise .write).obj :=
          s1.congr (by rw [ka1]; exact fr.raise rfl) (fr.loaded o1 h1).1
        have hm : Spec.CustomNoMethod (Sofar.verify env o .raise .write).obj :=
          fun c k e hc hk => s2 c k e (by rw [← (fr.loaded o1 h1).2]; exact hc) hk
        obtain ⟨hv', hS, ka, ka'⟩ := Rearranged.verify h hR hv ha hm (fun _ => ⟨hpr, fun c ver n => hd _ _ _ _ n⟩)
        simp only [hv'] at hw ⊢
        unfold writeDisk at hw ⊢
        cases hcw : fs.canWrite path with
        | false => simp [hcw] at hw
        | true =>
          simp only [hcw, Bool.not_true, Bool.false_eq_true, if_false] at hw ⊢
          obtain ⟨f', g1, g2, g3⟩ := writeFile_settled hS (by
              show ((Sofar.verify env' o' .raise .write).obj.attrs.map Prod.fst).Perm ((Sofar.verify env o .raise .write).obj.attrs.map Prod.fst)
              rw [ka, ka']
              exact hR.attrs.1.map _) (by
              intro a hap
              obtain ⟨_, api, _, hV⟩ := verify_ok hv'
              have := hV.obj
              rw [this] at hap
              cases hap
              exact hV.apiOk.nodup) (show writeFile env nc (Sofar.verify env o .raise .write).obj c =
                (.ok (), (writeFile env nc (Sofar.verify env o .raise .write).obj c).2) from Prod.ext hw rfl)
          have g1' : writeFile env' nc (Sofar.verify env' o' .raise .write).obj c = (.ok (), f') := by
            rw [← g1, h.sameWriter]
          rw [g1']
          exact ⟨rfl, path, _, f', rfl, rfl, rfl, g2, g3⟩

/-! ## Conventions that define every dimension once -/

theorem initSofa_table {env : Env} {c : Str} {m : Bool} {ver : VersionArg} {a : VerifyArg} {n : Obj}
    (h : (initSofa env c m ver a).out = .ok n) : ∃ f ∈ env.files, n.conv = convertKeys f.content := by
  have key : ∀ c ver conv, loadConvention env c ver = .ok conv → ∃ f ∈ env.files, conv = convertKeys f.content := by
    intro c ver conv hl
    unfold loadConvention at hl
    cases hs : selectFile env c ver with
    | error x => simp [hs] at hl
    | ok f =>
      simp only [hs, Except.ok.injEq] at hl
      exact ⟨f, selectFile_mem hs, hl.symm⟩
  obtain ⟨conv, o0, v, b, h1, h2, h3, h4, h5, h6, h7, h8⟩ := initSofa_parts h
  split at h8
  · obtain ⟨r, h9, h10⟩ := h8
    obtain ⟨_, c', v', conv', _, _, _, _, g5, g6⟩ := resetConvention_inv h9
    rw [h6] at g6
    simp only at g6
    obtain ⟨f, hf, he⟩ := key _ _ _ g5
    exact ⟨f, hf, by rw [h10, g6]; exact he⟩
  · obtain ⟨f, hf, he⟩ := key _ _ _ h1
    exact ⟨f, hf, by rw [h8]; exact he⟩

/-- if every dimension is defined by one row, then new objects agree on the sizes -/
theorem defineOnce_agree {env : Env} (h : Spec.DefineOnce env) {c : Str} {m : Bool} {ver : VersionArg} {a : VerifyArg} {n : Obj}
    (hn : (initSofa env c m ver a).out = .ok n) : Spec.AgreeOnSizes n := by
  obtain ⟨f, hf, he⟩ := initSofa_table hn
  intro k k' ch s s' h1 h2 hne
  exfalso
  obtain ⟨v, e, d, al, i, x, hv, ha, hx, hl, hc, _⟩ := h1
  obtain ⟨v', e', d', al', i', x', hv', ha', hx', hl', hc', _⟩ := h2
  have m1 := Dict.mem_of_get? hv.entry
  have m2 := Dict.mem_of_get? hv'.entry
  rw [he, convertKeys_plain (h.names f hf)] at m1 m2
  obtain ⟨⟨p, pe⟩, hp, g1⟩ := List.mem_map.1 m1
  obtain ⟨⟨q, qe⟩, hq, g2⟩ := List.mem_map.1 m2
  simp only [Prod.mk.injEq] at g1 g2
  obtain ⟨g1, rfl⟩ := g1
  obtain ⟨g2, rfl⟩ := g2
  exact h.once f hf p q pe qe d d' al al' x x' hp hq (fun e => hne (by rw [← g1, ← g2, e])) hv.dims hv'.dims ha ha'
    (List.mem_of_getElem? hx) (List.mem_of_getElem? hx') hl hl' (hc.trans hc'.symm)

/-! ## Reading -/

/-- loading in another order -/
theorem AllLoaded.both {st st2 s1 s2 : Reading} {l l' : List Item} (h1 : AllLoaded st s1 l) (h2 : AllLoaded st2 s2 l')
    (hp : l'.Perm l) (hS : Spec.SameEntries st.obj.attrs st2.obj.attrs) (hc1 : st.obj.custom = none) (hc2 : st2.obj.custom = none)
    (hcn : ∀ p, p ∈ st2.obj.conv ↔ p ∈ st.obj.conv) (hpub : ∀ i ∈ l, isPrivate i.name = false) :
    Spec.Reordered s1.obj s2.obj := by
  have ha : (Dict.keys st.obj.attrs).Nodup := hS.2
  have ha2 : (Dict.keys st2.obj.attrs).Nodup := sameEntries_nodup hS
  have hc : (Dict.keys (st.obj.custom.getD [])).Nodup := by simp [hc1, Dict.keys]
  have hc' : (Dict.keys (st2.obj.custom.getD [])).Nodup := by simp [hc2, Dict.keys]
  have hconv : ∀ k, Dict.has st2.obj.conv k = Dict.has st.obj.conv k := fun k => by
    rw [Bool.eq_iff_iff, Dict.has_iff_mem, Dict.has_iff_mem]
    unfold Dict.keys
    rw [List.mem_map, List.mem_map]
    exact ⟨fun ⟨p, h, e⟩ => ⟨p, (hcn p).1 h, e⟩, fun ⟨p, h, e⟩ => ⟨p, (hcn p).2 h, e⟩⟩
  have hknown : ∀ i ∈ l, (st2.obj.hasAttr i.name || Dict.has st2.obj.conv i.name) =
      (st.obj.hasAttr i.name || Dict.has st.obj.conv i.name) := fun i hi => by
    rw [hconv]
    congr 1
    rw [Bool.eq_iff_iff, hasAttr_public _ _ (hpub i hi), hasAttr_public _ _ (hpub i hi), Dict.has_iff, Dict.has_iff, get?_perm hS]
  have hnames : ∀ k, k ∈ l'.map (·.name) ↔ k ∈ l.map (·.name) := fun k => (hp.map _).mem_iff
  refine ⟨⟨?_, h1.nodupAttrs ha⟩, ?_⟩
  · apply perm_of_get? (h1.nodupAttrs ha) (h2.nodupAttrs ha2)
    intro k
    by_cases hk : k ∈ l.map (·.name)
    · obtain ⟨i, hi, rfl⟩ := List.mem_map.1 hk
      rw [h1.attr i hi, h2.attr i (hp.mem_iff.2 hi)]
    · rw [h1.otherAttr k hk, h2.otherAttr k (fun hm => hk ((hnames k).1 hm)), get?_perm hS]
  · have hget : ∀ k, Dict.get? (s2.obj.custom.getD []) k = Dict.get? (s1.obj.custom.getD []) k := by
      intro k
      by_cases hk : k ∈ l.map (·.name)
      · obtain ⟨i, hi, rfl⟩ := List.mem_map.1 hk
        rw [h1.custom i hi, h2.custom i (hp.mem_iff.2 hi), hknown i hi, hc1, hc2]
      · rw [h1.otherCustom k hk, h2.otherCustom k (fun hm => hk ((hnames k).1 hm)), hc1, hc2]
    have hperm := perm_of_get? (h1.nodup hc) (h2.nodup hc') hget
    have hsome : s2.obj.custom.isSome = s1.obj.custom.isSome := by
      rw [h1.isSome, h2.isSome, hp.any_eq, hc1, hc2]
      congr 1
      rw [Bool.eq_iff_iff, List.any_eq_true, List.any_eq_true]
      constructor <;> rintro ⟨i, hi, he⟩ <;> refine ⟨i, hi, ?_⟩
      · rw [← hknown i hi]; exact he
      · rw [hknown i hi]; exact he
    have hnd := h1.nodup hc
    cases e1 : s1.obj.custom with
    | none =>
      rw [e1] at hsome
      exact Or.inl ⟨rfl, by simpa using hsome⟩
    | some c =>
      rw [e1] at hsome
      cases e2 : s2.obj.custom with
      | none => rw [e2] at hsome; cases hsome
      | some c' =>
        rw [e1, e2] at hperm
        rw [e1] at hnd
        exact Or.inr ⟨c, c', rfl, rfl, hperm, hnd⟩

theorem loadFile_both {nc : Nc} {f f' : NcFile} {n n' o : Obj} {vb vb' : Bool} (hf : Spec.SameContent f f')
    (hnames : (Spec.namesInFile f).Nodup) (hRn : Spec.Reordered n n') (hcn : ∀ p, p ∈ n'.conv ↔ p ∈ n.conv) (hc : n.custom = none)
    (hc' : n'.custom = none) (h : (loadFile nc f n vb).out = .ok o) :
    ∃ o', (loadFile nc f' n' vb').out = .ok o' ∧ Spec.Reordered o o' := by
  have ha : (Dict.keys n.attrs).Nodup := hRn.attrs.2
  have ha' : (Dict.keys n'.attrs).Nodup := sameEntries_nodup hRn.attrs
  obtain ⟨l, st, hl, hI⟩ := loadFile_iff ha h
  obtain ⟨l', hl', hp⟩ := fileItems_perm hf hl
  have hcan := loadItems_can (st := ⟨{ n with prot := false }, [], []⟩) rfl hI.load
  obtain ⟨o', ho'⟩ := loadFile_possible (new := n') (vb := vb') ha' hl' (fun i hi => hcan i (hp.mem_iff.1 hi))
  obtain ⟨l2, su, hl2, hI'⟩ := loadFile_iff ha' ho'
  rw [hl'] at hl2
  cases hl2
  have hnd : (l.map (·.name)).Nodup := by rw [fileItems_list hl]; exact hnames
  have hnd' : (l'.map (·.name)).Nodup := (hp.map _).nodup_iff.2 hnd
  have hR := (loadItems_all (st := ⟨{ n with prot := false }, [], []⟩) rfl hnd hI.load).both
    (loadItems_all (st := ⟨{ n' with prot := false }, [], []⟩) rfl hnd' hI'.load) hp hRn.attrs hc hc' hcn
    (fun i hi => (hcan i hi).2.2)
  refine ⟨o', ho', ?_, ?_⟩
  · rw [hI.attrs, hI'.attrs]
    exact filter_sameEntries hR.attrs (fun x => contains_perm (hp.map _) _)
  · rcases hR.custom with ⟨e1, e2⟩ | ⟨c, c', e1, e2, hs⟩
    · left
      constructor
      · cases hh : o.custom with
        | none => rfl
        | some d => obtain ⟨d', e3, _⟩ := hI.custom d hh; rw [e1] at e3; cases e3
      · cases hh : o'.custom with
        | none => rfl
        | some d => obtain ⟨d', e3, _⟩ := hI'.custom d hh; rw [e2] at e3; cases e3
    · right
      cases hh : o.custom with
      | none => have := hI.noCustom hh; rw [e1] at this; cases this
      | some d =>
        cases hh' : o'.custom with
        | none => have := hI'.noCustom hh'; rw [e2] at this; cases this
        | some d' =>
          obtain ⟨q, e3, e4⟩ := hI.custom d hh
          obtain ⟨q', e3', e4'⟩ := hI'.custom d' hh'
          rw [e1] at e3
          cases e3
          rw [e2] at e3'
          cases e3'
          refine ⟨d, d', rfl, rfl, ?_⟩
          rw [e4, e4']
          apply filter_sameEntries hs
          intro x
          rw [contains_perm (hp.map (·.name)), contains_perm (show (Dict.keys su.obj.attrs).Perm (Dict.keys st.obj.attrs) from
            hR.attrs.1.map Prod.fst)]

/-- the custom data of verified objects -/
theorem verified_custom {env env' : Env} {r r' : Obj} {mode : Mode} (hR : Spec.Reordered r r')
    (hv : (Sofar.verify env r .raise mode).out = .ok none) (hv' : (Sofar.verify env' r' .raise mode).out = .ok none)
    (hS : Settled (Sofar.verify env r .raise mode).obj (Sofar.verify env' r' .raise mode).obj) :
    ((Sofar.verify env r .raise mode).obj.custom = none ∧ (Sofar.verify env' r' .raise mode).obj.custom = none) ∨
    ∃ c c', (Sofar.verify env r .raise mode).obj.custom = some c ∧ (Sofar.verify env' r' .raise mode).obj.custom = some c' ∧
      Spec.SameEntries c c' := by
  have hn : ∀ {env : Env} {r : Obj} {c : Dict Entry}, (∀ c, r.custom = some c → (Dict.keys c).Nodup) →
      (Sofar.verify env r .raise mode).out = .ok none → (Sofar.verify env r .raise mode).obj.custom = some c → (Dict.keys c).Nodup := by
    intro env r c hc hv hcu
    obtain ⟨_, o1, o3, h1, h2⟩ := (verifyG_raise_ok_iff _ _ _ _ _).1 hv
    have fr := verifyG_frame referenceNames env r .raise mode
    have e : (Sofar.verify env r .raise mode).obj.custom = o1.custom := (fr.loaded o1 h1).2
    rw [e] at hcu
    obtain ⟨_, _, _, _, _, _, _, _, _, g6⟩ := resetConvention_inv h1
    cases hr : r.custom with
    | none =>
      simp only [hr] at g6
      rw [g6] at hcu
      simp at hcu
    | some d =>
      simp only [hr] at g6
      rw [g6] at hcu
      simp only [Option.some.injEq] at hcu
      rw [← hcu]
      exact Dict.nodup_filter _ (hc d hr)
  have n1 : ∀ c, r.custom = some c → (Dict.keys c).Nodup := by
    intro c hc
    rcases hR.custom with ⟨e, _⟩ | ⟨x, y, e, _, g⟩
    · rw [hc] at e; cases e
    · rw [hc] at e; cases e; exact g.2
  have n2 : ∀ c, r'.custom = some c → (Dict.keys c).Nodup := by
    intro c hc
    rcases hR.custom with ⟨_, e⟩ | ⟨x, y, _, e, g⟩
    · rw [hc] at e; cases e
    · rw [hc] at e; cases e; exact sameEntries_nodup g
  have h1 := hS.base.customSome
  have h2 := hS.base.customMem
  cases e1 : (Sofar.verify env r .raise mode).obj.custom with
  | none =>
    rw [e1] at h1
    exact .inl ⟨rfl, by simpa using h1⟩
  | some c =>
    rw [e1] at h1 h2
    cases e2 : (Sofar.verify env' r' .raise mode).obj.custom with
    | none => rw [e2] at h1; cases h1
    | some c' =>
      rw [e2] at h2
      simp only [Option.getD_some] at h2
      refine .inr ⟨c, c', rfl, rfl, ?_, hn n1 hv e1⟩
      exact (List.perm_ext_iff_of_nodup (List.Nodup.of_map _ (hn n2 hv' e2)) (List.Nodup.of_map _ (hn n1 hv e1))).2 h2

/-- reading a file with the same content -/
theorem Rearranged.read {env env' : Env} (h : Spec.Rearranged env env') {nc : Nc} {fs fs' : FS} {name name' : Str} {f f' : NcFile} (h1 : openFile fs name = .ok f)
    (h2 : openFile fs' name' = .ok f') (hf : Spec.SameContent f f') (hn : (Spec.namesInFile f).Nodup) {arg : VerifyArg}
    {vb vb' : Bool} {o : Obj} (ho : (readSofa env nc fs name arg vb).out = .ok o)
    (hs : arg = .no ∨ Spec.AgreeOnSizes o ∧ Spec.CustomNoMethod o)
    (hpr : ∀ f ∈ env.files, ∀ key e, (key, e) ∈ f.content → Spec.sofarName key ≠ py% "protected")
    (hd : ∀ c m ver a n, (initSofa env c m ver a).out = .ok n → Spec.AgreeOnSizes n) :
    ∃ o', (readSofa env' nc fs' name' arg vb').out = .ok o' ∧ Spec.Reordered o o' := by
  unfold readSofa at ho ⊢
  rw [h1] at ho
  rw [h2]
  simp only at ho ⊢
  rw [hf.fileAttr hn, hf.fileAttr hn]
  cases e2 : fileAttr f (py% "SOFAConventions") with
  | error x => simp [e2] at ho
  | ok cv =>
    simp only [e2] at ho ⊢
    cases e3 : fileAttr f (py% "SOFAConventionsVersion") with
    | error x => simp [e3] at ho
    | ok vv =>
      simp only [e3] at ho ⊢
      cases e4 : cv.asStr with
      | none => simp [e4] at ho
      | some c =>
        cases e5 : vv.asStr with
        | none => simp [e4, e5] at ho
        | some v =>
          simp only [e4, e5] at ho ⊢
          rw [Rearranged.verifyConvention h]
          cases e6 : Sofar.verifyConvention env v c with
          | error x => simp [e6] at ho
          | ok u =>
            simp only [e6] at ho ⊢
            cases e7 : (initSofa env c false (.exact v) arg).out with
            | error x => simp [e7] at ho
            | ok n =>
              simp only [e7] at ho
              obtain ⟨n', e7', hRn, hcn⟩ := Rearranged.created h hpr e7 (hd _ _ _ _ _ e7)
              simp only [e7']
              obtain ⟨_, _, _, _, _, _, _, _, _, _, hc', _⟩ := initSofa_parts e7'
              obtain ⟨_, _, _, _, _, _, _, _, _, _, hc, _⟩ := initSofa_parts e7
              cases e8 : (loadFile nc f n vb).out with
              | error x => simp [e8] at ho
              | ok r =>
                simp only [e8] at ho
                obtain ⟨r', e8', hR⟩ := loadFile_both (vb' := vb') hf hn hRn hcn hc hc' e8
                simp only [e8']
                have hst : ∀ b, (b = true → arg ≠ .no) → (if b = true then
                      (match (Sofar.verify env r .raise .read).out with
                        | .error _ => (⟨.error (.valueError (py% "The SOFA object could not be verified")),
                            (Sofar.verify env r .raise .read).ev⟩ : Created)
                        | .ok _ => ⟨.ok (Sofar.verify env r .raise .read).obj, (Sofar.verify env r .raise .read).ev⟩)
                      else ⟨.ok r, []⟩).out = .ok o →
                    ∃ o', (if b = true then
                      (match (Sofar.verify env' r' .raise .read).out with
                        | .error _ => (⟨.error (.valueError (py% "The SOFA object could not be verified")),
                            (Sofar.verify env' r' .raise .read).ev⟩ : Created)
                        | .ok _ => ⟨.ok (Sofar.verify env' r' .raise .read).obj, (Sofar.verify env' r' .raise .read).ev⟩)
                      else ⟨.ok r', []⟩).out = .ok o' ∧ Spec.Reordered o o' := by
                  intro b hb hr
                  cases b with
                  | false =>
                    simp only [Bool.false_eq_true, if_false, Except.ok.injEq] at hr ⊢
                    exact ⟨r', rfl, hr ▸ hR⟩
                  | true =>
                    simp only [if_true] at hr ⊢
                    cases hq : (Sofar.verify env r .raise .read).out with
                    | error x => simp [hq] at hr
                    | ok q =>
                      simp only [hq, Except.ok.injEq] at hr
                      have hq0 : q = none := ((verifyG_raise_ok_iff _ _ _ _ _).1 hq).1
                      subst hq0
                      obtain ⟨s1, s2⟩ := hs.resolve_left (hb rfl)
                      obtain ⟨g1, g3, g4, g5⟩ := Rearranged.verify h hR hq (hr ▸ s1) (hr ▸ s2) (fun _ => ⟨hpr, fun c ver n => hd _ _ _ _ n⟩)
                      have g2 : Spec.Reordered (Sofar.verify env r .raise .read).obj (Sofar.verify env' r' .raise .read).obj := by
                        refine ⟨by rw [g4, g5]; exact hR.attrs, ?_⟩
                        exact verified_custom hR hq g1 g3
                      rw [g1]
                      exact ⟨_, rfl, hr ▸ g2⟩
                unfold verifyRead at ho ⊢
                cases arg with
                | yes => exact hst true (fun _ => by simp) ho
                | no => exact hst false (fun hb => by cases hb) ho
                | auto =>
                  simp only at ho ⊢
                  cases hb : isStable v with
                  | error x => simp [hb] at ho
                  | ok b =>
                    simp only [hb] at ho ⊢
                    exact hst b (fun _ => by simp) ho

end Sofar
