import Verif.Lemmas.Paths
import Verif.Spec.Reading
import Verif.Props.Stream
/-!
# C83: all ways of reading a file agree
-/
namespace Sofar

/-- names that can be stored in an object that is not protected -/
def CanLoad (n : Str) : Prop := n ≠ py% "protected" ∧ n ≠ py% "list_dimensions" ∧ isPrivate n = false

theorem loadItem_can {st st' : Reading} {i : Item} (h : loadItem st i = .ok st') :
    CanLoad i.name := by
  have hs : ∀ o : Obj, (setAttr o i.name (.val i.value)).out = .ok () → CanLoad i.name := by
    intro o ho
    unfold setAttr at ho
    split at ho
    · cases ho
    · split at ho
      · cases ho
      · split at ho
        · cases ho
        · rename_i h1
          simp only [normalise] at ho
          split at ho
          · cases ho
          · rename_i h2
            split at ho
            · cases ho
            · rename_i h3
              exact ⟨h1, h2, by simpa using h3⟩
  unfold loadItem at h
  split at h
  · cases ho : (setAttr st.obj i.name (.val i.value)).out with
    | error e => simp [ho] at h
    | ok u => exact hs _ ho
  · cases ho : (addCustomApiEntry st.obj i.name (.val i.value) none i.dims i.typ).out with
    | error e => simp [ho] at h
    | ok u =>
      unfold addCustomApiEntry at ho
      simp only at ho
      split at ho
      · cases ho
      · rename_i hx
        exact hs _ hx

theorem loadItem_possible {st : Reading} {i : Item} (hp : st.obj.prot = false) (hn : CanLoad i.name) :
    ∃ st', loadItem st i = .ok st' := by
  obtain ⟨h1, h2, h3⟩ := hn
  unfold loadItem
  by_cases hh : st.obj.hasAttr i.name = true
  · simp [hh, setAttr, hp, h1, h2, normalise, h3]
  · have hh' : st.obj.hasAttr i.name = false := by simpa using hh
    simp only [hh', Bool.false_eq_true, if_false]
    rw [addCustomApiEntry_ok st.obj i.name (.val i.value) i.value none i.dims i.typ rfl h1 h2 h3]
    simp

theorem loadItems_can {l : List Item} {st st' : Reading} (hp : st.obj.prot = false) (h : loadItems l st = .ok st') :
    ∀ i ∈ l, CanLoad i.name := by
  induction l generalizing st with
  | nil => intro i hi; cases hi
  | cons j l ih =>
    simp only [loadItems] at h
    split at h
    · simp at h
    · rename_i st1 h1
      intro i hi
      rcases List.mem_cons.1 hi with rfl | hi
      · exact loadItem_can h1
      · exact ih (loadItem_ok hp h1).prot h i hi

theorem loadItems_possible {l : List Item} {st : Reading} (hp : st.obj.prot = false)
    (hn : ∀ i ∈ l, CanLoad i.name) : ∃ st', loadItems l st = .ok st' := by
  induction l generalizing st with
  | nil => exact ⟨st, rfl⟩
  | cons i l ih =>
    obtain ⟨st1, h1⟩ := loadItem_possible hp (hn i (by simp))
    obtain ⟨st2, h2⟩ := ih (loadItem_ok hp h1).prot (fun j hj => hn j (by simp [hj]))
    exact ⟨st2, by simp only [loadItems, h1, h2]⟩

/-- the warnings do not depend on the object -/
theorem readVars_events {nc : Nc} {vars : Dict NcVar} {st st' su su' : Reading} (h : (readVars nc vars st).1 = .ok st')
    (h' : (readVars nc vars su).1 = .ok su') : (readVars nc vars st).2 = (readVars nc vars su).2 := by
  induction vars generalizing st su with
  | nil => rfl
  | cons p vars ih =>
    obtain ⟨n, v⟩ := p
    simp only [readVars] at h h' ⊢
    cases hv : (varItems nc n v).1 with
    | error e => simp [hv] at h
    | ok a =>
      simp only [hv] at h h' ⊢
      cases h1 : loadItems a st with
      | error e => simp [h1] at h
      | ok st1 =>
        cases h2 : loadItems a su with
        | error e => simp [h2] at h'
        | ok su1 =>
          simp only [h1, h2] at h h' ⊢
          rw [ih h h']

/-- If the file can be loaded into one object, then also into any other object, with the same data and warnings. -/
theorem loadFile_other {nc : Nc} {f : NcFile} {new new' o : Obj} {vb : Bool} (hn : (Dict.keys new.attrs).Nodup)
    (hn' : (Dict.keys new'.attrs).Nodup) (h : (loadFile nc f new vb).out = .ok o) :
    ∃ o', (loadFile nc f new' false).out = .ok o' ∧ (∀ k, Dict.get? o'.attrs k = Dict.get? o.attrs k) ∧
      (loadFile nc f new' false).ev <+: (loadFile nc f new vb).ev := by
  obtain ⟨l, st, hl, hI⟩ := loadFile_iff hn h
  have hcan := loadItems_can (by rfl) hI.load
  have key : ∃ o', (loadFile nc f new' false).out = .ok o' ∧
      (loadFile nc f new' false).ev <+: (loadFile nc f new vb).ev := by
    unfold fileItems at hl
    unfold loadFile at h ⊢
    cases hg : attrItems nc (py% "GLOBAL_") f.attrs with
    | error e => simp [hg] at hl
    | ok g =>
      simp only [hg] at hl h ⊢
      cases hv : allVarItems nc f.vars with
      | error e => simp [hv] at hl
      | ok v =>
        simp only [hv, Except.ok.injEq] at hl
        subst hl
        cases hl0 : loadItems g ⟨{ new with prot := false }, [], []⟩ with
        | error e => simp [hl0] at h
        | ok s0 =>
          simp only [hl0] at h
          cases hr0 : (readVars nc f.vars s0).1 with
          | error e => simp [hr0] at h
          | ok s1 =>
            simp only [hr0] at h
            cases hd0 : deleteExtra s1.all s1.obj.keys s1.obj with
            | error e => simp [hd0] at h
            | ok o0 =>
              obtain ⟨st2, hst⟩ := loadItems_possible (l := g) (st := ⟨{ new' with prot := false }, [], []⟩) rfl
                (fun i hi => hcan i (by simp [hi]))
              obtain ⟨a, b, c⟩ := loadItems_ok (by rfl) hst
              obtain ⟨st', hst'⟩ := loadItems_possible (l := v) a (fun i hi => hcan i (by simp [hi]))
              obtain ⟨a', b', c'⟩ := loadItems_ok a hst'
              have hr : (readVars nc f.vars st2).1 = .ok st' := readVars_iff.2 ⟨v, hv, hst'⟩
              obtain ⟨o', d1, _⟩ := deleteExtra_ok (all := st'.all) (ks := st'.obj.keys) a' (fun k hk => hk) (by
                show (Dict.keys st'.obj.attrs).Nodup
                rw [c', c]
                exact nodup_foldl_items _ _ (nodup_foldl_items _ _ hn'))
              simp only [hst, hr, d1, hr0, hd0]
              refine ⟨_, rfl, ?_⟩
              rw [readVars_events hr hr0]
              simp
  obtain ⟨o', h', hev⟩ := key
  refine ⟨o', h', fun k => ?_, hev⟩
  obtain ⟨l', st', hl', hI'⟩ := loadFile_iff hn' h'
  rw [hl] at hl'
  cases hl'
  obtain ⟨_, _, c⟩ := loadItems_ok (by rfl) hI.load
  obtain ⟨_, _, c'⟩ := loadItems_ok (by rfl) hI'.load
  by_cases hk : k ∈ l.map (·.name)
  · rw [hI.attrs, hI'.attrs, Dict.get?_filter _ _ _ (by intro v; simpa using hk),
      Dict.get?_filter _ _ _ (by intro v; simpa using hk), c, c']
    have : ∀ (l : List Item) (d d' : Dict Val), k ∈ l.map (·.name) →
        Dict.get? (l.foldl (fun d i => Dict.put d i.name i.value) d) k =
          Dict.get? (l.foldl (fun d i => Dict.put d i.name i.value) d') k := by
      intro l
      induction l with
      | nil => intro d d' h; simp at h
      | cons i l ih =>
        intro d d' h
        rw [List.foldl_cons, List.foldl_cons]
        by_cases hm : k ∈ l.map (·.name)
        · exact ih _ _ hm
        · have hki : k = i.name := by simpa [hm] using h
          have hrest : ∀ (l : List Item) (d : Dict Val), k ∉ l.map (·.name) →
              Dict.get? (l.foldl (fun d i => Dict.put d i.name i.value) d) k = Dict.get? d k := by
            intro l
            induction l with
            | nil => intro d _; rfl
            | cons i l ih =>
              intro d hn
              simp only [List.map_cons, List.mem_cons, not_or] at hn
              rw [List.foldl_cons, ih _ hn.2, Dict.get?_put_ne _ _ hn.1]
          rw [hrest l _ hm, hrest l _ hm, hki, Dict.get?_put, Dict.get?_put]
          simp
    exact this l _ _ hk
  · have e1 : Dict.get? o.attrs k = none := (Dict.get?_eq_none_iff _ _).2 (fun hm => hk ((hI.keys k).1 hm))
    have e2 : Dict.get? o'.attrs k = none := (Dict.get?_eq_none_iff _ _).2 (fun hm => hk ((hI'.keys k).1 hm))
    rw [e1, e2]

/-! ## C83 -/

/-- C83: if `read_sofa` can read a file, then `read_sofa_as_netcdf` can read it too, with exactly the same names and values, and
gives only warnings that `read_sofa` gives as well. -/
theorem C83_as_netcdf (env : Env) (nc : Nc) (fs : FS) (filename : Str) (arg : VerifyArg) (verbose : Bool) (o : Obj)
    (h : (readSofa env nc fs filename arg verbose).out = .ok o) :
    ∃ o', (readAsNetcdf nc fs filename).out = .ok o' ∧ (∀ k, Dict.get? o'.attrs k = Dict.get? o.attrs k) ∧
      ∀ e ∈ (readAsNetcdf nc fs filename).ev, e ∈ (readSofa env nc fs filename arg verbose).ev := by
  obtain ⟨path, f, c, v, new, o0, hr⟩ := readSofa_ok h
  obtain ⟨o', h1, h2, h3⟩ := loadFile_other (new' := emptySofa) (initSofa_nodup hr.created) (by simp [emptySofa, Dict.keys]) hr.load
  have hopen : openFile fs filename = .ok f := by unfold openFile; simp only [hr.loc, hr.file]
  refine ⟨o', ?_, fun k => ?_, ?_⟩
  · unfold readAsNetcdf; simp only [hopen]; exact h1
  · rw [h2, hr.attrs]
  · intro e he
    obtain ⟨cv, hc, hct⟩ := hr.conv
    obtain ⟨vv, hv, hvt⟩ := hr.version
    have hev : (loadFile nc f new verbose).ev ⊆ (readSofa env nc fs filename arg verbose).ev := by
      unfold readSofa fileAttr
      simp only [hopen, hc, hv, asStr_text, hct, hvt, hr.known, hr.created, hr.load]
      intro e he
      simp [he]
    have : (readAsNetcdf nc fs filename).ev = (loadFile nc f emptySofa false).ev := by
      unfold readAsNetcdf; simp only [hopen]
    rw [this] at he
    exact hev (h3.subset he)

/-- C83: the data that is read does not depend on the settings of `read_sofa`. -/
theorem C83_settings (env : Env) (nc : Nc) (fs : FS) (filename : Str) (arg arg' : VerifyArg) (verbose verbose' : Bool)
    (o o' : Obj) (h : (readSofa env nc fs filename arg verbose).out = .ok o)
    (h' : (readSofa env nc fs filename arg' verbose').out = .ok o') (k : Str) :
    Dict.get? o'.attrs k = Dict.get? o.attrs k := by
  obtain ⟨a, h1, h2, _⟩ := C83_as_netcdf env nc fs filename arg verbose o h
  obtain ⟨b, h3, h4, _⟩ := C83_as_netcdf env nc fs filename arg' verbose' o' h'
  rw [h1] at h3
  cases h3
  rw [← h2, ← h4]

theorem ncName_dotName {n : Str} (h : ('_' ∉ n ∧ '.' ∉ n) ∨ ∃ r, n = py% "Data." ++ r ∧ '_' ∉ r ∧ '.' ∉ r) :
    Spec.PlainVariable (Spec.dotName n) ∧ ncName (Spec.dotName n) = n := by
  have hid : ∀ r : Str, '.' ∉ r → Spec.dotName r = r := by
    intro r hr
    unfold Spec.dotName
    conv => rhs; rw [← List.map_id r]
    apply List.map_congr_left
    intro c hc
    rw [if_neg (fun h : c = '.' => hr (h ▸ hc))]
    rfl
  rcases h with ⟨h1, h2⟩ | ⟨r, rfl, h1, h2⟩
  · rw [hid n h2]
    exact ⟨Or.inl h1, replace_none (word_not_infix (w := py% "Data") h1)⟩
  · have : Spec.dotName (py% "Data." ++ r) = py% "Data_" ++ r := by
      unfold Spec.dotName
      rw [List.map_append]
      congr 1
      exact hid r h2
    rw [this]
    refine ⟨Or.inr ⟨r, rfl, h1⟩, ?_⟩
    unfold ncName
    rw [show (py% "Data_" ++ r : Str) = ('D' :: py% "ata_") ++ r from rfl, replace_prefix]
    congr 1
    exact replace_none (word_not_infix (w := py% "Data") h1)

theorem dotName_suffix {n w : Str} (hw : '_' ∉ w) (h : w <:+ Spec.dotName n) : w <:+ n := by
  obtain ⟨t, ht⟩ := h
  unfold Spec.dotName at ht
  obtain ⟨l1, l2, rfl, h1, h2⟩ := List.map_eq_append_iff.1 ht.symm
  refine ⟨l1, ?_⟩
  congr 1
  rw [← h2]
  conv => rhs; rw [← List.map_id l2]
  apply List.map_congr_left
  intro c hc
  by_cases hd : c = '.'
  · subst hd
    exact absurd (h2 ▸ List.mem_map.2 ⟨'.', hc, rfl⟩) hw
  · rw [if_neg hd]; rfl

theorem attrItems_unreserved {nc : Nc} {pre : Str} {d : Dict Val} {l : List Item} (h : attrItems nc pre d = .ok l) {a : Str}
    {v : Val} (ha : (a, v) ∈ d) : nc.reserved a = false := by
  induction d generalizing l with
  | nil => cases ha
  | cons p d ih =>
    obtain ⟨b, w⟩ := p
    simp only [attrItems] at h
    split at h
    · cases h
    · rename_i hb
      split at h
      · cases h
      · rename_i r hr
        rcases List.mem_cons.1 ha with h1 | h1
        · cases h1
          cases hx : nc.reserved a with
          | false => rfl
          | true => simp [hx] at hb
        · exact ih hr h1

/-- attributes of variables that are read are not members of the classes of the library -/
theorem readSofa_unreserved {env : Env} {nc : Nc} {fs : FS} {filename path : Str} {arg : VerifyArg} {verbose : Bool} {o : Obj}
    {f : NcFile} (hp : withSuffix filename = .ok path) (hf : Dict.get? fs.files path = some (.nc f))
    (h : (readSofa env nc fs filename arg verbose).out = .ok o) {n : Str} {x : NcVar} {a : Str} {v : Val}
    (hx : (n, x) ∈ f.vars) (ha : (a, v) ∈ x.attrs) (hs : a ≠ py% "_Encoding") : nc.reserved a = false := by
  obtain ⟨path', f', c, v', new, o0, hr⟩ := readSofa_ok h
  have := hr.loc
  rw [hp] at this
  cases this
  have := hr.file
  rw [hf] at this
  cases this
  obtain ⟨l, st, h1, h2⟩ := loadFile_iff (initSofa_nodup hr.created) hr.load
  unfold fileItems at h1
  cases hg : attrItems nc (py% "GLOBAL_") f.attrs with
  | error e => simp [hg] at h1
  | ok g =>
    simp only [hg] at h1
    cases hv : allVarItems nc f.vars with
    | error e => simp [hv] at h1
    | ok vs =>
      obtain ⟨b, hb⟩ := allVarItems_each hv hx
      unfold varItems at hb
      cases hfm : (formatFrom nc n x.data).1 with
      | error e => simp [hfm] at hb
      | ok y =>
        simp only [hfm] at hb
        cases hat : attrItems nc (sofarName n ++ py% "_") (withoutSkipped x.attrs) with
        | error e => simp [hat] at hb
        | ok r => exact attrItems_unreserved hat (List.mem_filter.2 ⟨ha, by simpa using hs⟩)

/-- C83 for streams: inside of the `with` statement, the stream delivers all data that `read_sofa` reads from the file, for every
file with names as prescribed by the standard, whoever wrote it.

Missing: other names, for which this is false, see `C83_refuted` and the refutations of C43. -/
theorem C83_stream_partial (env : Env) (nc : Nc) (fs : FS) (filename path : Str) (arg : VerifyArg) (verbose : Bool) (o : Obj)
    (f : NcFile) (hp : Spec.FileFor filename path) (hf : openStream fs path = .ok f) (hpf : Spec.ProperFile f)
    (hsn : Spec.StandardNames f) (h : (readSofa env nc fs filename arg verbose).out = .ok o) (k : Str) (w : Val)
    (hw : Dict.get? o.attrs k = some w) (hk : Spec.OrdinaryName k) :
    ∃ g, streamGet nc f k = .ok g ∧ Spec.Delivers nc.isFill w g := by
  simp only [← withSuffix_iff] at *
  have hfile : Dict.get? fs.files path = some (.nc f) := by
    unfold openStream at hf
    split at hf
    · cases hf
    · cases hf
    · rename_i g hg
      cases hf
      exact hg
  have hvar : ∀ n x, (n, x) ∈ f.vars → k = Spec.dotName n → streamGet nc f k = .ok (.variable_ x) := by
    intro n x hx hkn
    obtain ⟨h1, h2⟩ := ncName_dotName (hsn.vars n x hx)
    rw [streamGet_plain (hkn ▸ h1) hk, hkn, h2]
    simp [streamLookup, Dict.get?_of_mem hsn.unique.1 hx]
  cases C37_values env nc fs filename path arg verbose o f (withSuffix_iff.1 hp) hfile hpf h k w hw with
  | globalAttribute a ha hka =>
    obtain ⟨h1, h2⟩ := hsn.globals a w ha
    refine ⟨.value w, ?_, .attribute_⟩
    rw [hka, streamGet_global h1]
    simp [streamLookup, (Dict.get?_eq_none_iff _ _).2 h2, Dict.get?_of_mem hsn.unique.2.1 ha]
  | numbers n x hx hkn hS hs he => exact ⟨_, hvar n x hx hkn, .numbers x hS hs he⟩
  | text n x s width hx hkn hS hd hs he => exact ⟨_, hvar n x hx hkn, .text x s width hS hd hs he⟩
  | variableAttribute n x a hx ha hka hs =>
    refine ⟨.value w, ?_, .attribute_⟩
    rcases hsn.attributes n x a w hx ha with he | ⟨h1, h2, h3⟩
    · exact absurd he hs
    · obtain ⟨h4, h5⟩ := ncName_dotName (hsn.vars n x hx)
      have hr : nc.reserved a = false := readSofa_unreserved hp hfile h hx ha hs
      rw [hka, streamGet_attr h4 h1 (fun hh => h3 (dotName_suffix (by decide) hh))
        (fun hh => h2 (dotName_suffix (by decide) hh)) (hka ▸ hk), h5]
      simp [streamLookup, Dict.get?_of_mem hsn.unique.1 hx, variableAttr, hr, Dict.get?_of_mem (hsn.unique.2.2 n x hx) ha]

/-- C83 is false for other names: the units of the variable `MetaData` are read by `read_sofa`, but not found by the stream. -/
theorem C83_refuted : ∃ (env : Env) (nc : Nc) (fs : FS) (o : Obj) (k msg : Str) (w : Val) (f : NcFile),
    (readSofa env nc fs (py% "a.sofa") .yes false).out = .ok o ∧ openStream fs (py% "a.sofa") = .ok f ∧
    Dict.get? o.attrs k = some w ∧ streamGet nc f k = .error (.attributeError msg) := by
  refine ⟨exEnv, exNc, exWritten (exMeta (py% "MetaData")),
    (readSofa exEnv exNc (exWritten (exMeta (py% "MetaData"))) (py% "a.sofa") .yes false).out.toOption.getD exSofa,
    py% "MetaData_Units", py% "MetaData_Units is not contained in SOFA-file", .str (py% "metre"),
    exOpened (exMeta (py% "MetaData")), ?_, by decide +kernel, by decide +kernel, by decide +kernel⟩
  cases hr : (readSofa exEnv exNc (exWritten (exMeta (py% "MetaData"))) (py% "a.sofa") .yes false).out with
  | ok o => rfl
  | error e =>
    have : (readSofa exEnv exNc (exWritten (exMeta (py% "MetaData"))) (py% "a.sofa") .yes false).out.isOk = true := by
      decide +kernel
    rw [hr] at this
    cases this

/-- the hypotheses for a file that was written by sofar, with an attribute of a variable -/
example : (readSofa exEnv exNc (exWritten (exMeta (py% "Foo"))) (py% "a") .yes true).out.isOk = true ∧
    openStream (exWritten (exMeta (py% "Foo"))) (py% "a.sofa") = .ok (exOpened (exMeta (py% "Foo"))) ∧
    Spec.StandardNames (exOpened (exMeta (py% "Foo"))) ∧ Spec.ProperFile (exOpened (exMeta (py% "Foo"))) ∧
    (match streamGet exNc (exOpened (exMeta (py% "Foo"))) (py% "Foo_Units") with
      | .ok (.value w) => w = .str (py% "metre") | _ => false) = true := by
  refine ⟨by decide +kernel, by decide +kernel, ⟨⟨by decide +kernel, by decide +kernel, ?_⟩, ?_, ?_, ?_⟩, ?_, by decide +kernel⟩
  · have h : ∀ p ∈ (exOpened (exMeta (py% "Foo"))).vars, (p.2.attrs.map Prod.fst).Nodup := by decide +kernel
    exact fun n x hx => h (n, x) hx
  · have h : ∀ p ∈ (exOpened (exMeta (py% "Foo"))).vars, ('_' ∉ p.1 ∧ '.' ∉ p.1) ∨
        (p.1 = py% "Data." ++ p.1.drop 5 ∧ '_' ∉ p.1.drop 5 ∧ '.' ∉ p.1.drop 5) := by decide +kernel
    exact fun n x hx => (h (n, x) hx).imp_right fun h => ⟨_, h⟩
  · have h : ∀ p ∈ (exOpened (exMeta (py% "Foo"))).vars, ∀ q ∈ p.2.attrs,
        '_' ∉ q.1 ∧ (py% "Data").isSuffixOf p.1 = false ∧ (py% "GLOBAL").isSuffixOf p.1 = false := by decide +kernel
    intro n x a v hx ha
    obtain ⟨h1, h2, h3⟩ := h (n, x) hx (a, v) ha
    exact Or.inr ⟨h1, fun h => Bool.false_ne_true (h2.symm.trans (List.isSuffixOf_iff_suffix.2 h)),
      fun h => Bool.false_ne_true (h3.symm.trans (List.isSuffixOf_iff_suffix.2 h))⟩
  · have h : ∀ p ∈ (exOpened (exMeta (py% "Foo"))).attrs, '_' ∉ p.1 ∧ p.1 ∉ (exOpened (exMeta (py% "Foo"))).vars.map Prod.fst := by
      decide +kernel
    exact fun a v ha => h (a, v) ha
  · have h1 : ∀ p ∈ (exOpened (exMeta (py% "Foo"))).vars, p.2.data.data.length = p.2.data.shape.foldr (· * ·) 1 := by
      decide +kernel
    have h2 : ∀ p ∈ (exOpened (exMeta (py% "Foo"))).vars, p.2.data.kind = .S → p.2.data.data.all
        (fun e => match e with | .str [_] => true | _ => false) = true := by decide +kernel
    intro n x hx
    refine ⟨h1 _ hx, fun hS e he => ?_⟩
    have := List.all_eq_true.1 (h2 _ hx hS) e he
    split at this
    · exact ⟨_, rfl⟩
    · simp at this

end Sofar
