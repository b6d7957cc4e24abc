import Verif.Lemmas.Free
import Verif.Lemmas.Read
/-!
# Reading does not depend on the dates of the new object
-/
namespace Sofar

theorem Free.restrict {F G : Str → Prop} {o o' : Obj} (h : Free F o o')
    (hg : ∀ k, F k → ¬ G k → Dict.get? o'.attrs k = Dict.get? o.attrs k) : Free (fun k => F k ∧ G k) o o' := by
  refine ⟨h.keys, ?_, fun k hk => h.text k hk.1, h.conv, h.custom, h.dims, h.api, h.readOnly, h.prot⟩
  intro k hk
  by_cases h1 : F k
  · exact hg k h1 (fun h2 => hk ⟨h1, h2⟩)
  · exact h.same k h1

theorem Free.mono {F G : Str → Prop} {o o' : Obj} (h : Free F o o') (hg : ∀ k, F k → G k) : Free G o o' :=
  ⟨h.keys, fun k hk => h.same k (fun hf => hk (hg k hf)), fun k hk => by
    by_cases h1 : F k
    · exact h.text k h1
    · exact Or.inl (h.same k h1), h.conv, h.custom, h.dims, h.api, h.readOnly, h.prot⟩

/-- dictionaries with the same names and values are equal -/
theorem dict_ext {V : Type} {d d' : Dict V} (hn : (Dict.keys d).Nodup) (hk : Dict.keys d' = Dict.keys d)
    (hg : ∀ k, Dict.get? d' k = Dict.get? d k) : d' = d := by
  induction d generalizing d' with
  | nil =>
    cases d' with
    | nil => rfl
    | cons p l => simp [Dict.keys] at hk
  | cons p l ih =>
    cases d' with
    | nil => simp [Dict.keys] at hk
    | cons p' l' =>
      obtain ⟨k, v⟩ := p
      obtain ⟨k', v'⟩ := p'
      simp only [Dict.keys, List.map_cons, List.cons.injEq] at hk
      obtain ⟨rfl, hk⟩ := hk
      simp only [Dict.keys, List.map_cons, List.nodup_cons] at hn
      have h1 := hg k'
      simp only [Dict.get?, if_true, Option.some.injEq] at h1
      subst h1
      rw [ih (d' := l') hn.2 hk]
      intro j
      by_cases hj : j = k'
      · subst hj
        rw [(Dict.get?_eq_none_iff l j).2 hn.1, (Dict.get?_eq_none_iff l' j).2 (by unfold Dict.keys; rw [hk]; exact hn.1)]
      · have h2 := hg j
        simpa [Dict.get?, hj, Ne.symm hj] using h2

/-- objects that differ in no text are equal -/
theorem Free.eq {F : Str → Prop} {o o' : Obj} (h : Free F o o') (hF : ∀ k, ¬ F k) (hn : (Dict.keys o.attrs).Nodup) : o' = o := by
  have h1 : o'.attrs = o.attrs := dict_ext hn h.keys (fun k => h.same k (hF k))
  have h2 := h.conv
  have h3 := h.custom
  have h4 := h.dims
  have h5 := h.api
  have h6 := h.readOnly
  have h7 := h.prot
  cases o; cases o'
  simp only at h1 h2 h3 h4 h5 h6 h7
  subst h1 h2 h3 h4 h5 h6 h7
  rfl

/-- the states of two readings -/
structure FreeReading (F : Str → Prop) (st st' : Reading) : Prop where
  obj : Free (fun k => F k ∧ k ∉ st.all) st.obj st'.obj
  all : st'.all = st.all
  custom : st'.custom = st.custom

theorem setAttr_val_get {o : Obj} {k : Str} {v : Val} (h : (setAttr o k (.val v)).out = .ok ()) :
    Dict.get? (setAttr o k (.val v)).obj.attrs k = some v := by
  rcases setAttr_cases o k (.val v) with ⟨e, he, _⟩ | ⟨b, hb, _⟩ | ⟨w, hw, _, _, _, h5, _⟩
  · rw [h] at he; simp at he
  · simp at hb
  · rw [h5]
    obtain rfl : v = w := by simpa [normalise] using hw
    exact Dict.get?_put_self _ _ _

theorem Free.withCustom {F : Str → Prop} {o o' : Obj} (h : Free F o o') (c : Dict Entry) (cu : Option (Dict Entry)) :
    Free F { o with custom := cu, conv := c } { o' with custom := cu, conv := c } :=
  ⟨h.keys, h.same, h.text, rfl, rfl, h.dims, h.api, h.readOnly, h.prot⟩

theorem Free.registerCustom {F : Str → Prop} {o o' : Obj} (h : Free F o o') (k : Str) (e : Entry) :
    Free F (registerCustom o k e) (registerCustom o' k e) := by
  unfold Sofar.registerCustom
  rw [h.conv, h.custom]
  split
  · exact h
  · exact h.withCustom _ _

theorem FreeReading.store {F : Str → Prop} {st st' : Reading} (h : FreeReading F st st') (n : Str) {o o' : Obj} (c : List Str)
    (ho : Free (fun k => F k ∧ k ∉ st.all) o o') (hg : Dict.get? o'.attrs n = Dict.get? o.attrs n) :
    FreeReading F ⟨o, st.all ++ [n], c⟩ ⟨o', st'.all ++ [n], c⟩ := by
  refine ⟨?_, by rw [h.all], rfl⟩
  refine (ho.restrict (G := fun k => k ≠ n) ?_).mono ?_
  · intro k _ hk
    obtain rfl : k = n := Classical.byContradiction hk
    exact hg
  · rintro k ⟨⟨h1, h2⟩, h3⟩
    exact ⟨h1, by simp [h2, h3]⟩

/-- results of two steps of reading -/
def FreeStep (F : Str → Prop) (r r' : Except Exc Reading) : Prop :=
  (∃ x, r = .error x ∧ r' = .error x) ∨ ∃ st st', r = .ok st ∧ r' = .ok st' ∧ FreeReading F st st'

theorem FreeReading.loadItem {F : Str → Prop} {st st' : Reading} (h : FreeReading F st st') (i : Item) :
    FreeStep F (loadItem st i) (loadItem st' i) := by
  unfold Sofar.loadItem
  rw [h.obj.hasAttr]
  split
  · obtain ⟨h1, h2, h3⟩ := h.obj.setAttr i.name (.val i.value)
    simp only [h1]
    cases ho : (Sofar.setAttr st.obj i.name (.val i.value)).out with
    | error x => exact Or.inl ⟨x, rfl, rfl⟩
    | ok u =>
      refine Or.inr ⟨_, _, rfl, rfl, ?_⟩
      rw [h.custom]
      refine h.store i.name st.custom h3 ?_
      rw [setAttr_val_get ho, setAttr_val_get (by rw [h1, ho])]
  · unfold addCustomApiEntry
    have hr := (h.obj.withProt false).registerCustom i.name (customEntry none (i.dims.map customDims) i.typ)
    obtain ⟨h1, h2, h3⟩ := hr.setAttr i.name (.val i.value)
    simp only [h1]
    cases ho : (Sofar.setAttr (Sofar.registerCustom { st.obj with prot := false } i.name
        (customEntry none (i.dims.map customDims) i.typ)) i.name (.val i.value)).out with
    | error x => exact Or.inl ⟨x, rfl, rfl⟩
    | ok u =>
      refine Or.inr ⟨_, _, rfl, rfl, ?_⟩
      rw [h.custom]
      refine h.store i.name _ ((h3.withProt true).withProt false) ?_
      exact (setAttr_val_get (by rw [h1, ho])).trans (setAttr_val_get ho).symm

theorem FreeReading.loadItems {F : Str → Prop} {st st' : Reading} (h : FreeReading F st st') (l : List Item) :
    FreeStep F (loadItems l st) (loadItems l st') := by
  induction l generalizing st st' with
  | nil => exact Or.inr ⟨_, _, rfl, rfl, h⟩
  | cons i l ih =>
    simp only [Sofar.loadItems]
    rcases h.loadItem i with ⟨x, h1, h2⟩ | ⟨s, s', h1, h2, h3⟩
    · rw [h1, h2]; exact Or.inl ⟨x, rfl, rfl⟩
    · rw [h1, h2]; exact ih h3

theorem FreeReading.readVars {F : Str → Prop} {st st' : Reading} (h : FreeReading F st st') (nc : Nc) (l : Dict NcVar) :
    FreeStep F (readVars nc l st).1 (readVars nc l st').1 ∧ (readVars nc l st').2 = (readVars nc l st).2 := by
  induction l generalizing st st' with
  | nil => exact ⟨Or.inr ⟨_, _, rfl, rfl, h⟩, rfl⟩
  | cons p l ih =>
    obtain ⟨n, v⟩ := p
    simp only [Sofar.readVars]
    cases (varItems nc n v).1 with
    | error x => exact ⟨Or.inl ⟨x, rfl, rfl⟩, rfl⟩
    | ok items =>
      simp only
      rcases h.loadItems items with ⟨x, h1, h2⟩ | ⟨s, s', h1, h2, h3⟩
      · rw [h1, h2]; exact ⟨Or.inl ⟨x, rfl, rfl⟩, rfl⟩
      · rw [h1, h2]
        obtain ⟨h4, h5⟩ := ih h3
        exact ⟨h4, by simp only [h5]⟩

theorem Free.delAttr {F : Str → Prop} {o o' : Obj} (h : Free F o o') (k : Str) :
    FreeRet F (delAttr o k) (delAttr o' k) ∧
    ((delAttr o k).out = .ok () → Dict.get? (delAttr o k).obj.attrs k = Dict.get? (delAttr o' k).obj.attrs k) := by
  have hrem : FreeRet F (removeAttr o k) (removeAttr o' k) ∧
      ((removeAttr o k).out = .ok () → Dict.get? (removeAttr o k).obj.attrs k = Dict.get? (removeAttr o' k).obj.attrs k) := by
    unfold removeAttr
    rw [h.has]
    split
    · refine ⟨⟨rfl, rfl, ?_, ?_, ?_, h.conv, ?_, h.dims, h.api, h.readOnly, h.prot⟩, ?_⟩
      · simp only [Dict.keys_del, h.keys]
      · intro j hj
        simp only [Dict.get?_del]
        rw [h.same j hj]
      · intro j hj
        simp only [Dict.get?_del]
        split
        · exact Or.inl rfl
        · exact h.text j hj
      · simp only [h.custom]
      · intro _
        simp [Dict.get?_del]
    · split
      · exact ⟨⟨rfl, rfl, h⟩, fun h => by simp at h⟩
      · exact ⟨⟨rfl, rfl, h⟩, fun h => by simp at h⟩
  unfold Sofar.delAttr
  rw [h.hasAttr, h.prot, h.conv]
  split
  · exact ⟨⟨rfl, rfl, h⟩, fun h => by simp at h⟩
  split
  · exact hrem
  cases Dict.get? o.conv k with
  | none => exact ⟨⟨rfl, rfl, h⟩, fun h => by simp at h⟩
  | some e =>
    simp only
    split
    · exact hrem
    · exact ⟨⟨rfl, rfl, h⟩, fun h => by simp at h⟩

theorem Free.deleteExtra {F : Str → Prop} (all : List Str) (ks : List Str) {o o' : Obj} (h : Free F o o') (hF : ∀ k, F k → k ∉ all) :
    (∃ x, deleteExtra all ks o = .error x ∧ deleteExtra all ks o' = .error x) ∨
    ∃ p p', deleteExtra all ks o = .ok p ∧ deleteExtra all ks o' = .ok p' ∧ Free (fun k => F k ∧ k ∉ ks) p p' := by
  induction ks generalizing F o o' with
  | nil => exact Or.inr ⟨o, o', rfl, rfl, h.mono (fun k hk => ⟨hk, by simp⟩)⟩
  | cons k ks ih =>
    simp only [Sofar.deleteExtra]
    split
    · rename_i hk
      rcases ih h hF with h1 | ⟨p, p', h1, h2, h3⟩
      · exact Or.inl h1
      · refine Or.inr ⟨p, p', h1, h2, h3.mono ?_⟩
        rintro j ⟨h4, h5⟩
        refine ⟨h4, ?_⟩
        simp only [List.mem_cons, not_or]
        refine ⟨?_, h5⟩
        rintro rfl
        exact hF j h4 (List.contains_iff_mem.1 hk)
    · obtain ⟨⟨h1, -, h3⟩, h4⟩ := h.delAttr k
      simp only [h1]
      cases hd : (Sofar.delAttr o k).out with
      | error x => exact Or.inl ⟨x, rfl, rfl⟩
      | ok u =>
        simp only
        have h5 := h3.restrict (G := fun j => j ≠ k) (fun j _ hj => by
          obtain rfl : j = k := Classical.byContradiction hj
          exact (h4 hd).symm)
        rcases ih h5 (fun j hj => hF j hj.1) with h6 | ⟨p, p', h6, h7, h8⟩
        · exact Or.inl h6
        · refine Or.inr ⟨p, p', h6, h7, h8.mono ?_⟩
          rintro j ⟨⟨h9, h10⟩, h11⟩
          exact ⟨h9, by simp [h10, h11]⟩

theorem Free.loadFile {F : Str → Prop} {new new' : Obj} (h : Free F new new') (hn : (Dict.keys new.attrs).Nodup) (nc : Nc) (f : NcFile)
    (vb : Bool) : loadFile nc f new' vb = loadFile nc f new vb := by
  have key : (∃ x, (Sofar.loadFile nc f new vb).out = .error x ∧ Sofar.loadFile nc f new' vb = Sofar.loadFile nc f new vb) ∨
      ∃ p p', (Sofar.loadFile nc f new vb).out = .ok p ∧ (Sofar.loadFile nc f new' vb).out = .ok p' ∧
        (Sofar.loadFile nc f new' vb).ev = (Sofar.loadFile nc f new vb).ev ∧ Free (fun _ => False) p p' := by
    unfold Sofar.loadFile
    cases attrItems nc (py% "GLOBAL_") f.attrs with
    | error x => exact Or.inl ⟨x, rfl, rfl⟩
    | ok items =>
      simp only
      have h0 : FreeReading F ⟨{ new with prot := false }, [], []⟩ ⟨{ new' with prot := false }, [], []⟩ :=
        ⟨(h.withProt false).mono (fun k hk => ⟨hk, by simp⟩), rfl, rfl⟩
      rcases h0.loadItems items with ⟨x, h1, h2⟩ | ⟨s, s', h1, h2, h3⟩
      · rw [h1, h2]; exact Or.inl ⟨x, rfl, rfl⟩
      · rw [h1, h2]
        simp only
        obtain ⟨h4, h5⟩ := h3.readVars nc f.vars
        rw [h5]
        rcases h4 with ⟨x, h6, h7⟩ | ⟨q, q', h6, h7, h8⟩
        · rw [h6, h7]; exact Or.inl ⟨x, rfl, rfl⟩
        · rw [h6, h7]
          simp only [h8.all, h8.custom, h8.obj.objKeys]
          have h9 := h8.obj.restrict (G := fun k => k ∈ q.obj.keys) (fun k _ hk => by
            rw [(Dict.get?_eq_none_iff q.obj.attrs k).2 hk, (Dict.get?_eq_none_iff q'.obj.attrs k).2 (by rw [h8.obj.keys]; exact hk)])
          rcases h9.deleteExtra q.all q.obj.keys (fun k hk => hk.1.2) with ⟨x, h10, h11⟩ | ⟨p, p', h10, h11, h12⟩
          · rw [h10, h11]; exact Or.inl ⟨x, rfl, rfl⟩
          · rw [h10, h11]
            exact Or.inr ⟨_, _, rfl, rfl, rfl, (h12.mono (fun k hk => hk.2 hk.1.2)).withProt true⟩
  rcases key with ⟨x, -, h2⟩ | ⟨p, p', h1, h2, h3, h4⟩
  · exact h2
  · have hp : (Dict.keys p.attrs).Nodup := by
      obtain ⟨l, st, -, hF⟩ := loadFile_iff hn h1
      rw [hF.attrs]
      apply Dict.nodup_filter
      rw [(loadItems_ok (by rfl) hF.load).2.2]
      exact nodup_foldl_items _ _ hn
    obtain rfl := h4.eq (fun _ h => h) hp
    have : ∀ r r' : Created, r'.out = r.out → r'.ev = r.ev → r' = r := by
      intro r r' ha hb
      cases r; cases r'
      simp only at ha hb
      subst ha hb
      rfl
    exact this _ _ (by rw [h1, h2]) h3

theorem verifyRead_time {env : Env} (hF : ∀ k, IsDate k → Spec.FreeText env k) (t : Str) (o : Obj) (v : Str) (arg : VerifyArg) :
    verifyRead { env with now := t } o v arg = verifyRead env o v arg := by
  unfold verifyRead
  simp only [verify_time hF t]

theorem readSofa_time {env : Env} (hF : ∀ k, IsDate k → Spec.FreeText env k) (t : Str) (nc : Nc) (fs : FS) (filename : Str)
    (arg : VerifyArg) (vb : Bool) : readSofa { env with now := t } nc fs filename arg vb = readSofa env nc fs filename arg vb := by
  unfold readSofa
  cases openFile fs filename with
  | error x => rfl
  | ok f =>
    simp only
    cases fileAttr f (py% "SOFAConventions") with
    | error x => rfl
    | ok c =>
      simp only
      cases fileAttr f (py% "SOFAConventionsVersion") with
      | error x => rfl
      | ok v =>
        simp only
        cases c.asStr with
        | none => rfl
        | some c =>
          cases v.asStr with
          | none => rfl
          | some v =>
            simp only
            have hv : verifyConvention { env with now := t } v c = verifyConvention env v c := rfl
            rw [hv]
            cases verifyConvention env v c with
            | error x => rfl
            | ok u =>
              simp only
              obtain ⟨h1, h2 | h2⟩ := initSofa_time hF t c false (.exact v) arg
              · obtain ⟨x, h3, h4⟩ := h2
                simp only [h1, h3, h4]
              · obtain ⟨o, o', h3, h4, h5⟩ := h2
                simp only [h1, h3, h4, h5.loadFile (initSofa_nodup h3), verifyRead_time hF t]

theorem checkLatest_time {env : Env} (hF : ∀ k, IsDate k → Spec.FreeText env k) (t : Str) (o : Obj) :
    checkLatest { env with now := t } o = checkLatest env o := by
  unfold checkLatest
  split
  · rfl
  · rename_i c hc
    split
    · rfl
    · split
      · rfl
      · rename_i s hs
        obtain ⟨h1, h2 | h2⟩ := initSofa_time hF t s false .latest .auto
        · obtain ⟨x, h3, h4⟩ := h2
          simp only [h1, h3, h4]
        · obtain ⟨p, p', h3, h4, h5⟩ := h2
          have hg := h5.getAttr_same (freeIn_of hF).notVersion
          simp only [h1, h3, h4, hg]

theorem pyStr_time (env : Env) (t : Str) (v : Val) : pyStr { env with now := t } v = pyStr env v := rfl

theorem writeGlobals_time (env : Env) (t : Str) (nc : Nc) (o : Obj) (l : List Str) (f : NcFile) :
    writeGlobals { env with now := t } nc o l f = writeGlobals env nc o l f := by
  induction l generalizing f with
  | nil => rfl
  | cons k l ih =>
    unfold writeGlobals
    simp only [pyStr_time env t, ih]

theorem varAttrs_time (env : Env) (t : Str) (nc : Nc) (o : Obj) (n : Nat) (l : List Str)
    (d : Dict Val) : varAttrs { env with now := t } nc o n l d = varAttrs env nc o n l d := by
  induction l generalizing d with
  | nil => rfl
  | cons k l ih =>
    unfold varAttrs
    simp only [pyStr_time env t, ih]

theorem toDoubles_time (env : Env) (t : Str) (k : Kind) (l : List Elem) :
    toDoubles { env with now := t } k l = toDoubles env k l := by
  induction l with
  | nil => rfl
  | cons e l ih =>
    have h1 : toDouble { env with now := t } k e = toDouble env k e := rfl
    unfold toDoubles
    simp only [h1, ih]

theorem writeKey_time (env : Env) (t : Str) (nc : Nc) (o : Obj) (compression : Nat)
    (k : Str) (f : NcFile) : writeKey { env with now := t } nc o compression k f = writeKey env nc o compression k f := by
  have h1 : ∀ k a, netcdfData { env with now := t } k a = netcdfData env k a := by
    intro k a
    unfold netcdfData
    simp only [toDoubles_time env t]
  have h2 : ∀ key ty d S v f, writeVariable { env with now := t } nc o compression key ty d S v f =
      writeVariable env nc o compression key ty d S v f := by
    intro key ty d S v f
    unfold writeVariable
    simp only [h1, varAttrs_time env t]
  unfold writeKey
  simp only [h2]

theorem writeKeys_time (env : Env) (t : Str) (nc : Nc) (o : Obj) (compression : Nat)
    (l : List Str) (f : NcFile) : writeKeys { env with now := t } nc o compression l f = writeKeys env nc o compression l f := by
  induction l generalizing f with
  | nil => rfl
  | cons k l ih =>
    unfold writeKeys
    simp only [writeKey_time env t, ih]

theorem writeDisk_time (env : Env) (t : Str) (nc : Nc) (fs : FS) (path : Str) (o : Obj)
    (compression : Nat) : writeDisk { env with now := t } nc fs path o compression = writeDisk env nc fs path o compression := by
  unfold writeDisk writeFile
  simp only [writeGlobals_time env t, writeKeys_time env t]

theorem writeSofa_time {env : Env} (hF : ∀ k, IsDate k → Spec.FreeText env k) (t : Str) (nc : Nc) (fs : FS) (filename : Str)
    (o : Obj) (c : Nat) : writeSofa { env with now := t } nc fs filename o c = writeSofa env nc fs filename o c := by
  unfold writeSofa writeSofaG
  simp only [checkLatest_time hF t, verify_time hF t, writeDisk_time env t]

end Sofar
