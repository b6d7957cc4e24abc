import Verif.Model.IO
import Verif.Spec.IO
import Verif.Lemmas.Init
/-!
# Lemmas on reading
-/
namespace Sofar

theorem addDefaults_nodup {m : Bool} {conv : Dict Entry} {o o' : Obj} (h : addDefaults m conv o = .ok o')
    (hn : (Dict.keys o.attrs).Nodup) : (Dict.keys o'.attrs).Nodup := by
  induction conv generalizing o with
  | nil => simp only [addDefaults, Except.ok.injEq] at h; exact h ▸ hn
  | cons p l ih =>
    obtain ⟨k, e⟩ := p
    simp only [addDefaults] at h
    split at h
    · exact ih h hn
    · split at h
      · simp at h
      · rename_i d _
        split at h
        · simp at h
        · apply ih h
          rcases setAttr_cases o k d with ⟨x, _, h2, _⟩ | ⟨b, _, _, _, h2⟩ | ⟨w, _, _, _, _, h2, _⟩
          · rw [h2]; exact hn
          · rw [h2]; exact hn
          · rw [h2]; exact Dict.nodup_put k w hn

theorem initSofa_nodup {env : Env} {c : Str} {m : Bool} {ver : VersionArg} {a : VerifyArg} {o : Obj}
    (h : (initSofa env c m ver a).out = .ok o) : (Dict.keys o.attrs).Nodup := by
  obtain ⟨conv, o0, h1, h2, h3, _⟩ := initSofa_ok h
  rw [h3]
  unfold conventionToSofa at h2
  split at h2
  · simp at h2
  · rename_i o1 hd
    simp only [Except.ok.injEq] at h2
    subst h2
    have hn := addDefaults_nodup hd (by simp [emptyObj, Dict.keys])
    simp only [putStamps]
    have : ∀ (l : List (Str × Str)) (d : Dict Val), (Dict.keys d).Nodup →
        (Dict.keys (l.foldl (fun d p => Dict.put d p.1 (.str p.2)) d)).Nodup := by
      intro l
      induction l with
      | nil => intro d hd; exact hd
      | cons p l ih => intro d hd; exact ih _ (Dict.nodup_put _ _ hd)
    exact this _ _ hn

/-- effect of storing one entry -/
structure Loaded (st st' : Reading) (i : Item) : Prop where
  prot : st'.obj.prot = false
  attrs : st'.obj.attrs = Dict.put st.obj.attrs i.name i.value
  all : st'.all = st.all ++ [i.name]
  api : (st.obj.hasAttr i.name = true ∧ st'.obj.conv = st.obj.conv ∧ st'.obj.custom = st.obj.custom ∧
      st'.custom = st.custom) ∨
    (st.obj.hasAttr i.name = false ∧ st'.custom = st.custom ++ [i.name] ∧
      ((Dict.has st.obj.conv i.name = true ∧ st'.obj.conv = st.obj.conv ∧ st'.obj.custom = st.obj.custom) ∨
      (Dict.has st.obj.conv i.name = false ∧
        st'.obj.conv = Dict.put st.obj.conv i.name (customEntry none (i.dims.map customDims) i.typ) ∧
        st'.obj.custom = some (Dict.put (st.obj.custom.getD []) i.name (customEntry none (i.dims.map customDims) i.typ)))))
  private_ : isPrivate i.name = false

theorem setAttr_val_ok {o : Obj} {n : Str} {v : Val} (h : (setAttr o n (.val v)).out = .ok ()) :
    (setAttr o n (.val v)).obj = { o with attrs := Dict.put o.attrs n v } ∧ isPrivate n = false := by
  rcases setAttr_cases o n (.val v) with ⟨x, h1, _, _⟩ | ⟨b, h1, _⟩ | ⟨w, h1, _, h3, _, h2, _⟩
  · rw [h1] at h; simp at h
  · simp at h1
  · rw [h2]
    simp only [normalise, Except.ok.injEq] at h1
    exact ⟨by rw [h1], h3⟩

theorem loadItem_ok {st st' : Reading} {i : Item} (hp : st.obj.prot = false) (h : loadItem st i = .ok st') :
    Loaded st st' i := by
  unfold loadItem at h
  by_cases hh : st.obj.hasAttr i.name = true
  · simp only [hh, if_true] at h
    cases ho : (setAttr st.obj i.name (.val i.value)).out with
    | error e => simp [ho] at h
    | ok u =>
      simp only [ho, Except.ok.injEq] at h
      subst h
      obtain ⟨h1, h2⟩ := setAttr_val_ok ho
      exact ⟨by simp [h1, hp], by simp [h1], rfl, Or.inl ⟨hh, by simp [h1], by simp [h1], rfl⟩, h2⟩
  · have hh' : st.obj.hasAttr i.name = false := by simpa using hh
    simp only [hh', Bool.false_eq_true, if_false] at h
    cases ho : (addCustomApiEntry st.obj i.name (.val i.value) none i.dims i.typ).out with
    | error e => simp [ho] at h
    | ok u =>
      simp only [ho, Except.ok.injEq] at h
      subst h
      have hset : (setAttr (registerCustom { st.obj with prot := false } i.name
          (customEntry none (i.dims.map customDims) i.typ)) i.name (.val i.value)).out = .ok () := by
        unfold addCustomApiEntry at ho
        simp only at ho
        split at ho
        · simp at ho
        · rename_i hx; exact hx
      obtain ⟨h1, h2⟩ := setAttr_val_ok hset
      have hobj : (addCustomApiEntry st.obj i.name (.val i.value) none i.dims i.typ).obj =
          { registerCustom { st.obj with prot := false } i.name (customEntry none (i.dims.map customDims) i.typ) with
            attrs := Dict.put (registerCustom { st.obj with prot := false } i.name
              (customEntry none (i.dims.map customDims) i.typ)).attrs i.name i.value, prot := true } := by
        unfold addCustomApiEntry
        simp only [hset, h1]
      rw [hobj]
      unfold registerCustom
      by_cases hc : Dict.has st.obj.conv i.name = true
      · simp only [hc, if_true]
        exact ⟨rfl, rfl, rfl, Or.inr ⟨hh', rfl, Or.inl ⟨hc, rfl, rfl⟩⟩, h2⟩
      · have hc' : Dict.has st.obj.conv i.name = false := by simpa using hc
        simp only [hc', Bool.false_eq_true, if_false]
        exact ⟨rfl, rfl, rfl, Or.inr ⟨hh', rfl, Or.inr ⟨hc', rfl, rfl⟩⟩, h2⟩

/-- an entry with an ordinary name can be stored -/
theorem loadItem_total {st : Reading} {i : Item} (hp : st.obj.prot = false) (hn : Spec.OrdinaryName i.name) :
    ∃ st', loadItem st i = .ok st' := by
  have h1 : i.name ≠ py% "protected" := by
    intro h; exact hn.1 (by rw [h]; decide)
  have h2 : i.name ≠ py% "list_dimensions" := by
    intro h; exact hn.1 (by rw [h]; decide)
  unfold loadItem
  by_cases hh : st.obj.hasAttr i.name = true
  · simp [hh, setAttr, hp, h1, h2, normalise, (show isPrivate i.name = false from hn.2)]
  · have hh' : st.obj.hasAttr i.name = false := by simpa using hh
    simp only [hh', Bool.false_eq_true, if_false]
    rw [addCustomApiEntry_ok st.obj i.name (.val i.value) i.value none i.dims i.typ rfl h1 h2 hn.2]
    simp

/-- names and data after storing entries -/
theorem loadItems_ok {l : List Item} {st st' : Reading} (hp : st.obj.prot = false) (h : loadItems l st = .ok st') :
    st'.obj.prot = false ∧ st'.all = st.all ++ l.map (·.name) ∧
    st'.obj.attrs = l.foldl (fun d i => Dict.put d i.name i.value) st.obj.attrs := by
  induction l generalizing st with
  | nil => simp only [loadItems, Except.ok.injEq] at h; subst h; simp [hp]
  | cons i l ih =>
    simp only [loadItems] at h
    split at h
    · simp at h
    · rename_i st1 h1
      have hl := loadItem_ok hp h1
      obtain ⟨a, b, c⟩ := ih hl.prot h
      exact ⟨a, by rw [b, hl.all]; simp, by rw [c, hl.attrs]; rfl⟩

theorem loadItems_total {l : List Item} {st : Reading} (hp : st.obj.prot = false)
    (hn : ∀ i ∈ l, Spec.OrdinaryName i.name) : ∃ st', loadItems l st = .ok st' := by
  induction l generalizing st with
  | nil => exact ⟨st, rfl⟩
  | cons i l ih =>
    obtain ⟨st1, h1⟩ := loadItem_total hp (hn i (by simp))
    obtain ⟨st2, h2⟩ := ih (loadItem_ok hp h1).prot (fun j hj => hn j (by simp [hj]))
    exact ⟨st2, by simp only [loadItems, h1, h2]⟩

theorem loadItems_append {l m : List Item} {st : Reading} :
    loadItems (l ++ m) st = (match loadItems l st with | .error e => .error e | .ok st' => loadItems m st') := by
  induction l generalizing st with
  | nil => simp [loadItems]
  | cons i l ih =>
    simp only [List.cons_append, loadItems]
    cases loadItem st i with
    | error e => rfl
    | ok st' => exact ih

/-- entries of all variables -/
def allVarItems (nc : Nc) : Dict NcVar → Except Exc (List Item)
  | [] => .ok []
  | (n, v) :: l =>
    match (varItems nc n v).1 with
    | .error e => .error e
    | .ok a =>
      match allVarItems nc l with
      | .error e => .error e
      | .ok b => .ok (a ++ b)

theorem readVars_iff {nc : Nc} {vars : Dict NcVar} {st st' : Reading} :
    (readVars nc vars st).1 = .ok st' ↔ ∃ l, allVarItems nc vars = .ok l ∧ loadItems l st = .ok st' := by
  induction vars generalizing st with
  | nil => simp [readVars, allVarItems, loadItems]
  | cons p vars ih =>
    obtain ⟨n, v⟩ := p
    simp only [readVars, allVarItems]
    cases hv : (varItems nc n v).1 with
    | error e => simp
    | ok a =>
      simp only
      cases hl : loadItems a st with
      | error e =>
        simp only [reduceCtorEq, false_iff, not_exists, not_and]
        intro l h1 h2
        split at h1
        · simp at h1
        · simp only [Except.ok.injEq] at h1
          subst h1
          rw [loadItems_append, hl] at h2
          simp at h2
      | ok st1 =>
        simp only
        rw [ih]
        constructor
        · rintro ⟨l, h1, h2⟩
          exact ⟨a ++ l, by rw [h1], by rw [loadItems_append, hl]; exact h2⟩
        · rintro ⟨l, h1, h2⟩
          split at h1
          · simp at h1
          · rename_i b hb
            simp only [Except.ok.injEq] at h1
            subst h1
            rw [loadItems_append, hl] at h2
            exact ⟨b, hb, h2⟩

theorem attrItems_ok {nc : Nc} {pre : Str} {d : Dict Val} {l : List Item} (h : attrItems nc pre d = .ok l) :
    l = d.map (fun p => ⟨pre ++ p.1, p.2, none, py% "attribute"⟩) := by
  induction d generalizing l with
  | nil => simp only [attrItems, Except.ok.injEq] at h; subst h; rfl
  | cons p d ih =>
    obtain ⟨a, v⟩ := p
    simp only [attrItems] at h
    split at h
    · simp at h
    · split at h
      · simp at h
      · rename_i r hr
        simp only [Except.ok.injEq] at h
        subst h
        rw [ih hr]
        rfl

theorem attrItems_total {nc : Nc} {pre : Str} {d : Dict Val}
    (h : ∀ a v, (a, v) ∈ d → nc.reserved a = false ∧ nc.special a = false) :
    attrItems nc pre d = .ok (d.map (fun p => ⟨pre ++ p.1, p.2, none, py% "attribute"⟩)) := by
  induction d with
  | nil => rfl
  | cons p d ih =>
    obtain ⟨a, v⟩ := p
    obtain ⟨h1, h2⟩ := h a v (by simp)
    simp only [attrItems, h1, h2, Bool.or_self, Bool.false_eq_true, if_false,
      ih (fun a v hm => h a v (by simp [hm]))]
    rfl

theorem dotName_eq (n : Str) : sofarName n = Spec.dotName n := rfl

theorem varItems_ok {nc : Nc} {n : Str} {x : NcVar} {l : List Item} (h : (varItems nc n x).1 = .ok l) :
    ∃ v, (formatFrom nc n x.data).1 = .ok v ∧
      l = ⟨Spec.dotName n, v, some x.dims.flatten, if x.data.kind = .S then py% "string" else py% "double"⟩ ::
        (withoutSkipped x.attrs).map (fun p => ⟨Spec.dotName n ++ py% "_" ++ p.1, p.2, none, py% "attribute"⟩) := by
  unfold varItems at h
  cases hf : (formatFrom nc n x.data).1 with
  | error e => simp [hf] at h
  | ok v =>
    simp only [hf] at h
    cases ha : attrItems nc (sofarName n ++ py% "_") (withoutSkipped x.attrs) with
    | error e => simp [ha] at h
    | ok r =>
      simp only [ha, Except.ok.injEq] at h
      refine ⟨v, rfl, ?_⟩
      rw [← h, attrItems_ok ha, dotName_eq]

theorem allVarItems_mem {nc : Nc} {vars : Dict NcVar} {l : List Item} (h : allVarItems nc vars = .ok l) (i : Item) :
    i ∈ l ↔ ∃ n x a, (n, x) ∈ vars ∧ (varItems nc n x).1 = .ok a ∧ i ∈ a := by
  induction vars generalizing l with
  | nil => simp only [allVarItems, Except.ok.injEq] at h; subst h; simp
  | cons p vars ih =>
    obtain ⟨n, x⟩ := p
    simp only [allVarItems] at h
    split at h
    · simp at h
    · rename_i a ha
      split at h
      · simp at h
      · rename_i b hb
        simp only [Except.ok.injEq] at h
        subst h
        rw [List.mem_append, ih hb]
        constructor
        · rintro (h1 | ⟨n', x', a', h1, h2, h3⟩)
          · exact ⟨n, x, a, by simp, ha, h1⟩
          · exact ⟨n', x', a', by simp [h1], h2, h3⟩
        · rintro ⟨n', x', a', h1, h2, h3⟩
          simp only [List.mem_cons, Prod.mk.injEq] at h1
          rcases h1 with ⟨rfl, rfl⟩ | h1
          · rw [ha] at h2
            cases h2
            exact Or.inl h3
          · exact Or.inr ⟨n', x', a', h1, h2, h3⟩

theorem allVarItems_each {nc : Nc} {vars : Dict NcVar} {l : List Item} (h : allVarItems nc vars = .ok l) {n : Str}
    {x : NcVar} (hm : (n, x) ∈ vars) : ∃ a, (varItems nc n x).1 = .ok a := by
  induction vars generalizing l with
  | nil => simp at hm
  | cons p vars ih =>
    obtain ⟨n', x'⟩ := p
    simp only [allVarItems] at h
    split at h
    · simp at h
    · rename_i a ha
      split at h
      · simp at h
      · rename_i b hb
        simp only [List.mem_cons, Prod.mk.injEq] at hm
        rcases hm with ⟨rfl, rfl⟩ | hm
        · exact ⟨a, ha⟩
        · exact ih hb hm

theorem allVarItems_total {nc : Nc} {vars : Dict NcVar} (h : ∀ n x, (n, x) ∈ vars → ∃ a, (varItems nc n x).1 = .ok a) :
    ∃ l, allVarItems nc vars = .ok l := by
  induction vars with
  | nil => exact ⟨[], rfl⟩
  | cons p vars ih =>
    obtain ⟨n, x⟩ := p
    obtain ⟨a, ha⟩ := h n x (by simp)
    obtain ⟨b, hb⟩ := ih (fun n x hm => h n x (by simp [hm]))
    exact ⟨a ++ b, by simp [allVarItems, ha, hb]⟩

/-- deleting what is not in the file -/
theorem deleteExtra_ok {all ks : List Str} {o : Obj} (hp : o.prot = false) (hk : ∀ k ∈ ks, k ∈ Dict.keys o.attrs)
    (hn : ks.Nodup) : ∃ o', deleteExtra all ks o = .ok o' ∧
      (o'.attrs = o.attrs.filter (fun p => ! (ks.contains p.1 && ! all.contains p.1))) ∧ o'.conv = o.conv ∧
      o'.prot = false ∧
      (∀ c, o'.custom = some c → ∃ c', o.custom = some c' ∧
        c = c'.filter (fun p => ! (ks.contains p.1 && ! all.contains p.1))) ∧
      (o'.custom = none → o.custom = none) := by
  induction ks generalizing o with
  | nil =>
    refine ⟨o, rfl, by simp, rfl, hp, ?_, fun h => h⟩
    intro c hc
    exact ⟨c, hc, by simp⟩
  | cons k ks ih =>
    simp only [List.nodup_cons] at hn
    simp only [deleteExtra]
    by_cases hc : all.contains k = true
    · simp only [hc, if_true]
      obtain ⟨o', h1, h2, h3, h4, h5, h6⟩ := ih hp (fun j hj => hk j (by simp [hj])) hn.2
      have hfe : ∀ {V : Type} (d : Dict V), d.filter (fun p => ! (ks.contains p.1 && ! all.contains p.1)) =
          d.filter (fun p => ! ((k :: ks).contains p.1 && ! all.contains p.1)) := by
        intro V d
        apply List.filter_congr
        intro p _
        by_cases hpk : p.1 = k
        · have hc' : k ∈ all := by simpa using hc
          simp [hpk, hc']
        · simp [hpk]
      refine ⟨o', h1, by rw [h2, hfe], h3, h4, ?_, h6⟩
      intro c hc
      obtain ⟨c', e1, e2⟩ := h5 c hc
      exact ⟨c', e1, by rw [e2, hfe]⟩
    · simp only [hc, Bool.false_eq_true, if_false]
      have hh : Dict.has o.attrs k = true := by rw [Dict.has_iff_mem]; exact hk k (by simp)
      have hd : delAttr o k = ⟨.ok (), { o with attrs := Dict.del o.attrs k, custom := o.custom.map (Dict.del · k) }, []⟩ := by
        have hat : o.hasAttr k = true := by simp [Obj.hasAttr, hh]
        simp [delAttr, hat, hp, removeAttr, hh]
      rw [hd]
      simp only
      obtain ⟨o', h1, h2, h3, h4, h5, h6⟩ := ih (o := { o with attrs := Dict.del o.attrs k, custom := o.custom.map (Dict.del · k) }) hp (by
        intro j hj
        rw [show (({ o with attrs := Dict.del o.attrs k, custom := o.custom.map (Dict.del · k) } : Obj)).attrs
          = Dict.del o.attrs k from rfl, Dict.keys_del, List.mem_filter]
        refine ⟨hk j (by simp [hj]), ?_⟩
        simp only [decide_not, Bool.not_eq_eq_eq_not, Bool.not_true, decide_eq_false_iff_not]
        rintro rfl
        exact hn.1 hj) hn.2
      have hfe : ∀ {V : Type} (d : Dict V), (Dict.del d k).filter (fun p => ! (ks.contains p.1 && ! all.contains p.1)) =
          d.filter (fun p => ! ((k :: ks).contains p.1 && ! all.contains p.1)) := by
        intro V d
        unfold Dict.del
        rw [List.filter_filter]
        apply List.filter_congr
        intro p _
        by_cases hpk : p.1 = k
        · have hc' : k ∉ all := by simpa using hc
          simp [hpk, hc']
        · simp [hpk]
      refine ⟨o', h1, by rw [h2, hfe], h3, h4, ?_, ?_⟩
      · intro c hc
        obtain ⟨c', e1, e2⟩ := h5 c hc
        simp only [Option.map_eq_some_iff] at e1
        obtain ⟨c'', e3, e4⟩ := e1
        exact ⟨c'', e3, by rw [e2, ← e4, hfe]⟩
      · intro hc
        have := h6 hc
        simpa using this

theorem get?_foldl_items {l : List Item} {d : Dict Val} {k : Str} (h : k ∈ l.map (·.name)) :
    ∃ i ∈ l, i.name = k ∧ Dict.get? (l.foldl (fun d i => Dict.put d i.name i.value) d) k = some i.value := by
  induction l generalizing d with
  | nil => simp at h
  | cons j l ih =>
    by_cases hl : k ∈ l.map (·.name)
    · obtain ⟨i, h1, h2, h3⟩ := ih (d := Dict.put d j.name j.value) hl
      exact ⟨i, by simp [h1], h2, h3⟩
    · have hk : k = j.name := by simpa [hl] using h
      refine ⟨j, by simp, hk.symm, ?_⟩
      have : ∀ (l : List Item) (d : Dict Val), k ∉ l.map (·.name) →
          Dict.get? (l.foldl (fun d i => Dict.put d i.name i.value) d) k = Dict.get? d k := by
        intro l
        induction l with
        | nil => intro d _; rfl
        | cons i l ih =>
          intro d hn
          simp only [List.map_cons, List.mem_cons, not_or] at hn
          rw [List.foldl_cons, ih _ hn.2, Dict.get?_put_ne _ _ hn.1]
      rw [List.foldl_cons, this l _ hl, hk, Dict.get?_put]
      simp

theorem mem_keys_foldl_items (l : List Item) (d : Dict Val) (k : Str) :
    k ∈ Dict.keys (l.foldl (fun d i => Dict.put d i.name i.value) d) ↔ k ∈ l.map (·.name) ∨ k ∈ Dict.keys d := by
  induction l generalizing d with
  | nil => simp
  | cons i l ih =>
    rw [List.foldl_cons, ih, Dict.mem_keys_put]
    simp only [List.map_cons, List.mem_cons]
    tauto

theorem nodup_foldl_items (l : List Item) (d : Dict Val) (h : (Dict.keys d).Nodup) :
    (Dict.keys (l.foldl (fun d i => Dict.put d i.name i.value) d)).Nodup := by
  induction l generalizing d with
  | nil => exact h
  | cons i l ih => exact ih _ (Dict.nodup_put _ _ h)

/-- the entries of a file -/
def fileItems (nc : Nc) (f : NcFile) : Except Exc (List Item) :=
  match attrItems nc (py% "GLOBAL_") f.attrs with
  | .error e => .error e
  | .ok g =>
    match allVarItems nc f.vars with
    | .error e => .error e
    | .ok v => .ok (g ++ v)

/-- the object that results from loading entries -/
structure FromItems (new : Obj) (l : List Item) (st : Reading) (o : Obj) : Prop where
  load : loadItems l ⟨{ new with prot := false }, [], []⟩ = .ok st
  attrs : o.attrs = st.obj.attrs.filter (fun p => (l.map (·.name)).contains p.1)
  conv : o.conv = st.obj.conv
  prot : o.prot = true
  custom : ∀ c, o.custom = some c → ∃ c', st.obj.custom = some c' ∧
    c = c'.filter (fun p => ! ((Dict.keys st.obj.attrs).contains p.1 && ! (l.map (·.name)).contains p.1))
  noCustom : o.custom = none → st.obj.custom = none

theorem loadFile_iff {nc : Nc} {f : NcFile} {new o : Obj} {vb : Bool} (hn : (Dict.keys new.attrs).Nodup)
    (h : (loadFile nc f new vb).out = .ok o) : ∃ l st, fileItems nc f = .ok l ∧ FromItems new l st o := by
  unfold loadFile at h
  cases hg : attrItems nc (py% "GLOBAL_") f.attrs with
  | error e => simp [hg] at h
  | ok g =>
    simp only [hg] at h
    cases hl : loadItems g ⟨{ new with prot := false }, [], []⟩ with
    | error e => simp [hl] at h
    | ok st =>
      simp only [hl] at h
      cases hr : (readVars nc f.vars st).1 with
      | error e => simp [hr] at h
      | ok st' =>
        simp only [hr] at h
        obtain ⟨v, hv1, hv2⟩ := readVars_iff.1 hr
        have hload : loadItems (g ++ v) ⟨{ new with prot := false }, [], []⟩ = .ok st' := by
          rw [loadItems_append, hl]; exact hv2
        obtain ⟨a, b, c⟩ := loadItems_ok (by rfl) hload
        simp only [List.nil_append] at b
        have hnd : (Dict.keys st'.obj.attrs).Nodup := by
          rw [c]; exact nodup_foldl_items _ _ hn
        obtain ⟨o', d1, d2, d3, d4, d5, d6⟩ := deleteExtra_ok (all := st'.all) (ks := st'.obj.keys) a
          (fun k hk => hk) hnd
        rw [d1] at h
        simp only [Except.ok.injEq] at h
        subst h
        refine ⟨g ++ v, st', by simp only [fileItems, hg, hv1], hload, ?_, d3, rfl, ?_, d6⟩
        · show o'.attrs = _
          rw [d2, b]
          apply List.filter_congr
          intro p hp
          have : p.1 ∈ Dict.keys st'.obj.attrs := List.mem_map_of_mem hp
          have hk : p.1 ∈ st'.obj.keys := this
          rw [List.contains_iff_mem.2 hk]
          simp
        · intro c hc
          obtain ⟨c', e1, e2⟩ := d5 c hc
          refine ⟨c', e1, ?_⟩
          rw [e2, b]
          rfl

theorem loadFile_total {nc : Nc} {f : NcFile} {new : Obj} {vb : Bool} {l : List Item}
    (hn : (Dict.keys new.attrs).Nodup) (hf : fileItems nc f = .ok l) (ho : ∀ i ∈ l, Spec.OrdinaryName i.name) :
    ∃ o, (loadFile nc f new vb).out = .ok o := by
  unfold fileItems at hf
  unfold loadFile
  cases hg : attrItems nc (py% "GLOBAL_") f.attrs with
  | error e => simp [hg] at hf
  | ok g =>
    simp only [hg] at hf
    cases hv : allVarItems nc f.vars with
    | error e => simp [hv] at hf
    | ok v =>
      simp only [hv, Except.ok.injEq] at hf
      subst hf
      obtain ⟨st, hst⟩ := loadItems_total (l := g) (st := ⟨{ new with prot := false }, [], []⟩) rfl
        (fun i hi => ho i (by simp [hi]))
      obtain ⟨a, b, c⟩ := loadItems_ok (by rfl) hst
      obtain ⟨st', hst'⟩ := loadItems_total (l := v) a (fun i hi => ho i (by simp [hi]))
      obtain ⟨a', b', c'⟩ := loadItems_ok a hst'
      have hr : (readVars nc f.vars st).1 = .ok st' := readVars_iff.2 ⟨v, hv, hst'⟩
      obtain ⟨o', d1, _⟩ := deleteExtra_ok (all := st'.all) (ks := st'.obj.keys) a' (fun k hk => hk) (by
        show (Dict.keys st'.obj.attrs).Nodup
        rw [c', c]
        exact nodup_foldl_items _ _ (nodup_foldl_items _ _ hn))
      simp only [hst, hr, d1]
      exact ⟨_, rfl⟩

theorem FromItems.keys {new : Obj} {l : List Item} {st : Reading} {o : Obj} (h : FromItems new l st o) (k : Str) :
    Spec.IsData o k ↔ k ∈ l.map (·.name) := by
  obtain ⟨a, b, c⟩ := loadItems_ok (by rfl) h.load
  unfold Spec.IsData
  rw [h.attrs, c]
  constructor
  · intro hm
    obtain ⟨p, hp, rfl⟩ := List.mem_map.1 hm
    simpa using (List.mem_filter.1 hp).2
  · intro hm
    have := (mem_keys_foldl_items l new.attrs k).2 (Or.inl hm)
    obtain ⟨p, hp, rfl⟩ := List.mem_map.1 this
    exact List.mem_map.2 ⟨p, List.mem_filter.2 ⟨hp, by simpa using hm⟩, rfl⟩

theorem FromItems.get {new : Obj} {l : List Item} {st : Reading} {o : Obj} (h : FromItems new l st o) {k : Str} {w : Val}
    (hw : Dict.get? o.attrs k = some w) : ∃ i ∈ l, i.name = k ∧ i.value = w := by
  have hk : k ∈ l.map (·.name) := (h.keys k).1 (by
    unfold Spec.IsData
    exact mem_keys_of_get hw)
  obtain ⟨a, b, c⟩ := loadItems_ok (by rfl) h.load
  obtain ⟨i, h1, h2, h3⟩ := get?_foldl_items (d := new.attrs) hk
  refine ⟨i, h1, h2, ?_⟩
  rw [h.attrs, Dict.get?_filter _ _ _ (by intro v; simpa using hk), c, h3] at hw
  simpa using hw

theorem fileItems_names {nc : Nc} {f : NcFile} {l : List Item} (h : fileItems nc f = .ok l) (k : Str) :
    k ∈ l.map (·.name) ↔ Spec.InFile f k := by
  unfold fileItems at h
  cases hg : attrItems nc (py% "GLOBAL_") f.attrs with
  | error e => simp [hg] at h
  | ok g =>
    simp only [hg] at h
    cases hv : allVarItems nc f.vars with
    | error e => simp [hv] at h
    | ok v =>
      simp only [hv, Except.ok.injEq] at h
      subst h
      rw [List.map_append, List.mem_append, attrItems_ok hg]
      constructor
      · rintro (h1 | h1)
        · obtain ⟨i, hi, rfl⟩ := List.mem_map.1 h1
          obtain ⟨p, hp, rfl⟩ := List.mem_map.1 hi
          exact .globalAttribute p.1 p.2 hp
        · obtain ⟨i, hi, rfl⟩ := List.mem_map.1 h1
          obtain ⟨n, x, a, h2, h3, h4⟩ := (allVarItems_mem hv i).1 hi
          obtain ⟨w, h5, rfl⟩ := varItems_ok h3
          simp only [List.mem_cons] at h4
          rcases h4 with rfl | h4
          · exact .variableData n x h2
          · obtain ⟨p, hp, rfl⟩ := List.mem_map.1 h4
            have hp' := List.mem_filter.1 hp
            have := Spec.InFile.variableAttribute (f := f) n x p.1 p.2 h2 hp'.1 (by simpa using hp'.2)
            simpa using this
      · intro h1
        cases h1 with
        | globalAttribute a w hm => left; exact List.mem_map.2 ⟨_, List.mem_map.2 ⟨(a, w), hm, rfl⟩, rfl⟩
        | variableData n x hm =>
          right
          obtain ⟨a, ha⟩ := allVarItems_each hv hm
          obtain ⟨w, h5, h6⟩ := varItems_ok ha
          refine List.mem_map.2 ⟨_, (allVarItems_mem hv _).2 ⟨n, x, a, hm, ha, by rw [h6]; exact List.mem_cons_self⟩, rfl⟩
        | variableAttribute n x b w hm hb hs =>
          right
          obtain ⟨a, ha⟩ := allVarItems_each hv hm
          obtain ⟨y, h5, h6⟩ := varItems_ok ha
          refine List.mem_map.2 ⟨⟨Spec.dotName n ++ py% "_" ++ b, w, none, py% "attribute"⟩,
            (allVarItems_mem hv _).2 ⟨n, x, a, hm, ha, ?_⟩, by simp⟩
          rw [h6]
          right
          exact List.mem_map.2 ⟨(b, w), List.mem_filter.2 ⟨hb, by simpa using hs⟩, rfl⟩

end Sofar
