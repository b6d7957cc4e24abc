import Verif.Model.IO
import Verif.Spec.IO
import Verif.Lemmas.Init
/-!
# Lemmas on writing
-/
namespace Sofar

namespace Dict
variable {V : Type}

theorem mem_put {d : Dict V} {k : Str} {v : V} {p : Str × V} (h : p ∈ put d k v) : p ∈ d ∨ p = (k, v) := by
  induction d with
  | nil => simpa [put] using h
  | cons q d ih =>
    obtain ⟨a, b⟩ := q
    simp only [put] at h
    split at h
    · rename_i hak
      subst hak
      simp only [List.mem_cons] at h ⊢
      rcases h with rfl | h
      · right; rfl
      · left; right; exact h
    · simp only [List.mem_cons] at h ⊢
      rcases h with h | h
      · left; left; exact h
      · rcases ih h with h | h
        · left; right; exact h
        · right; exact h

theorem put_new {d : Dict V} {k : Str} {v : V} (h : has d k = false) : put d k v = d ++ [(k, v)] := by
  have := foldl_put_new [(k, v)] d (by simp) (by
    intro j hj
    simp only [List.map_cons, List.map_nil, List.mem_singleton] at hj
    subst hj
    intro hm
    rw [← has_iff_mem] at hm
    simp [hm] at h)
  simpa using this

theorem put_put (d : Dict V) (k : Str) (v w : V) : put (put d k v) k w = put d k w := by
  induction d with
  | nil => simp [put]
  | cons q d ih =>
    obtain ⟨a, b⟩ := q
    simp only [put]
    split
    · rename_i h
      simp [put, h]
    · rename_i h
      simp [put, h, ih]

end Dict

/-- the dimensions of the file are those of the object, except for unlimited ones -/
def FileDimsOk (api : Dict Nat) (dims : Dict NcDim) : Prop :=
  ∀ d n, Dict.get? api d = some n → ∃ m, Dict.get? dims d = some ⟨m, decide (n = 0)⟩ ∧ (n ≠ 0 → m = n)

theorem createDimension_ok {nc : Nc} {f f' : NcFile} {d : Str} {n : Nat} (h : createDimension nc f d n = .ok f') :
    f' = { f with dims := f.dims ++ [(d, ⟨n, decide (n = 0)⟩)] } ∧ nc.okName d = true ∧ Dict.has f.dims d = false := by
  unfold createDimension at h
  split at h
  · simp at h
  · rename_i h1
    split at h
    · simp at h
    · rename_i h2
      simp only [Except.ok.injEq] at h
      have h2' : Dict.has f.dims d = false := by simpa using h2
      rw [← h, Dict.put_new h2']
      exact ⟨rfl, by simpa using h1, h2'⟩

theorem writeDims_ok {nc : Nc} {api : Dict Nat} {f f' : NcFile} (h : writeDims nc api f = (.ok (), f')) :
    f' = { f with dims := f.dims ++ api.map (fun p => (p.1, ⟨p.2, decide (p.2 = 0)⟩)) } ∧
    ∀ d n, (d, n) ∈ api → nc.okName d = true := by
  induction api generalizing f with
  | nil => simp only [writeDims, Prod.mk.injEq, true_and] at h; subst h; simp
  | cons p l ih =>
    obtain ⟨d, n⟩ := p
    simp only [writeDims] at h
    split at h
    · simp at h
    · rename_i f1 h1
      obtain ⟨h2, h3, h4⟩ := createDimension_ok h1
      obtain ⟨h5, h6⟩ := ih h
      refine ⟨by rw [h5, h2]; simp, ?_⟩
      intro d' n' hm
      simp only [List.mem_cons, Prod.mk.injEq] at hm
      rcases hm with ⟨rfl, rfl⟩ | hm
      · exact h3
      · exact h6 d' n' hm

theorem get?_map_val {V W : Type} (d : Dict V) (g : V → W) (k : Str) :
    Dict.get? (d.map (fun p => (p.1, g p.2))) k = (Dict.get? d k).map g := by
  induction d with
  | nil => rfl
  | cons p d ih =>
    obtain ⟨a, b⟩ := p
    simp only [List.map_cons, Dict.get?]
    split
    · rfl
    · exact ih

theorem dimsOk_init (api : Dict Nat) : FileDimsOk api (api.map (fun p => (p.1, ⟨p.2, decide (p.2 = 0)⟩))) := by
  intro d n h
  refine ⟨n, ?_, fun _ => rfl⟩
  rw [get?_map_val api (fun n => (⟨n, decide (n = 0)⟩ : NcDim)), h]
  rfl

theorem putAttr_ok {nc : Nc} {d d' : Dict Val} {a t : Str} (h : putAttr nc d a t = .ok d') :
    d' = Dict.put d a (.str (ncText t)) ∧ nc.reserved a = false ∧ nc.special a = false ∧ nc.okName a = true := by
  unfold putAttr at h
  split at h
  · simp at h
  · rename_i h1
    split at h
    · simp at h
    · rename_i h2
      split at h
      · simp at h
      · rename_i h3
        simp only [Except.ok.injEq] at h
        exact ⟨h.symm, by simpa using h1, by simpa using h2, by simpa using h3⟩

theorem putAttr_total {nc : Nc} {d : Dict Val} {a t : Str} (h1 : nc.reserved a = false) (h2 : nc.special a = false)
    (h3 : nc.okName a = true) : putAttr nc d a t = .ok (Dict.put d a (.str (ncText t))) := by
  simp [putAttr, h1, h2, h3]

/-- attributes that were written: texts of the object with the given prefix in front of the name -/
structure AttrsWritten (env : Env) (nc : Nc) (o : Obj) (pre : Str) (ks : List Str) (d : Dict Val) : Prop where
  from_ : ∀ a w, (a, w) ∈ d → ∃ v, pre ++ a ∈ ks ∧ Dict.get? o.attrs (pre ++ a) = some v ∧
    w = .str (ncText (pyStr env v)) ∧ nc.reserved a = false ∧ nc.special a = false ∧ nc.okName a = true
  all : ∀ a, pre ++ a ∈ ks → a ∈ Dict.keys d
  nodup : (Dict.keys d).Nodup

theorem varAttrs_ok {env : Env} {nc : Nc} {o : Obj} {pre : Str} {ks ks0 : List Str} {d d' : Dict Val}
    (hk : ∀ k ∈ ks, pre <+: k ∧ k ∈ o.keys) (hi : AttrsWritten env nc o pre ks0 d)
    (h : varAttrs env nc o pre.length ks d = (.ok (), d')) : AttrsWritten env nc o pre (ks0 ++ ks) d' := by
  induction ks generalizing ks0 d with
  | nil => simp only [varAttrs, Prod.mk.injEq, true_and] at h; subst h; simpa using hi
  | cons k ks ih =>
    obtain ⟨⟨a, rfl⟩, hm⟩ := hk k (by simp)
    obtain ⟨v, hv⟩ := get_of_mem_keys hm
    simp only [varAttrs, getAttr_of_get hv, List.drop_left] at h
    split at h
    · simp at h
    · rename_i d1 h1
      obtain ⟨h2, h3, h4, h5⟩ := putAttr_ok h1
      have hi' : AttrsWritten env nc o pre (ks0 ++ [pre ++ a]) d1 := by
        refine ⟨?_, ?_, by rw [h2]; exact Dict.nodup_put _ _ hi.nodup⟩
        · intro b w hb
          rw [h2] at hb
          rcases Dict.mem_put hb with hb | hb
          · obtain ⟨x, e1, e2⟩ := hi.from_ b w hb
            exact ⟨x, by simp [e1], e2⟩
          · simp only [Prod.mk.injEq] at hb
            obtain ⟨rfl, rfl⟩ := hb
            exact ⟨v, by simp, hv, rfl, h3, h4, h5⟩
        · intro b hb
          rw [h2, Dict.mem_keys_put]
          simp only [List.mem_append, List.mem_singleton, List.append_cancel_left_eq] at hb
          rcases hb with hb | hb
          · right; exact hi.all b hb
          · left; exact hb
      have := ih (fun k hk' => hk k (by simp [hk'])) hi' h
      simpa using this

theorem writeGlobals_eq {env : Env} {nc : Nc} {o : Obj} {ks : List Str} {f : NcFile} :
    writeGlobals env nc o ks f = ((varAttrs env nc o 7 ks f.attrs).1,
      { f with attrs := (varAttrs env nc o 7 ks f.attrs).2 }) := by
  induction ks generalizing f with
  | nil => rfl
  | cons k ks ih =>
    simp only [writeGlobals, varAttrs]
    cases o.getAttr k with
    | error e => rfl
    | ok v =>
      simp only
      cases putAttr nc f.attrs (k.drop 7) (pyStr env v) with
      | error e => rfl
      | ok a => simp only; rw [ih]

theorem dimSizes_ok {f : NcFile} {ds : List Str} {l : List NcDim} (h : dimSizes f ds = .ok l) :
    List.Forall₂ (fun d x => Dict.get? f.dims d = some x) ds l := by
  induction ds generalizing l with
  | nil => simp only [dimSizes, Except.ok.injEq] at h; subst h; exact .nil
  | cons d ds ih =>
    simp only [dimSizes] at h
    split at h
    · simp at h
    · rename_i n hn
      split at h
      · simp at h
      · rename_i r hr
        simp only [Except.ok.injEq] at h
        subst h
        exact .cons hn (ih hr)

theorem dimSizes_total {f : NcFile} {ds : List Str} (h : ∀ d ∈ ds, ∃ x, Dict.get? f.dims d = some x) :
    ∃ l, dimSizes f ds = .ok l := by
  induction ds with
  | nil => exact ⟨[], rfl⟩
  | cons d ds ih =>
    obtain ⟨x, hx⟩ := h d (by simp)
    obtain ⟨l, hl⟩ := ih (fun d hd => h d (by simp [hd]))
    exact ⟨x :: l, by simp [dimSizes, hx, hl]⟩

/-- shape of a written variable: sizes of the object for all dimensions that are not empty -/
def ShapeFits (api : Dict Nat) (letters : List Str) (t : List Nat) : Prop :=
  List.Forall₂ (fun d m => ∀ n, Dict.get? api d = some n → n ≠ 0 → m = n) letters t

theorem targetShape_fits {api : Dict Nat} {f : NcFile} (hd : FileDimsOk api f.dims) {ds : List Str} {l : List NcDim}
    {s t : List Nat} (h1 : dimSizes f ds = .ok l) (h2 : targetShape l s = .ok t) : ShapeFits api ds t := by
  have h3 := dimSizes_ok h1
  clear h1
  unfold ShapeFits
  induction h3 generalizing s t with
  | nil => simp only [targetShape, Except.ok.injEq] at h2; subst h2; exact .nil
  | @cons d x ds l hx _ ih =>
    simp only [targetShape] at h2
    split at h2
    · simp at h2
    · rename_i m hm
      split at h2
      · simp at h2
      · rename_i r hr
        simp only [Except.ok.injEq] at h2
        subst h2
        refine .cons ?_ (ih hr)
        intro n hn h0
        obtain ⟨m', e1, e2⟩ := hd d n hn
        rw [hx] at e1
        cases e1
        simp only [h0, decide_false, Bool.false_eq_true, if_false, Option.some.injEq] at hm
        rw [← hm]
        exact e2 h0

theorem growDims_ok {api : Dict Nat} {dims : Dict NcDim} (hd : FileDimsOk api dims) {ds : List Str} {t : List Nat}
    (ht : ShapeFits api ds t) : FileDimsOk api (growDims dims ds t) := by
  unfold ShapeFits at ht
  induction ht generalizing dims with
  | nil => simpa [growDims] using hd
  | @cons d m ds t hm _ ih =>
    simp only [growDims]
    cases hx : Dict.get? dims d with
    | none => exact ih hd
    | some x =>
      simp only
      apply ih
      intro d' n hn
      rw [Dict.get?_put]
      split
      · rename_i he
        subst he
        obtain ⟨m', e1, e2⟩ := hd _ n hn
        rw [hx] at e1
        cases e1
        refine ⟨max m' m, rfl, ?_⟩
        intro h0
        rw [hm n hn h0, e2 h0]
        simp
      · exact hd d' n hn

/-- a variable that was written -/
structure VarWritten (env : Env) (nc : Nc) (o : Obj) (api : Dict Nat) (ds : Dict Str) (k : Str) (p : Str × NcVar) :
    Prop where
  ex : ∃ v e d S kind a b t data, Dict.get? o.attrs k = some v ∧ Dict.get? o.conv k = some e ∧
    e.typ ≠ py% "attribute" ∧ Dict.get? ds k = some d ∧ Dict.get? api (py% "S") = some S ∧
    formatFor v e.typ d S k = .ok (kind, a) ∧ netcdfData env kind a = .ok b ∧
    ShapeFits api (d.map (fun c => [c])) t ∧ conform b t = .ok data ∧
    p.1 = ncName k ∧ p.2.dims = d.map (fun c => [c]) ∧ p.2.data = ⟨kind, t, data⟩
  attrs : AttrsWritten env nc o (k ++ py% "_") (subKeys o.keys k) p.2.attrs
  okName : nc.okName (ncName k) = true

theorem subKeys_mem {keys : List Str} {k s : Str} : s ∈ subKeys keys k ↔ s ∈ keys ∧ (k ++ py% "_") <+: s := by
  simp [subKeys, Str.startsWith]

theorem createVariable_ok {nc : Nc} {f f1 : NcFile} {n : Str} {kind : Kind} {ds : List Str} {c : Nat}
    (h : createVariable nc f n kind ds c = .ok f1) :
    f1 = { f with vars := f.vars ++ [(n, ⟨ds, ⟨kind, [], []⟩, []⟩)] } ∧ Dict.has f.vars n = false ∧
      nc.okName n = true := by
  unfold createVariable at h
  split at h
  · simp at h
  · split at h
    · simp at h
    · rename_i h0
      split at h
      · simp at h
      · rename_i h1
        have h1' : Dict.has f.vars n = false := by simpa using h1
        split at h
        · simp at h
        · simp only [Except.ok.injEq] at h
          rw [← h, Dict.put_new h1']
          exact ⟨rfl, h1', by simpa using h0⟩

theorem put_last {V : Type} {d : Dict V} {k : Str} {v w : V} (h : Dict.has d k = false) :
    Dict.put (d ++ [(k, v)]) k w = d ++ [(k, w)] := by
  rw [← Dict.put_new (v := v) h, Dict.put_put, Dict.put_new h]

theorem get?_last {V : Type} {d : Dict V} {k : Str} {v : V} (h : Dict.has d k = false) :
    Dict.get? (d ++ [(k, v)]) k = some v := by
  rw [← Dict.put_new (v := v) h, Dict.get?_put]
  simp

theorem writeKey_ok {env : Env} {nc : Nc} {o : Obj} {api : Dict Nat} {ds : Dict Str} {c : Nat} {k : Str}
    {f f' : NcFile} (hapi : o.api = some api) (hds : o.dims = some ds) (hk : k ∈ o.keys) (hd : FileDimsOk api f.dims)
    (h : writeKey env nc o c k f = (.ok (), f')) :
    FileDimsOk api f'.dims ∧ f'.attrs = f.attrs ∧
      ((∃ e, Dict.get? o.conv k = some e ∧ e.typ = py% "attribute" ∧ f' = f) ∨
        ∃ p, f'.vars = f.vars ++ [p] ∧ Dict.has f.vars p.1 = false ∧ VarWritten env nc o api ds k p) := by
  obtain ⟨v, hv⟩ := get_of_mem_keys hk
  simp only [writeKey, convEntry] at h
  cases he : Dict.get? o.conv k with
  | none => simp [he] at h
  | some e =>
    simp only [he] at h
    by_cases ht : e.typ = py% "attribute"
    · simp only [ht, if_true, Prod.mk.injEq, true_and] at h
      subst h
      exact ⟨hd, rfl, Or.inl ⟨e, rfl, ht, rfl⟩⟩
    · simp only [ht, if_false, getAttr_of_get hv, hds, hapi, Option.getD_some] at h
      cases hdk : Dict.get? ds k with
      | none => simp [hdk] at h
      | some d =>
        simp only [hdk] at h
        cases hS : Dict.get? api (py% "S") with
        | none => simp [hS] at h
        | some S =>
          simp only [hS, writeVariable] at h
          cases hf : formatFor v e.typ d S k with
          | error x => simp [hf] at h
          | ok ka =>
            obtain ⟨kind, a⟩ := ka
            simp only [hf] at h
            cases hc : createVariable nc f (ncName k) kind (d.map (fun c => [c])) c with
            | error x => simp [hc] at h
            | ok f1 =>
              simp only [hc] at h
              obtain ⟨hf1, hnew, hok⟩ := createVariable_ok hc
              cases hb : netcdfData env kind a with
              | error x => simp [hb] at h
              | ok b =>
                simp only [hb] at h
                cases hasn : assignVariable f1 (ncName k) kind (d.map (fun c => [c])) b with
                | error x => simp [hasn] at h
                | ok f2 =>
                  simp only [hasn] at h
                  unfold assignVariable at hasn
                  cases hsz : dimSizes f1 (d.map (fun c => [c])) with
                  | error x => simp [hsz] at hasn
                  | ok sizes =>
                    simp only [hsz] at hasn
                    cases hts : targetShape sizes b.shape with
                    | error x => simp [hts] at hasn
                    | ok t =>
                      simp only [hts] at hasn
                      cases hcf : conform b t with
                      | error x => simp [hcf] at hasn
                      | ok data =>
                        simp only [hcf, Except.ok.injEq] at hasn
                        have hd1 : FileDimsOk api f1.dims := by rw [hf1]; exact hd
                        have hfit := targetShape_fits hd1 hsz hts
                        simp only [Prod.mk.injEq] at h
                        obtain ⟨hva, hf'⟩ := h
                        have hf2 : f2 = { f with dims := growDims f.dims (d.map (fun c => [c])) t, vars := f.vars ++ [(ncName k, ⟨d.map (fun c => [c]), ⟨kind, t, data⟩, []⟩)] } := by
                          rw [← hasn, hf1]
                          simp only [put_last hnew]
                        have hpl : k.length + 1 = (k ++ py% "_").length := by simp
                        have hw := varAttrs_ok (ks0 := []) (d := []) (d' := (varAttrs env nc o (k.length + 1) (subKeys o.keys k) []).2)
                          (env := env) (nc := nc) (o := o) (pre := k ++ py% "_")
                          (ks := subKeys o.keys k) (fun s hs => (subKeys_mem.1 hs).symm)
                          ⟨by simp, by simp, by simp [Dict.keys]⟩ (by rw [← hpl]; exact Prod.ext hva rfl)
                        rw [List.nil_append] at hw
                        have hf'' : f' = { f with dims := growDims f.dims (d.map (fun c => [c])) t, vars := f.vars ++ [(ncName k, ⟨d.map (fun c => [c]), ⟨kind, t, data⟩,
                              (varAttrs env nc o (k.length + 1) (subKeys o.keys k) []).2⟩)] } := by
                          rw [← hf', hf2]
                          unfold setVarAttrs
                          simp only [get?_last hnew, put_last hnew]
                        rw [hf'']
                        refine ⟨growDims_ok hd hfit, rfl, Or.inr ⟨_, rfl, hnew, ⟨v, e, d, S, kind, a, b, t, data, hv, he,
                          ht, hdk, hS, hf, hb, hfit, hcf, rfl, rfl, rfl⟩, hw, hok⟩⟩

theorem writeKeys_ok {env : Env} {nc : Nc} {o : Obj} {api : Dict Nat} {ds : Dict Str} {c : Nat} {ks : List Str}
    {f f' : NcFile} (hapi : o.api = some api) (hds : o.dims = some ds) (hk : ∀ k ∈ ks, k ∈ o.keys)
    (hd : FileDimsOk api f.dims) (h : writeKeys env nc o c ks f = (.ok (), f')) :
    FileDimsOk api f'.dims ∧ f'.attrs = f.attrs ∧ ∃ l, f'.vars = f.vars ++ l ∧
      (∀ p ∈ l, ∃ k ∈ ks, VarWritten env nc o api ds k p) ∧
      (∀ k ∈ ks, ∃ e, Dict.get? o.conv k = some e ∧
        (e.typ ≠ py% "attribute" → ∃ p ∈ l, VarWritten env nc o api ds k p)) := by
  induction ks generalizing f with
  | nil =>
    simp only [writeKeys, Prod.mk.injEq, true_and] at h
    subst h
    exact ⟨hd, rfl, [], by simp, by simp, by simp⟩
  | cons k ks ih =>
    simp only [writeKeys] at h
    cases h1 : (writeKey env nc o c k f).1 with
    | error e => simp [h1] at h
    | ok u =>
      simp only [h1] at h
      obtain ⟨a1, a2, a3⟩ := writeKey_ok hapi hds (hk k (by simp)) hd (Prod.ext h1 rfl)
      obtain ⟨b1, b2, l, b3, b4, b5⟩ := ih (fun j hj => hk j (by simp [hj])) a1 h
      refine ⟨b1, b2.trans a2, ?_⟩
      rcases a3 with ⟨e, he, ht, hf⟩ | ⟨p, hp, _, hw⟩
      · refine ⟨l, by rw [b3, hf], ?_, ?_⟩
        · intro p hp
          obtain ⟨k', e1, e2⟩ := b4 p hp
          exact ⟨k', by simp [e1], e2⟩
        · intro j hj
          simp only [List.mem_cons] at hj
          rcases hj with rfl | hj
          · exact ⟨e, he, fun hne => absurd ht hne⟩
          · exact b5 j hj
      · refine ⟨p :: l, by rw [b3, hp]; simp, ?_, ?_⟩
        · intro q hq
          simp only [List.mem_cons] at hq
          rcases hq with rfl | hq
          · exact ⟨k, by simp, hw⟩
          · obtain ⟨k', e1, e2⟩ := b4 q hq
            exact ⟨k', by simp [e1], e2⟩
        · intro j hj
          simp only [List.mem_cons] at hj
          rcases hj with rfl | hj
          · obtain ⟨v, e, _, _, _, _, _, _, _, _, he, _⟩ := hw.ex
            exact ⟨e, he, fun _ => ⟨p, by simp, hw⟩⟩
          · obtain ⟨e, he, hh⟩ := b5 j hj
            refine ⟨e, he, fun hne => ?_⟩
            obtain ⟨q, hq, hq2⟩ := hh hne
            exact ⟨q, by simp [hq], hq2⟩

/-! ## Dimensions -/

theorem keys_growDims (dims : Dict NcDim) (ds : List Str) (t : List Nat) (d : Str) :
    d ∈ Dict.keys (growDims dims ds t) ↔ d ∈ Dict.keys dims := by
  induction ds generalizing dims t with
  | nil => simp [growDims]
  | cons c ds ih =>
    cases t with
    | nil => simp [growDims]
    | cons n t =>
      simp only [growDims]
      rw [ih]
      cases hg : Dict.get? dims c with
      | none => rfl
      | some x =>
        simp only
        rw [Dict.mem_keys_put]
        constructor
        · rintro (h | h)
          · rw [h]; exact List.mem_map.2 ⟨_, Dict.mem_of_get? hg, rfl⟩
          · exact h
        · exact Or.inr

theorem keys_writeKey (env : Env) (nc : Nc) (o : Obj) (c : Nat) (k : Str) (f : NcFile) (d : Str) :
    d ∈ Dict.keys (writeKey env nc o c k f).2.dims ↔ d ∈ Dict.keys f.dims := by
  unfold writeKey
  repeat' split
  all_goals try rfl
  unfold writeVariable
  split
  · rfl
  · split
    · rfl
    · rename_i f1 hf1
      have h1 := (createVariable_ok hf1).1
      split
      · rw [h1]
      · split
        · rw [h1]
        · rename_i f2 hf2
          have h2 : ∃ ds t, f2.dims = growDims f.dims ds t := by
            unfold assignVariable at hf2
            repeat' split at hf2
            all_goals simp at hf2
            rw [← hf2, h1]
            exact ⟨_, _, rfl⟩
          obtain ⟨ds, t, h2⟩ := h2
          have h3 : ∀ a, (setVarAttrs f2 (ncName k) a).dims = f2.dims := by
            intro a; unfold setVarAttrs; split <;> rfl
          simp only [h3, h2]
          exact keys_growDims _ _ _ _

theorem keys_writeKeys (env : Env) (nc : Nc) (o : Obj) (c : Nat) (ks : List Str) (f : NcFile) (d : Str) :
    d ∈ Dict.keys (writeKeys env nc o c ks f).2.dims ↔ d ∈ Dict.keys f.dims := by
  induction ks generalizing f with
  | nil => rfl
  | cons k ks ih =>
    simp only [writeKeys]
    split
    · exact keys_writeKey ..
    · rw [ih]; exact keys_writeKey ..

theorem keys_writeFile {env : Env} {nc : Nc} {o : Obj} {api : Dict Nat} {c : Nat} {f : NcFile}
    (hapi : o.api = some api) (h : writeFile env nc o c = (.ok (), f)) (d : Str) :
    d ∈ Dict.keys f.dims ↔ d ∈ Dict.keys api := by
  unfold writeFile at h
  simp only [hapi] at h
  cases h1 : (writeDims nc api .empty).1 with
  | error e => simp [h1] at h
  | ok u =>
    simp only [h1] at h
    obtain ⟨hf1, hn⟩ := writeDims_ok (Prod.ext h1 rfl : writeDims nc api .empty = (.ok (), (writeDims nc api .empty).2))
    rw [hf1] at h
    rw [writeGlobals_eq] at h
    simp only at h
    cases h2 : (varAttrs env nc o 7 (o.keys.filter (fun k => Str.startsWith k (py% "GLOBAL_"))) NcFile.empty.attrs).1 with
    | error e => simp [h2] at h
    | ok u =>
      simp only [h2] at h
      have hs : ∀ g : NcFile, writeKeys env nc o c o.keys g = (.ok (), f) →
          (d ∈ Dict.keys f.dims ↔ d ∈ Dict.keys g.dims) := by
        intro g hg
        have := keys_writeKeys env nc o c o.keys g d
        rw [hg] at this
        exact this
      rw [hs _ h]
      simp [NcFile.empty, Dict.keys, Function.comp_def]

/-- content of a file that was written completely -/
structure FileWritten (env : Env) (nc : Nc) (o : Obj) (api : Dict Nat) (ds : Dict Str) (f : NcFile) : Prop where
  dims : FileDimsOk api f.dims
  attrs : AttrsWritten env nc o (py% "GLOBAL_") (o.keys.filter (fun k => Str.startsWith k (py% "GLOBAL_"))) f.attrs
  from_ : ∀ p ∈ f.vars, ∃ k ∈ o.keys, VarWritten env nc o api ds k p
  all : ∀ k ∈ o.keys, ∃ e, Dict.get? o.conv k = some e ∧
    (e.typ ≠ py% "attribute" → ∃ p ∈ f.vars, VarWritten env nc o api ds k p)
  dimNames : ∀ d n, (d, n) ∈ api → nc.okName d = true
  dimKeys : ∀ d, d ∈ Dict.keys f.dims ↔ d ∈ Dict.keys api

theorem writeFile_ok {env : Env} {nc : Nc} {o : Obj} {api : Dict Nat} {ds : Dict Str} {c : Nat} {f : NcFile}
    (hapi : o.api = some api) (hds : o.dims = some ds) (h : writeFile env nc o c = (.ok (), f)) :
    FileWritten env nc o api ds f := by
  have hkeys := keys_writeFile hapi h
  unfold writeFile at h
  simp only [hapi] at h
  cases h1 : (writeDims nc api .empty).1 with
  | error e => simp [h1] at h
  | ok u =>
    simp only [h1] at h
    obtain ⟨hf1, hn⟩ := writeDims_ok (Prod.ext h1 rfl : writeDims nc api .empty = (.ok (), (writeDims nc api .empty).2))
    rw [hf1] at h
    rw [writeGlobals_eq] at h
    simp only at h
    cases h2 : (varAttrs env nc o 7 (o.keys.filter (fun k => Str.startsWith k (py% "GLOBAL_"))) NcFile.empty.attrs).1 with
    | error e => simp [h2] at h
    | ok u =>
      simp only [h2] at h
      have hw := varAttrs_ok (ks0 := []) (d := []) (env := env) (nc := nc) (o := o) (pre := py% "GLOBAL_")
        (ks := o.keys.filter (fun k => Str.startsWith k (py% "GLOBAL_"))) (by
          intro k hk
          obtain ⟨e1, e2⟩ := List.mem_filter.1 hk
          exact ⟨by simpa [Str.startsWith] using e2, e1⟩)
        ⟨by simp, by simp, by simp [Dict.keys]⟩ (Prod.ext h2 rfl)
      rw [List.nil_append] at hw
      obtain ⟨b1, b2, l, b3, b4, b5⟩ := writeKeys_ok hapi hds (fun k hk => hk) (by
        show FileDimsOk api ([] ++ _)
        rw [List.nil_append]
        exact dimsOk_init api) h
      refine ⟨b1, by rw [b2]; exact hw, ?_, ?_, hn, hkeys⟩
      · rw [b3]; exact b4
      · rw [b3]; exact b5

end Sofar
