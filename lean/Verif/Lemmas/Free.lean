import Verif.Lemmas.Values
import Verif.Lemmas.Same
import Verif.Lemmas.Stored
import Verif.Spec.Free
/-!
# Verification does not depend on free texts
-/
namespace Sofar

/-- the objects agree up to the texts of some attributes -/
structure Free (F : Str → Prop) (o o' : Obj) : Prop where
  keys : Dict.keys o'.attrs = Dict.keys o.attrs
  same : ∀ k, ¬ F k → Dict.get? o'.attrs k = Dict.get? o.attrs k
  text : ∀ k, F k → Dict.get? o'.attrs k = Dict.get? o.attrs k ∨
    ∃ s s', Dict.get? o.attrs k = some (.str s) ∧ Dict.get? o'.attrs k = some (.str s')
  conv : o'.conv = o.conv
  custom : o'.custom = o.custom
  dims : o'.dims = o.dims
  api : o'.api = o.api
  readOnly : o'.readOnly = o.readOnly
  prot : o'.prot = o.prot

/-- what is needed of the names: nothing looks at the texts -/
structure FreeIn (F : Str → Prop) (env : Env) : Prop where
  rules : ∀ k, F k → Spec.NoRule env k
  unit : ∀ k, F k → ¬ (py% "Units") <:+ k
  notName : ¬ F (py% "GLOBAL_SOFAConventions")
  notVersion : ¬ F (py% "GLOBAL_SOFAConventionsVersion")

/-- the names are attributes -/
def FreeConv (F : Str → Prop) (conv : Dict Entry) : Prop :=
  ∀ k, F k → ∀ e, Dict.get? conv k = some e → e.typ = py% "attribute" ∧ e.dims = none

theorem Free.has {F : Str → Prop} {o o' : Obj} (h : Free F o o') (k : Str) : Dict.has o'.attrs k = Dict.has o.attrs k := by
  rw [Bool.eq_iff_iff, Dict.has_iff_mem, Dict.has_iff_mem, h.keys]

theorem Free.hasAttr {F : Str → Prop} {o o' : Obj} (h : Free F o o') (k : Str) : o'.hasAttr k = o.hasAttr k := by
  unfold Obj.hasAttr Obj.privateInst
  rw [h.has, h.custom, h.dims, h.api]

theorem Free.getAttr_same {F : Str → Prop} {o o' : Obj} (h : Free F o o') {k : Str} (hk : ¬ F k) :
    o'.getAttr k = o.getAttr k := by
  unfold Obj.getAttr
  rw [h.same k hk, h.hasAttr]

theorem Free.getAttr {F : Str → Prop} {o o' : Obj} (h : Free F o o') (k : Str) : o'.getAttr k = o.getAttr k ∨
    (F k ∧ ∃ s s', o.getAttr k = .ok (.str s) ∧ o'.getAttr k = .ok (.str s')) := by
  by_cases hk : F k
  · rcases h.text k hk with he | ⟨s, s', h1, h2⟩
    · left
      unfold Obj.getAttr
      rw [he, h.hasAttr]
    · exact Or.inr ⟨hk, s, s', getAttr_of_get h1, getAttr_of_get h2⟩
  · exact Or.inl (h.getAttr_same hk)

theorem Free.convEntry {F : Str → Prop} {o o' : Obj} (h : Free F o o') (k : Str) : convEntry o' k = convEntry o k := by
  unfold Sofar.convEntry; rw [h.conv]

theorem Free.objKeys {F : Str → Prop} {o o' : Obj} (h : Free F o o') : o'.keys = o.keys := h.keys

theorem convEntry_get {o : Obj} {k : Str} {e : Entry} (h : Sofar.convEntry o k = .ok e) : Dict.get? o.conv k = some e := by
  unfold Sofar.convEntry at h
  cases hg : Dict.get? o.conv k with
  | none => simp [hg] at h
  | some w => simpa [hg] using h

theorem Free.phaseTypes {F : Str → Prop} {env : Env} {o o' : Obj} (h : Free F o o') (hc : FreeConv F o.conv) (ks : List Str) :
    phaseTypes env o' ks = phaseTypes env o ks := by
  unfold Sofar.phaseTypes
  rw [concatE_congr (g := typeErrorKey env o)]
  intro k _
  unfold typeErrorKey
  rw [h.convEntry]
  cases he : Sofar.convEntry o k with
  | error x => rfl
  | ok en =>
    simp only
    rcases h.getAttr k with he' | ⟨hF, s, s', h1, h2⟩
    · rw [he']
    · rw [h1, h2]
      have := (hc k hF en (convEntry_get he)).1
      simp [typeErrorText, this, Val.isStr, Val.asStr]

theorem Free.phaseNames {F : Str → Prop} {o o' : Obj} (h : Free F o o') (ks : List Str) :
    phaseNames o' ks = phaseNames o ks := by
  unfold Sofar.phaseNames nameNoVariable nameNoUnderscore nameVariable nameReserved Sofar.convEntry
  rw [h.conv]

theorem Free.referenceNames {F : Str → Prop} {env : Env} {o o' : Obj} (h : Free F o o') (hn : ¬ F (py% "GLOBAL_SOFAConventions"))
    (hv : ¬ F (py% "GLOBAL_SOFAConventionsVersion")) :
    referenceNames env o' = referenceNames env o := by
  unfold Sofar.referenceNames
  rw [h.getAttr_same hn, h.getAttr_same hv]

theorem Free.phaseCustomNames {F : Str → Prop} {o o' : Obj} (h : Free F o o') (i : Inner) :
    phaseCustomNames i o' = phaseCustomNames i o := by
  unfold Sofar.phaseCustomNames; rw [h.custom]

theorem Free.dimKeys {F : Str → Prop} {o o' : Obj} (h : Free F o o') : dimKeys o' = dimKeys o := by
  unfold Sofar.dimKeys; rw [h.objKeys, h.conv, h.custom]

theorem Free.dimLoop {F : Str → Prop} {o o' : Obj} (h : Free F o o') (hc : FreeConv F o.conv) (ks : List Str)
    (st : Dict Nat × Nat) : dimLoop o' ks st = dimLoop o ks st := by
  induction ks generalizing st with
  | nil => rfl
  | cons k ks ih =>
    simp only [Sofar.dimLoop, h.convEntry, ih]
    rcases h.getAttr k with he' | ⟨hF, s, s', h1, h2⟩
    · rw [he']
    · rw [h1, h2]
      simp only
      cases he : Sofar.convEntry o k with
      | error x => rfl
      | ok en =>
        have := (hc k hF en (convEntry_get he)).2
        simp [entryDims, this]

/-- private fields may be changed in the same way -/
theorem Free.update {F : Str → Prop} {o o' : Obj} (h : Free F o o') (p : Bool) (d : Option (Dict Str))
    (a : Option (Dict Nat)) :
    Free F { o with prot := p, dims := d, api := a } { o' with prot := p, dims := d, api := a } :=
  ⟨h.keys, h.same, h.text, h.conv, h.custom, rfl, rfl, h.readOnly, rfl⟩

theorem Free.phaseDims {F : Str → Prop} {o o' : Obj} (h : Free F o o') (hc : FreeConv F o.conv) :
    (phaseDims o').1 = (phaseDims o).1 ∧ Free F (phaseDims o).2 (phaseDims o').2 ∧ (phaseDims o).2.conv = o.conv := by
  unfold Sofar.phaseDims
  rw [h.dimKeys, h.dimLoop hc]
  generalize Sofar.dimLoop o (Sofar.dimKeys o) ([], 0) = r
  simp only
  cases r.1 with
  | error x => exact ⟨rfl, h.update _ _ _, rfl⟩
  | ok u => exact ⟨rfl, h.update _ _ _, rfl⟩

theorem Free.shapeKey {F : Str → Prop} {o o' : Obj} (h : Free F o o') (hc : FreeConv F o.conv) (api : Dict Nat) (k : Str) :
    shapeKey o' api k = shapeKey o api k := by
  unfold Sofar.shapeKey
  rw [h.convEntry]
  rcases h.getAttr k with he' | ⟨hF, s, s', h1, h2⟩
  · rw [he']
  · rw [h1, h2]
    cases he : Sofar.convEntry o k with
    | error x => rfl
    | ok en =>
      have := (hc k hF en (convEntry_get he)).2
      simp [entryDims, this]

theorem Free.shapeLoop {F : Str → Prop} {o o' : Obj} (h : Free F o o') (hc : FreeConv F o.conv) (api : Dict Nat) (ks : List Str)
    (d : Dict Str) : shapeLoop o' api ks d = shapeLoop o api ks d := by
  induction ks generalizing d with
  | nil => rfl
  | cons k ks ih => simp only [Sofar.shapeLoop, h.shapeKey hc, ih]

theorem Free.phaseShapes {F : Str → Prop} {o o' : Obj} (h : Free F o o') (hc : FreeConv F o.conv) :
    (phaseShapes o').1 = (phaseShapes o).1 ∧ Free F (phaseShapes o).2 (phaseShapes o').2 := by
  have hu : ∀ d, Free F { o with dims := d } { o' with dims := d, api := o.api } := by
    intro d
    have := h.update o.prot d o.api
    have h1 := h.prot
    cases o; cases o'
    simp only at h1
    subst h1
    exact this
  unfold Sofar.phaseShapes
  rw [h.dimKeys, h.api, h.shapeLoop hc]
  simp only
  cases (Sofar.shapeLoop o (o.api.getD []) (Sofar.dimKeys o) []).1 with
  | error x => exact ⟨rfl, hu _⟩
  | ok u => exact ⟨rfl, hu _⟩

theorem Free.dimRule {F : Str → Prop} {o o' : Obj} (h : Free F o o') (k t : Str) (p : Str × List Nat × Str) :
    dimRule o' k t p = dimRule o k t p := by unfold Sofar.dimRule; rw [h.api]

theorem Free.specificRule {F : Str → Prop} {env : Env} {o o' : Obj} (h : Free F o o') (k t : Str) (i : SpecItem)
    (hi : ∀ key ref, i = .dep key (some ref) → ¬ F (toSofar key)) :
    specificRule env o' k t i = specificRule env o k t i := by
  unfold Sofar.specificRule
  cases i with
  | dims l => exact concatE_congr (fun p _ => h.dimRule k t p)
  | dep key ref =>
    simp only [h.hasAttr]
    split
    · rfl
    · cases ref with
      | none => rfl
      | some r =>
        simp only
        rw [h.getAttr_same (hi key r rfl)]

theorem Free.ruleKey {F : Str → Prop} {env : Env} {o o' : Obj} (h : Free F o o') (hf : FreeIn F env) (p : Str × Rule)
    (hp : p ∈ env.rules) : ruleKey env o' p = ruleKey env o p := by
  obtain ⟨key, rule⟩ := p
  unfold Sofar.ruleKey
  have hk : ¬ F (toSofar key) := fun hF => (hf.rules _ hF).1 key rule hp (toSofar_eq key).symm
  simp only [h.hasAttr, h.getAttr_same hk]
  split
  · rfl
  · cases o.getAttr (toSofar key) with
    | error x => rfl
    | ok v =>
      simp only
      have hg : generalRule o' (toSofar key) = generalRule o (toSofar key) := by
        funext x; unfold generalRule; rw [h.hasAttr]
      rw [hg]
      cases Sofar.verifyValue env.aliases v rule.value (toSofar key) with
      | error x => rfl
      | ok b =>
        simp only
        cases hs : Sofar.specificItems rule v with
        | error x => rfl
        | ok q =>
          obtain ⟨items, test⟩ := q
          simp only
          rw [concatE_congr (g := Sofar.specificRule env o (toSofar key) test)]
          intro i hi
          refine h.specificRule _ _ i ?_
          rintro key' ref rfl hF
          unfold Sofar.specificItems at hs
          cases hsp : rule.specific with
          | none =>
            simp only [hsp, Except.ok.injEq, Prod.mk.injEq] at hs
            rw [← hs.1] at hi
            simp at hi
          | some sp =>
            simp only [hsp] at hs
            cases hv : v.asStr with
            | some t =>
              simp only [hv, Except.ok.injEq, Prod.mk.injEq] at hs
              rw [← hs.1] at hi
              cases hg : Dict.get? sp (lowerTest t) with
              | none => rw [hg] at hi; simp at hi
              | some its =>
                rw [hg] at hi
                exact (hf.rules _ hF).2 key rule sp (lowerTest t) its key' ref hp hsp hg hi (toSofar_eq key').symm
            | none =>
              simp only [hv] at hs
              split at hs
              · simp at hs
              · simp at hs
              · simp only [Except.ok.injEq, Prod.mk.injEq] at hs
                rw [← hs.1] at hi
                simp at hi

theorem Free.phaseUnits {F : Str → Prop} {env : Env} {o o' : Obj} (h : Free F o o') (hf : FreeIn F env) (mode : Mode) :
    phaseUnits env o' mode = phaseUnits env o mode := by
  unfold Sofar.phaseUnits
  cases mode with
  | read => rfl
  | write =>
    simp only [h.objKeys]
    apply concatE_congr
    intro k hk
    have hs := (List.mem_filter.1 hk).2
    unfold unitKey
    rw [h.getAttr_same (fun hF => hf.unit k hF (List.isSuffixOf_iff_suffix.1 hs))]

theorem Free.phaseRules {F : Str → Prop} {env : Env} {o o' : Obj} (h : Free F o o') (hf : FreeIn F env) (mode : Mode) :
    phaseRules env o' mode = phaseRules env o mode := by
  unfold Sofar.phaseRules
  rw [concatE_congr (fun p hp => h.ruleKey hf p hp), h.phaseUnits hf]

theorem Free.phaseDeprecations {F : Str → Prop} {env : Env} {o o' : Obj} (h : Free F o o')
    (hn : ¬ F (py% "GLOBAL_SOFAConventions")) (hv : ¬ F (py% "GLOBAL_SOFAConventionsVersion")) (mode : Mode) :
    phaseDeprecations env o' mode = phaseDeprecations env o mode := by
  unfold Sofar.phaseDeprecations
  rw [h.getAttr_same hn, h.getAttr_same hv]

/-- two results that agree up to free texts -/
def FreeRet {α : Type} (F : Str → Prop) (r r' : Ret α) : Prop := r'.out = r.out ∧ r'.ev = r.ev ∧ Free F r.obj r'.obj

theorem Free.verifyTail {F : Str → Prop} {env : Env} {o o' : Obj} (h : Free F o o') (hf : FreeIn F env) (ih : IH) (mode : Mode) (w e : Str)
    (ev : List Event) : FreeRet F (verifyTail env o ih mode w e ev) (verifyTail env o' ih mode w e ev) := by
  unfold Sofar.verifyTail
  rw [h.phaseRules hf, h.phaseDeprecations hf.notName hf.notVersion]
  cases Sofar.phaseRules env o mode with
  | error x => exact ⟨rfl, rfl, h⟩
  | ok e6 =>
    simp only
    cases Sofar.phaseDeprecations env o mode with
    | error x => exact ⟨rfl, rfl, h⟩
    | ok q =>
      obtain ⟨e8, w8⟩ := q
      cases ih with
      | ignore => exact ⟨rfl, rfl, h⟩
      | _ =>
        simp only
        generalize handleIssues _ _ _ = hh
        cases hh.out with
        | error x => exact ⟨rfl, rfl, h⟩
        | ok q => exact ⟨rfl, rfl, h⟩

theorem Free.verifyBody {F : Str → Prop} {env : Env} {o o' : Obj} (h : Free F o o') (hf : FreeIn F env) (hc : FreeConv F o.conv) (i : Inner) (ks : List Str) (ih : IH) (mode : Mode)
    (w e : Str) : FreeRet F (verifyBody i env o ks ih mode w e) (verifyBody i env o' ks ih mode w e) := by
  unfold Sofar.verifyBody
  rw [h.phaseNames, h.phaseCustomNames]
  cases Sofar.phaseNames o ks with
  | error x => exact ⟨rfl, rfl, h⟩
  | ok e3 =>
    simp only
    cases (Sofar.phaseCustomNames i o).1 with
    | error x => exact ⟨rfl, rfl, h⟩
    | ok e3' =>
      simp only
      obtain ⟨h1, h2, hcv⟩ := h.phaseDims hc
      rw [h1]
      cases (Sofar.phaseDims o).1 with
      | error x => exact ⟨rfl, rfl, h2⟩
      | ok u =>
        simp only
        obtain ⟨h3, h4⟩ := h2.phaseShapes (by rw [hcv]; exact hc)
        rw [h3]
        cases (Sofar.phaseShapes (Sofar.phaseDims o).2).1 with
        | error x => exact ⟨rfl, rfl, h4⟩
        | ok e5 => exact h4.verifyTail hf _ _ _ _ _

theorem Free.put {F : Str → Prop} {o o' : Obj} (h : Free F o o') (k : Str) (v : Val) :
    Free F { o with attrs := Dict.put o.attrs k v } { o' with attrs := Dict.put o'.attrs k v } := by
  refine ⟨?_, ?_, ?_, h.conv, h.custom, h.dims, h.api, h.readOnly, h.prot⟩
  · simp only [Dict.keys_put, h.keys]
  · intro j hj
    simp only [Dict.get?_put, h.same j hj]
  · intro j hj
    simp only [Dict.get?_put]
    split
    · exact Or.inl rfl
    · exact h.text j hj

theorem Free.withProt {F : Str → Prop} {o o' : Obj} (h : Free F o o') (p : Bool) :
    Free F { o with prot := p } { o' with prot := p } := by
  have := h.update p o.dims o.api
  have h1 := h.dims
  have h2 := h.api
  cases o; cases o'
  simp only at h1 h2
  subst h1 h2
  exact this

theorem Free.setAttr {F : Str → Prop} {o o' : Obj} (h : Free F o o') (k : Str) (v : Inp) :
    FreeRet F (setAttr o k v) (setAttr o' k v) := by
  have hp := h.prot
  have hr := h.readOnly
  cases o
  cases o'
  simp only at hp hr
  subst hp hr
  unfold Sofar.setAttr
  rw [h.hasAttr]
  split
  · exact ⟨rfl, rfl, h⟩
  split
  · exact ⟨rfl, rfl, h⟩
  split
  · split
    · exact ⟨rfl, rfl, h.withProt _⟩
    · exact ⟨rfl, rfl, h⟩
  split
  · exact ⟨rfl, rfl, h⟩
  split
  · exact ⟨rfl, rfl, h⟩
  split
  · exact ⟨rfl, rfl, h⟩
  · exact ⟨rfl, rfl, h.put _ _⟩

theorem Free.fillMissing {F : Str → Prop} (b : Bool) (ks : List Str) (l : Dict Entry) {o o' : Obj} (h : Free F o o') :
    (fillMissing b ks l o').1 = (fillMissing b ks l o).1 ∧
      Free F (fillMissing b ks l o).2 (fillMissing b ks l o').2 := by
  induction l generalizing o o' with
  | nil => exact ⟨rfl, h⟩
  | cons p l ih =>
    obtain ⟨k, e⟩ := p
    simp only [Sofar.fillMissing]
    split
    · have hr : (if b then addDefault o' k e.default else (.ok (), o')).1 =
          (if b then addDefault o k e.default else (.ok (), o)).1 ∧
          Free F (if b then addDefault o k e.default else (.ok (), o)).2
            (if b then addDefault o' k e.default else (.ok (), o')).2 := by
        cases b with
        | false => exact ⟨rfl, h⟩
        | true =>
          simp only [if_true]
          unfold addDefault
          obtain ⟨h1, _, h3⟩ := (h.withProt false).setAttr k e.default
          simp only [h1]
          cases (Sofar.setAttr { o with prot := false } k e.default).out with
          | error x => exact ⟨rfl, h3⟩
          | ok u => exact ⟨rfl, h3.withProt _⟩
      obtain ⟨h1, h2⟩ := hr
      rw [h1]
      cases (if b then addDefault o k e.default else (.ok (), o)).1 with
      | error x => exact ⟨rfl, h2⟩
      | ok u =>
        simp only
        obtain ⟨h3, h4⟩ := ih h2
        rw [h3]
        cases (Sofar.fillMissing b ks l (if b then addDefault o k e.default else (.ok (), o)).2).1 with
        | error x => exact ⟨rfl, h4⟩
        | ok s => exact ⟨rfl, h4⟩
    · exact ih h

theorem Free.withConv {F : Str → Prop} {o o' : Obj} (h : Free F o o') (c : Dict Entry) (cu cu' : Option (Dict Entry))
    (hc : cu' = cu) :
    Free F { o with conv := c, custom := cu } { o' with conv := c, custom := cu' } :=
  ⟨h.keys, h.same, h.text, rfl, hc, h.dims, h.api, h.readOnly, h.prot⟩

theorem Free.resetConvention {F : Str → Prop} {env : Env} {o o' : Obj} (h : Free F o o')
    (hn : ¬ F (py% "GLOBAL_SOFAConventions")) (hv : ¬ F (py% "GLOBAL_SOFAConventionsVersion")) :
    (∃ e, resetConvention env o = .error e ∧ resetConvention env o' = .error e) ∨
    ∃ o1 o1', resetConvention env o = .ok o1 ∧ resetConvention env o' = .ok o1' ∧ Free F o1 o1' := by
  unfold Sofar.resetConvention
  rw [h.getAttr_same hn, h.getAttr_same hv]
  cases o.getAttr (py% "GLOBAL_SOFAConventions") with
  | error x => exact Or.inl ⟨x, rfl, rfl⟩
  | ok v =>
    simp only
    cases o.getAttr (py% "GLOBAL_SOFAConventionsVersion") with
    | error x => exact Or.inl ⟨x, rfl, rfl⟩
    | ok x =>
      simp only
      cases v.asStr with
      | none => exact Or.inl ⟨_, rfl, rfl⟩
      | some c =>
        simp only
        cases verifyConvention env (pyStr env x) c with
        | error x => exact Or.inl ⟨x, rfl, rfl⟩
        | ok u =>
          simp only
          cases loadConvention env c (.exact (pyStr env x)) with
          | error x => exact Or.inl ⟨x, rfl, rfl⟩
          | ok conv =>
            simp only
            rw [h.custom]
            cases hc : o.custom with
            | none => exact Or.inr ⟨_, _, rfl, rfl, h.withConv _ _ _ rfl⟩
            | some cu => exact Or.inr ⟨_, _, rfl, rfl, h.withConv _ _ _ rfl⟩

/-- the object after the first phase has the convention of the object -/
theorem fillMissing_conv (b : Bool) (ks : List Str) (l : Dict Entry) (o : Obj) : (fillMissing b ks l o).2.conv = o.conv :=
  (fillMissing_frame b ks l o).1.conv

theorem Free.verifyG {F : Str → Prop} {env : Env} {o o' : Obj} (h : Free F o o') (hf : FreeIn F env)
    (hc : ∀ o1, Sofar.resetConvention env o = .ok o1 → FreeConv F o1.conv) (inner : Env → Obj → Inner)
    (hin : ∀ p p', Free F p p' → inner env p' = inner env p) (ih : IH) (mode : Mode) :
    FreeRet F (verifyG inner env o ih mode) (verifyG inner env o' ih mode) := by
  unfold Sofar.verifyG
  rcases h.resetConvention hf.notName hf.notVersion with ⟨e, h1, h2⟩ | ⟨o1, o1', h1, h2, hl⟩
  · rw [h1, h2]; exact ⟨rfl, rfl, h⟩
  · rw [h1, h2]
    have hc1 := hc o1 h1
    simp only [hl.objKeys, hl.conv]
    obtain ⟨h3, h4⟩ := hl.fillMissing (decide (ih ≠ .raise)) o1.keys o1.conv
    have hc4 : FreeConv F (Sofar.fillMissing (decide (ih ≠ .raise)) o1.keys o1.conv o1).2.conv := by
      rw [fillMissing_conv]; exact hc1
    rw [h3]
    cases (Sofar.fillMissing (decide (ih ≠ .raise)) o1.keys o1.conv o1).1 with
    | error x => exact ⟨rfl, rfl, h4⟩
    | ok missing =>
      simp only
      rw [h4.phaseTypes hc4]
      cases Sofar.phaseTypes env (Sofar.fillMissing (decide (ih ≠ .raise)) o1.keys o1.conv o1).2 o1.keys with
      | error x => exact ⟨rfl, rfl, h4⟩
      | ok e2 =>
        simp only
        generalize (if ih = .raise then section_ _ missing else [] : Str) = e1
        generalize (if ih = .raise then [] else section_ _ missing : Str) = w1
        split
        · unfold verifyEarly
          simp only
          generalize handleIssues _ _ _ = hh
          cases hh.out with
          | error x => exact ⟨rfl, rfl, h4⟩
          | ok q => exact ⟨rfl, rfl, h4⟩
        · rw [hin _ _ h4]
          exact h4.verifyBody hf hc4 _ _ _ _ _ _

theorem Free.verify {F : Str → Prop} {env : Env} {o o' : Obj} (h : Free F o o') (hf : FreeIn F env)
    (hc : ∀ o1, Sofar.resetConvention env o = .ok o1 → FreeConv F o1.conv) (ih : IH) (mode : Mode) :
    FreeRet F (verify env o ih mode) (verify env o' ih mode) :=
  h.verifyG hf hc _ (fun _ _ hp => hp.referenceNames hf.notName hf.notVersion) ih mode

theorem Free.updateDimensions {F : Str → Prop} {env : Env} {o o' : Obj} (h : Free F o o') (hf : FreeIn F env)
    (hc : ∀ o1, Sofar.resetConvention env o = .ok o1 → FreeConv F o1.conv) :
    FreeRet F (updateDimensions env o) (updateDimensions env o') := by
  unfold Sofar.updateDimensions
  obtain ⟨h1, h2, h3⟩ := h.verify hf hc .ret .write
  simp only [h1, h2, h3.api]
  split
  · exact ⟨rfl, rfl, h3⟩
  · exact ⟨rfl, rfl, h3⟩
  · split
    · exact ⟨rfl, rfl, h3⟩
    · exact ⟨rfl, rfl, h3⟩

theorem Free.getDimension {F : Str → Prop} {env : Env} {o o' : Obj} (h : Free F o o') (hf : FreeIn F env)
    (hc : ∀ o1, Sofar.resetConvention env o = .ok o1 → FreeConv F o1.conv) (d : Str) :
    FreeRet F (getDimension env o d) (getDimension env o' d) := by
  unfold Sofar.getDimension
  obtain ⟨h1, h2, h3⟩ := h.updateDimensions hf hc
  simp only [h1, h2, h3.api]
  split
  · exact ⟨rfl, rfl, h3⟩
  · split
    · exact ⟨rfl, rfl, h3⟩
    · split
      · exact ⟨rfl, rfl, h3⟩
      · exact ⟨rfl, rfl, h3⟩

/-! ## Hypotheses about the tables -/

theorem freeConv_load {F : Str → Prop} {env : Env} (hF : ∀ k, F k → ∀ f ∈ env.files, ∀ key e, (key, e) ∈ f.content →
      Spec.sofarName key = k → e.typ = py% "attribute" ∧ e.dims = none) {c : Str} {ver : VersionArg}
    {conv : Dict Entry} (h : loadConvention env c ver = .ok conv) : FreeConv F conv := by
  intro k hk e he
  unfold loadConvention at h
  cases hs : selectFile env c ver with
  | error x => simp [hs] at h
  | ok f =>
    simp only [hs, Except.ok.injEq] at h
    subst h
    obtain ⟨k0, h0, rfl⟩ := convertKeys_get he
    exact hF _ hk f (selectFile_mem hs) k0 e h0 rfl

theorem freeIn_of {F : Str → Prop} {env : Env} (hF : ∀ k, F k → Spec.FreeText env k) : FreeIn F env where
  rules k hk := (hF k hk).rules
  unit k hk := (hF k hk).unit
  notName h := (hF _ h).notName rfl
  notVersion h := (hF _ h).notVersion rfl

theorem get?_mergeCustom_or (conv cust : Dict Entry) (k : Str) (e : Entry)
    (h : Dict.get? (mergeCustom conv cust).1 k = some e) : Dict.get? conv k = some e ∨ (k, e) ∈ cust := by
  unfold mergeCustom at h
  have key : ∀ (l : Dict Entry) (d : Dict Entry), Dict.get? (l.foldl (fun d p => Dict.put d p.1 p.2) d) k = some e →
      Dict.get? d k = some e ∨ (k, e) ∈ l := by
    intro l
    induction l with
    | nil => exact fun d h => Or.inl h
    | cons p l ih =>
      intro d h
      rcases ih _ h with h1 | h1
      · rw [Dict.get?_put] at h1
        split at h1
        · rename_i hk
          simp only [Option.some.injEq] at h1
          subst h1 hk
          exact Or.inr List.mem_cons_self
        · exact Or.inl h1
      · exact Or.inr (List.mem_cons_of_mem _ h1)
  rcases key _ _ h with h1 | h1
  · exact Or.inl h1
  · exact Or.inr (List.mem_filter.1 h1).1

theorem freeConv_reset_attr {F : Str → Prop} {env : Env} (hF : ∀ k, F k → ∀ f ∈ env.files, ∀ key e, (key, e) ∈ f.content →
      Spec.sofarName key = k → e.typ = py% "attribute" ∧ e.dims = none) {o o1 : Obj}
    (hcu : ∀ c k e, o.custom = some c → (k, e) ∈ c → F k → e.typ = py% "attribute" ∧ e.dims = none)
    (h : resetConvention env o = .ok o1) : FreeConv F o1.conv := by
  obtain ⟨_, c, v, conv, _, _, _, _, hl, h6⟩ := resetConvention_inv h
  have h1 := freeConv_load hF hl
  cases hc : o.custom with
  | none => rw [h6, hc]; exact h1
  | some cu =>
    rw [h6, hc]
    intro k hk e he
    rcases get?_mergeCustom_or _ _ _ _ he with h2 | h2
    · exact h1 k hk e h2
    · exact hcu cu k e hc h2 hk

theorem freeConv_reset {F : Str → Prop} {env : Env} (hF : ∀ k, F k → Spec.FreeText env k) {o o1 : Obj}
    (hcu : ∀ c k e, o.custom = some c → (k, e) ∈ c → F k → e.typ = py% "attribute" ∧ e.dims = none)
    (h : resetConvention env o = .ok o1) : FreeConv F o1.conv :=
  freeConv_reset_attr (fun k hk => (hF k hk).attr) hcu h

/-! ## Another time -/

/-- the dates -/
def IsDate (k : Str) : Prop := k ∈ Spec.dateNames

theorem stamps_free (env : Env) (t : Str) (o : Obj) :
    Free IsDate (putStamps (stamps env) o) (putStamps (stamps { env with now := t }) o) := by
  refine ⟨?_, ?_, ?_, rfl, rfl, rfl, rfl, rfl, rfl⟩
  · simp only [putStamps, stamps, List.foldl_cons, List.foldl_nil, Dict.keys_put]
  · intro k hk
    simp only [IsDate, Spec.dateNames, List.mem_cons, List.not_mem_nil, or_false, not_or] at hk
    simp only [putStamps, stamps, List.foldl_cons, List.foldl_nil, Dict.get?_put, hk.1, hk.2, if_false]
  · intro k hk
    refine Or.inr ⟨env.now, t, ?_⟩
    simp only [IsDate, Spec.dateNames, List.mem_cons, List.not_mem_nil, or_false] at hk
    rcases hk with rfl | rfl <;>
      exact ⟨by simp [putStamps, stamps, Dict.get?_put], by simp [putStamps, stamps, Dict.get?_put]⟩

theorem verifyNew_time (env : Env) (t : Str) (o : Obj) (ih : IH) (mode : Mode) :
    verifyNew { env with now := t } o ih mode = verifyNew env o ih mode := rfl

/-- two constructor calls that agree up to free texts -/
def FreeNew (F : Str → Prop) (r r' : Created) : Prop :=
  r'.ev = r.ev ∧ ((∃ x, r.out = .error x ∧ r'.out = .error x) ∨ ∃ o o', r.out = .ok o ∧ r'.out = .ok o' ∧ Free F o o')

theorem Free.finishInit {F : Str → Prop} {env : Env} {o o' : Obj} (h : Free F o o') (hf : FreeIn F env)
    (hc : ∀ o1, Sofar.resetConvention env o = .ok o1 → FreeConv F o1.conv) (m : Bool) (v : Str) (b : Bool) :
    FreeNew F (finishInit env m v b o) (finishInit env m v b o') := by
  unfold Sofar.finishInit
  split
  · obtain ⟨h1, h2, h3⟩ := h.verifyG hf hc (fun _ _ => ⟨.error .unmodelled, []⟩) (fun _ _ _ => rfl) .raise .read
    unfold verifyNew
    simp only [h1, h2]
    cases (Sofar.verifyG (fun _ _ => ⟨.error .unmodelled, []⟩) env o .raise .read).out with
    | error x => exact ⟨rfl, Or.inl ⟨x, rfl, rfl⟩⟩
    | ok u => exact ⟨rfl, Or.inr ⟨_, _, rfl, rfl, h3.withProt true⟩⟩
  · cases isStable v with
    | error x => exact ⟨rfl, Or.inl ⟨x, rfl, rfl⟩⟩
    | ok s => cases s <;> exact ⟨rfl, Or.inr ⟨_, _, rfl, rfl, h.withProt true⟩⟩

theorem initSofa_time {env : Env} (hF : ∀ k, IsDate k → Spec.FreeText env k) (t : Str) (c : Str) (m : Bool)
    (ver : VersionArg) (a : VerifyArg) :
    FreeNew IsDate (initSofa env c m ver a) (initSofa { env with now := t } c m ver a) := by
  unfold initSofa
  have h1 : loadConvention { env with now := t } c ver = loadConvention env c ver := rfl
  rw [h1]
  cases hl : loadConvention env c ver with
  | error x => exact ⟨rfl, Or.inl ⟨x, rfl, rfl⟩⟩
  | ok conv =>
    simp only
    unfold conventionToSofa
    cases hd : addDefaults m (emptyObj conv).conv (emptyObj conv) with
    | error x => exact ⟨rfl, Or.inl ⟨x, rfl, rfl⟩⟩
    | ok o =>
      simp only
      have hfr := (stamps_free env t o).withProt true
      have hcu : o.custom = none := (addDefaults_conv hd).2
      have hfin : ∀ v b, FreeNew IsDate (finishInit env m v b { putStamps (stamps env) o with prot := true })
          (finishInit { env with now := t } m v b { putStamps (stamps { env with now := t }) o with prot := true }) := by
        intro v b
        refine Free.finishInit hfr (freeIn_of hF) ?_ m v b
        intro o1 h1
        refine freeConv_reset hF ?_ h1
        intro cu k e hcu'
        have : o.custom = some cu := hcu'
        rw [hcu] at this
        simp at this
      cases conventionVersion conv with
      | error x => exact ⟨rfl, Or.inl ⟨x, rfl, rfl⟩⟩
      | ok v =>
        simp only
        cases a with
        | yes => exact hfin v true
        | no => exact hfin v false
        | auto =>
          simp only
          cases isStable v with
          | error x => exact ⟨rfl, Or.inl ⟨x, rfl, rfl⟩⟩
          | ok b => exact hfin v b

/-- the dates of new objects -/
theorem initSofa_dates {env : Env} {c : Str} {m : Bool} {ver : VersionArg} {a : VerifyArg} {o : Obj}
    (h : (initSofa env c m ver a).out = .ok o) : ∀ k ∈ Spec.dateNames, Dict.get? o.attrs k = some (.str env.now) := by
  have key : ∀ v b (p : Obj), (finishInit env m v b { putStamps (stamps env) p with prot := true }).out = .ok o →
      ∀ k ∈ Spec.dateNames, Dict.get? o.attrs k = some (.str env.now) := by
    intro v b p hf k hk
    rw [(finishInit_attrs hf).1]
    simp only [Spec.dateNames, List.mem_cons, List.not_mem_nil, or_false] at hk
    rcases hk with rfl | rfl <;> simp [putStamps, stamps, Dict.get?_put]
  unfold initSofa at h
  cases hl : loadConvention env c ver with
  | error x => simp [hl] at h
  | ok conv =>
    simp only [hl] at h
    unfold conventionToSofa at h
    cases hd : addDefaults m (emptyObj conv).conv (emptyObj conv) with
    | error x => simp [hd] at h
    | ok p =>
      simp only [hd] at h
      cases hv : conventionVersion conv with
      | error x => simp [hv] at h
      | ok v =>
        simp only [hv] at h
        cases a with
        | yes => exact key _ _ _ h
        | no => exact key _ _ _ h
        | auto =>
          simp only at h
          cases hs : isStable v with
          | error x => simp [hs] at h
          | ok b => simp only [hs] at h; exact key _ _ _ h

theorem referenceNames_time {env : Env} (hF : ∀ k, IsDate k → Spec.FreeText env k) (t : Str) (o : Obj) :
    referenceNames { env with now := t } o = referenceNames env o := by
  unfold referenceNames
  cases o.getAttr (py% "GLOBAL_SOFAConventions") with
  | error x => rfl
  | ok c =>
    simp only
    cases o.getAttr (py% "GLOBAL_SOFAConventionsVersion") with
    | error x => rfl
    | ok v =>
      simp only
      cases c.asStr with
      | none => rfl
      | some c =>
        cases v.asStr with
        | none => rfl
        | some v =>
          simp only
          obtain ⟨h1, h2 | h2⟩ := initSofa_time hF t c false (if v = py% "latest" then .latest else .exact v) .auto
          · obtain ⟨x, h3, h4⟩ := h2
            simp only [h1, h3, h4]
          · obtain ⟨p, p', h3, h4, h5⟩ := h2
            simp only [h1, h3, h4, h5.conv]

theorem verify_time {env : Env} (hF : ∀ k, IsDate k → Spec.FreeText env k) (t : Str) (o : Obj) (ih : IH) (mode : Mode) :
    verify { env with now := t } o ih mode = verify env o ih mode := by
  have h : verify { env with now := t } o ih mode =
      verifyG (fun _ => referenceNames { env with now := t }) env o ih mode := rfl
  rw [h]
  have h2 : (fun _ : Env => referenceNames { env with now := t }) = fun _ => referenceNames env := by
    funext _ p
    exact referenceNames_time hF t p
  rw [h2]
  rfl

end Sofar
