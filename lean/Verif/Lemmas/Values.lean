import Verif.Lemmas.Congr
import Verif.Spec.Values
/-!
# Verification does not depend on the numbers in arrays
-/
namespace Sofar

/-- equal values or arrays of the same form -/
def LikeVal (env : Env) (v w : Val) : Prop := w = v ∨ ∃ a b, v = .arr a ∧ w = .arr b ∧ Spec.SameForm env a b

theorem LikeVal.rfl' {env : Env} (v : Val) : LikeVal env v v := Or.inl rfl

theorem LikeVal.asStr {env : Env} {v w : Val} (h : LikeVal env v w) : w.asStr = v.asStr := by
  rcases h with rfl | ⟨a, b, rfl, rfl, _⟩ <;> rfl

theorem LikeVal.isStr {env : Env} {v w : Val} (h : LikeVal env v w) : w.isStr = v.isStr := by
  unfold Val.isStr; rw [h.asStr]

theorem LikeVal.shape {env : Env} {v w : Val} (h : LikeVal env v w) : w.shape = v.shape := by
  rcases h with rfl | ⟨a, b, rfl, rfl, h⟩
  · rfl
  · exact h.shape

theorem mapM_elemLen {l : List Elem} (h : ∀ s, Elem.str s ∉ l) : l.mapM elemLen = if l = [] then some [] else none := by
  cases l with
  | nil => rfl
  | cons x l =>
    have : elemLen x = none := by
      cases x with
      | str s => exact absurd (by simp) (h s)
      | _ => rfl
    simp [List.mapM_cons, this]

theorem LikeVal.stringVar {env : Env} {v w : Val} (h : LikeVal env v w) (k : Str) : stringVar w k = stringVar v k := by
  rcases h with rfl | ⟨a, b, rfl, rfl, h⟩
  · rfl
  · have hd : b.data = [] ↔ a.data = [] := by
      rw [← List.length_eq_zero_iff, ← List.length_eq_zero_iff, h.length]
    unfold Sofar.stringVar
    simp only
    rw [mapM_elemLen (fun s => (h.numbers s).1), mapM_elemLen (fun s => (h.numbers s).2), h.shape]
    have hs : b.size = a.size := by unfold Arr.size; rw [h.shape]
    rw [hs]
    by_cases ha : a.data = []
    · rw [if_pos ha, if_pos (hd.2 ha)]
    · rw [if_neg ha, if_neg (fun x => ha (hd.1 x))]

theorem LikeVal.typeErrorText {env : Env} {v w : Val} (h : LikeVal env v w) (k t : Str) :
    typeErrorText env k t w = typeErrorText env k t v := by
  rcases h with rfl | ⟨a, b, rfl, rfl, h⟩
  · rfl
  · have h1 : doubleOk (.arr b) = doubleOk (.arr a) := by simp [doubleOk, h.kind.2]
    have h2 : stringTypeError env k (.arr b) = stringTypeError env k (.arr a) := by
      simp [stringTypeError, h.kind.2, h.dtypeName]
    unfold Sofar.typeErrorText
    rw [h1, h2, h.typeName]
    rfl

theorem LikeVal.dimLetters {env : Env} {v w : Val} (h : LikeVal env v w) (k : Str) (i : Nat) (l : Str)
    (st : Dict Nat × Nat) : dimLetters w k i l st = dimLetters v k i l st := by
  induction l generalizing i st with
  | nil => rfl
  | cons c l ih =>
    obtain ⟨api, S⟩ := st
    simp only [Sofar.dimLetters, h.shape, h.stringVar, ih]

theorem LikeVal.actualShape {env : Env} {v w : Val} (h : LikeVal env v w) (k t d : Str) :
    actualShape k t d w = actualShape k t d v := by
  unfold Sofar.actualShape
  rw [h.stringVar, h.shape]

theorem LikeVal.specificItems {env : Env} {v w : Val} (h : LikeVal env v w) (r : Rule) :
    specificItems r w = specificItems r v := by
  rcases h with rfl | ⟨a, b, rfl, rfl, h⟩ <;> rfl

theorem LikeVal.verifyValue {env : Env} {v w : Val} (h : LikeVal env v w) (al : Dict Str) (r : Option (List Str))
    (k : Str) : verifyValue al w r k = verifyValue al v r k := by
  unfold Sofar.verifyValue
  rw [h.asStr]

/-- the objects agree up to numbers in arrays -/
structure Like (env : Env) (o o' : Obj) : Prop where
  keys : Dict.keys o'.attrs = Dict.keys o.attrs
  vals : ∀ k v, Dict.get? o.attrs k = some v → ∃ w, Dict.get? o'.attrs k = some w ∧ LikeVal env v w
  version : o'.getAttr (py% "GLOBAL_SOFAConventionsVersion") = o.getAttr (py% "GLOBAL_SOFAConventionsVersion")
  conv : o'.conv = o.conv
  custom : o'.custom = o.custom
  dims : o'.dims = o.dims
  api : o'.api = o.api
  readOnly : o'.readOnly = o.readOnly
  prot : o'.prot = o.prot

theorem Like.has {env : Env} {o o' : Obj} (h : Like env o o') (k : Str) : Dict.has o'.attrs k = Dict.has o.attrs k := by
  rw [Bool.eq_iff_iff, Dict.has_iff_mem, Dict.has_iff_mem, h.keys]

theorem Like.hasAttr {env : Env} {o o' : Obj} (h : Like env o o') (k : Str) : o'.hasAttr k = o.hasAttr k := by
  unfold Obj.hasAttr Obj.privateInst
  rw [h.has, h.custom, h.dims, h.api]

/-- what `getAttr` gives in both objects -/
theorem Like.getAttr {env : Env} {o o' : Obj} (h : Like env o o') (k : Str) :
    (∃ e, o.getAttr k = .error e ∧ o'.getAttr k = .error e) ∨
    ∃ v w, o.getAttr k = .ok v ∧ o'.getAttr k = .ok w ∧ LikeVal env v w := by
  cases hg : Dict.get? o.attrs k with
  | some v =>
    obtain ⟨w, hw, hl⟩ := h.vals k v hg
    exact Or.inr ⟨v, w, getAttr_of_get hg, getAttr_of_get hw, hl⟩
  | none =>
    have hg' : Dict.get? o'.attrs k = none := by
      rw [Dict.get?_eq_none_iff] at hg ⊢
      rw [h.keys]; exact hg
    unfold Obj.getAttr
    rw [hg, hg', h.hasAttr]
    cases o.hasAttr k with
    | true => exact Or.inr ⟨_, _, rfl, rfl, .rfl' _⟩
    | false => exact Or.inl ⟨_, rfl, rfl⟩

theorem Like.convEntry {env : Env} {o o' : Obj} (h : Like env o o') (k : Str) : convEntry o' k = convEntry o k := by
  unfold Sofar.convEntry; rw [h.conv]

theorem Like.objKeys {env : Env} {o o' : Obj} (h : Like env o o') : o'.keys = o.keys := h.keys

theorem Like.phaseTypes {env : Env} {o o' : Obj} (h : Like env o o') (ks : List Str) :
    phaseTypes env o' ks = phaseTypes env o ks := by
  unfold Sofar.phaseTypes
  rw [concatE_congr (g := typeErrorKey env o)]
  intro k _
  unfold typeErrorKey
  rw [h.convEntry]
  cases Sofar.convEntry o k with
  | error x => rfl
  | ok en =>
    simp only
    rcases h.getAttr k with ⟨e, h1, h2⟩ | ⟨v, w, h1, h2, hl⟩
    · rw [h1, h2]
    · rw [h1, h2]; simp only; rw [hl.typeErrorText]

theorem Like.phaseNames {env : Env} {o o' : Obj} (h : Like env o o') (ks : List Str) :
    phaseNames o' ks = phaseNames o ks := by
  unfold Sofar.phaseNames nameNoVariable nameNoUnderscore nameVariable nameReserved Sofar.convEntry
  rw [h.conv]

theorem Like.referenceNames {env : Env} {o o' : Obj} (h : Like env o o') :
    referenceNames env o' = referenceNames env o := by
  unfold Sofar.referenceNames
  rw [h.version]
  rcases h.getAttr (py% "GLOBAL_SOFAConventions") with ⟨e, h1, h2⟩ | ⟨v, w, h1, h2, hl⟩
  · rw [h1, h2]
  · rw [h1, h2]
    simp only
    cases o.getAttr (py% "GLOBAL_SOFAConventionsVersion") with
    | error x => rfl
    | ok x => simp only [hl.asStr]

theorem Like.phaseCustomNames {env : Env} {o o' : Obj} (h : Like env o o') (i : Inner) :
    phaseCustomNames i o' = phaseCustomNames i o := by
  unfold Sofar.phaseCustomNames; rw [h.custom]

theorem Like.dimKeys {env : Env} {o o' : Obj} (h : Like env o o') : dimKeys o' = dimKeys o := by
  unfold Sofar.dimKeys; rw [h.objKeys, h.conv, h.custom]

theorem Like.dimLoop {env : Env} {o o' : Obj} (h : Like env o o') (ks : List Str) (st : Dict Nat × Nat) :
    dimLoop o' ks st = dimLoop o ks st := by
  induction ks generalizing st with
  | nil => rfl
  | cons k ks ih =>
    simp only [Sofar.dimLoop, h.convEntry, ih]
    rcases h.getAttr k with ⟨e, h1, h2⟩ | ⟨v, w, h1, h2, hl⟩
    · rw [h1, h2]
    · rw [h1, h2]; simp only [hl.dimLetters]

/-- private fields may be changed in the same way -/
theorem Like.update {env : Env} {o o' : Obj} (h : Like env o o') (p : Bool) (d : Option (Dict Str))
    (a : Option (Dict Nat)) :
    Like env { o with prot := p, dims := d, api := a } { o' with prot := p, dims := d, api := a } :=
  ⟨h.keys, h.vals, by
    have := h.version
    rw [getAttr_congr (o := o) (o' := { o with prot := p, dims := d, api := a }) rfl (by decide),
      getAttr_congr (o := o') (o' := { o' with prot := p, dims := d, api := a }) rfl (by decide)]
    exact this, h.conv, h.custom, rfl, rfl, h.readOnly, rfl⟩

theorem Like.phaseDims {env : Env} {o o' : Obj} (h : Like env o o') :
    (phaseDims o').1 = (phaseDims o).1 ∧ Like env (phaseDims o).2 (phaseDims o').2 := by
  unfold Sofar.phaseDims
  rw [h.dimKeys, h.dimLoop]
  generalize Sofar.dimLoop o (Sofar.dimKeys o) ([], 0) = r
  simp only
  cases r.1 with
  | error x => exact ⟨rfl, h.update _ _ _⟩
  | ok u => exact ⟨rfl, h.update _ _ _⟩

theorem Like.shapeKey {env : Env} {o o' : Obj} (h : Like env o o') (api : Dict Nat) (k : Str) :
    shapeKey o' api k = shapeKey o api k := by
  unfold Sofar.shapeKey
  rw [h.convEntry]
  rcases h.getAttr k with ⟨e, h1, h2⟩ | ⟨v, w, h1, h2, hl⟩
  · rw [h1, h2]
  · rw [h1, h2]; simp only [hl.actualShape]

theorem Like.shapeLoop {env : Env} {o o' : Obj} (h : Like env o o') (api : Dict Nat) (ks : List Str) (d : Dict Str) :
    shapeLoop o' api ks d = shapeLoop o api ks d := by
  induction ks generalizing d with
  | nil => rfl
  | cons k ks ih => simp only [Sofar.shapeLoop, h.shapeKey, ih]

theorem Like.phaseShapes {env : Env} {o o' : Obj} (h : Like env o o') :
    (phaseShapes o').1 = (phaseShapes o).1 ∧ Like env (phaseShapes o).2 (phaseShapes o').2 := by
  have hu : ∀ d, Like env { o with dims := d } { o' with dims := d, api := o.api } := by
    intro d
    have := h.update o.prot d o.api
    have h1 := h.prot
    cases o; cases o'
    simp only at h1
    subst h1
    exact this
  unfold Sofar.phaseShapes
  rw [h.dimKeys, h.api, h.shapeLoop]
  simp only
  cases (Sofar.shapeLoop o (o.api.getD []) (Sofar.dimKeys o) []).1 with
  | error x => exact ⟨rfl, hu _⟩
  | ok u => exact ⟨rfl, hu _⟩

theorem pyStr_asStr {env : Env} {v : Val} {t : Str} (h : v.asStr = some t) : pyStr env v = t := by
  cases v <;> simp_all [pyStr, Val.asStr]

theorem verifyValue_false {al : Dict Str} {v : Val} {r : Option (List Str)} {k : Str}
    (h : verifyValue al v r k = .ok false) : ∃ t, v.asStr = some t := by
  unfold verifyValue at h
  cases r with
  | none => simp at h
  | some r =>
    simp only at h
    cases hv : v.asStr with
    | none => simp [hv] at h
    | some t => exact ⟨t, rfl⟩

theorem Like.dimRule {env : Env} {o o' : Obj} (h : Like env o o') (k t : Str) (p : Str × List Nat × Str) :
    dimRule o' k t p = dimRule o k t p := by unfold Sofar.dimRule; rw [h.api]

theorem Like.specificRule {env : Env} {o o' : Obj} (h : Like env o o') (k t : Str) (i : SpecItem) :
    specificRule env o' k t i = specificRule env o k t i := by
  unfold Sofar.specificRule
  cases i with
  | dims l => exact concatE_congr (fun p _ => h.dimRule k t p)
  | dep key ref =>
    simp only [h.hasAttr]
    split
    · rfl
    · cases ref with
      | none => rfl
      | some r =>
        simp only
        rcases h.getAttr (toSofar key) with ⟨e, h1, h2⟩ | ⟨v, w, h1, h2, hl⟩
        · rw [h1, h2]
        · rw [h1, h2]
          simp only [hl.verifyValue]
          cases hv : Sofar.verifyValue env.aliases v (some r) (toSofar key) with
          | error x => rfl
          | ok b =>
            cases b with
            | true => rfl
            | false =>
              obtain ⟨t', ht'⟩ := verifyValue_false hv
              simp only [pyStr_asStr ht', pyStr_asStr (hl.asStr.trans ht')]

theorem Like.ruleKey {env : Env} {o o' : Obj} (h : Like env o o') (p : Str × Rule) :
    ruleKey env o' p = ruleKey env o p := by
  unfold Sofar.ruleKey
  simp only [h.hasAttr]
  split
  · rfl
  · rcases h.getAttr (toSofar p.1) with ⟨e, h1, h2⟩ | ⟨v, w, h1, h2, hl⟩
    · rw [h1, h2]
    · rw [h1, h2]
      simp only [hl.verifyValue, hl.specificItems]
      have hg : generalRule o' (toSofar p.1) = generalRule o (toSofar p.1) := by
        funext x; unfold generalRule; rw [h.hasAttr]
      have hs : ∀ t items, concatE (Sofar.specificRule env o' (toSofar p.1) t) items =
          concatE (Sofar.specificRule env o (toSofar p.1) t) items :=
        fun t items => concatE_congr (fun i _ => h.specificRule _ t i)
      simp only [hg, hs]
      cases hv : Sofar.verifyValue env.aliases v p.2.value (toSofar p.1) with
      | error x => rfl
      | ok b =>
        cases b with
        | true => simp only [if_true]
        | false =>
          obtain ⟨t', ht'⟩ := verifyValue_false hv
          simp only [pyStr_asStr ht', pyStr_asStr (hl.asStr.trans ht')]

theorem Like.phaseUnits {env : Env} {o o' : Obj} (h : Like env o o') (mode : Mode) :
    phaseUnits env o' mode = phaseUnits env o mode := by
  unfold Sofar.phaseUnits
  cases mode with
  | read => rfl
  | write =>
    simp only [h.objKeys]
    apply concatE_congr
    intro k _
    unfold unitKey
    rcases h.getAttr k with ⟨e, h1, h2⟩ | ⟨v, w, h1, h2, hl⟩
    · rw [h1, h2]
    · rw [h1, h2]
      simp only [hl.asStr]
      cases hv : v.asStr with
      | none => rfl
      | some t => simp only [pyStr_asStr hv, pyStr_asStr (hl.asStr.trans hv)]

theorem Like.phaseRules {env : Env} {o o' : Obj} (h : Like env o o') (mode : Mode) :
    phaseRules env o' mode = phaseRules env o mode := by
  unfold Sofar.phaseRules
  rw [concatE_congr (fun p _ => h.ruleKey p), h.phaseUnits]

theorem Like.phaseDeprecations {env : Env} {o o' : Obj} (h : Like env o o') (mode : Mode) :
    phaseDeprecations env o' mode = phaseDeprecations env o mode := by
  unfold Sofar.phaseDeprecations
  rw [h.version]
  rcases h.getAttr (py% "GLOBAL_SOFAConventions") with ⟨e, h1, h2⟩ | ⟨v, w, h1, h2, hl⟩
  · rw [h1, h2]
  · rw [h1, h2]; simp only [hl.asStr]

/-- two results that agree up to the numbers in arrays -/
def LikeRet {α : Type} (env : Env) (r r' : Ret α) : Prop := r'.out = r.out ∧ r'.ev = r.ev ∧ Like env r.obj r'.obj

theorem Like.verifyTail {env : Env} {o o' : Obj} (h : Like env o o') (ih : IH) (mode : Mode) (w e : Str)
    (ev : List Event) : LikeRet env (verifyTail env o ih mode w e ev) (verifyTail env o' ih mode w e ev) := by
  unfold Sofar.verifyTail
  rw [h.phaseRules, h.phaseDeprecations]
  cases Sofar.phaseRules env o mode with
  | error x => exact ⟨rfl, rfl, h⟩
  | ok e6 =>
    simp only
    cases Sofar.phaseDeprecations env o mode with
    | error x => exact ⟨rfl, rfl, h⟩
    | ok q =>
      obtain ⟨e8, w8⟩ := q
      cases ih with
      | ignore => exact ⟨rfl, rfl, h⟩
      | _ =>
        simp only
        generalize handleIssues _ _ _ = hh
        cases hh.out with
        | error x => exact ⟨rfl, rfl, h⟩
        | ok q => exact ⟨rfl, rfl, h⟩

theorem Like.verifyBody {env : Env} {o o' : Obj} (h : Like env o o') (i : Inner) (ks : List Str) (ih : IH) (mode : Mode)
    (w e : Str) : LikeRet env (verifyBody i env o ks ih mode w e) (verifyBody i env o' ks ih mode w e) := by
  unfold Sofar.verifyBody
  rw [h.phaseNames, h.phaseCustomNames]
  cases Sofar.phaseNames o ks with
  | error x => exact ⟨rfl, rfl, h⟩
  | ok e3 =>
    simp only
    cases (Sofar.phaseCustomNames i o).1 with
    | error x => exact ⟨rfl, rfl, h⟩
    | ok e3' =>
      simp only
      obtain ⟨h1, h2⟩ := h.phaseDims
      rw [h1]
      cases (Sofar.phaseDims o).1 with
      | error x => exact ⟨rfl, rfl, h2⟩
      | ok u =>
        simp only
        obtain ⟨h3, h4⟩ := h2.phaseShapes
        rw [h3]
        cases (Sofar.phaseShapes (Sofar.phaseDims o).2).1 with
        | error x => exact ⟨rfl, rfl, h4⟩
        | ok e5 => exact h4.verifyTail _ _ _ _ _

theorem Like.put {env : Env} {o o' : Obj} (h : Like env o o') (k : Str) (v : Val) :
    Like env { o with attrs := Dict.put o.attrs k v } { o' with attrs := Dict.put o'.attrs k v } := by
  refine ⟨?_, ?_, ?_, h.conv, h.custom, h.dims, h.api, h.readOnly, h.prot⟩
  · simp only [Dict.keys_put, h.keys]
  · intro j u hu
    by_cases hj : j = k
    · subst hj
      simp only [Dict.get?_put, if_true, Option.some.injEq] at hu ⊢
      exact ⟨v, rfl, by rw [hu]; exact .rfl' _⟩
    · rw [Dict.get?_put_ne _ _ hj] at hu ⊢
      exact h.vals j u hu
  · have hv := h.version
    by_cases hj : py% "GLOBAL_SOFAConventionsVersion" = k
    · subst hj
      rw [getAttr_of_get (v := v), getAttr_of_get (v := v)]
      · simp
      · simp
    · unfold Obj.getAttr at hv ⊢
      simp only [Dict.get?_put_ne _ _ hj]
      have e1 : Obj.hasAttr { o with attrs := Dict.put o.attrs k v } (py% "GLOBAL_SOFAConventionsVersion") =
          o.hasAttr (py% "GLOBAL_SOFAConventionsVersion") := by
        rw [Bool.eq_iff_iff, hasAttr_public _ _ (by decide), hasAttr_public _ _ (by decide)]
        simp only [Dict.has_put, Bool.or_eq_true, decide_eq_true_eq]
        grind
      have e2 : Obj.hasAttr { o' with attrs := Dict.put o'.attrs k v } (py% "GLOBAL_SOFAConventionsVersion") =
          o'.hasAttr (py% "GLOBAL_SOFAConventionsVersion") := by
        rw [Bool.eq_iff_iff, hasAttr_public _ _ (by decide), hasAttr_public _ _ (by decide)]
        simp only [Dict.has_put, Bool.or_eq_true, decide_eq_true_eq]
        grind
      rw [e1, e2]
      exact hv

theorem Like.withProt {env : Env} {o o' : Obj} (h : Like env o o') (p : Bool) :
    Like env { o with prot := p } { o' with prot := p } := by
  have := h.update p o.dims o.api
  have h1 := h.dims
  have h2 := h.api
  cases o; cases o'
  simp only at h1 h2
  subst h1 h2
  exact this

theorem Like.setAttr {env : Env} {o o' : Obj} (h : Like env o o') (k : Str) (v : Inp) :
    LikeRet env (setAttr o k v) (setAttr o' k v) := by
  have hp := h.prot
  have hr := h.readOnly
  cases o
  cases o'
  simp only at hp hr
  subst hp hr
  unfold Sofar.setAttr
  rw [h.hasAttr]
  split
  · exact ⟨rfl, rfl, h⟩
  split
  · exact ⟨rfl, rfl, h⟩
  split
  · split
    · exact ⟨rfl, rfl, h.withProt _⟩
    · exact ⟨rfl, rfl, h⟩
  split
  · exact ⟨rfl, rfl, h⟩
  split
  · exact ⟨rfl, rfl, h⟩
  split
  · exact ⟨rfl, rfl, h⟩
  · exact ⟨rfl, rfl, h.put _ _⟩

theorem Like.fillMissing {env : Env} (b : Bool) (ks : List Str) (l : Dict Entry) {o o' : Obj} (h : Like env o o') :
    (fillMissing b ks l o').1 = (fillMissing b ks l o).1 ∧
      Like env (fillMissing b ks l o).2 (fillMissing b ks l o').2 := by
  induction l generalizing o o' with
  | nil => exact ⟨rfl, h⟩
  | cons p l ih =>
    obtain ⟨k, e⟩ := p
    simp only [Sofar.fillMissing]
    split
    · have hr : (if b then addDefault o' k e.default else (.ok (), o')).1 =
          (if b then addDefault o k e.default else (.ok (), o)).1 ∧
          Like env (if b then addDefault o k e.default else (.ok (), o)).2
            (if b then addDefault o' k e.default else (.ok (), o')).2 := by
        cases b with
        | false => exact ⟨rfl, h⟩
        | true =>
          simp only [if_true]
          unfold addDefault
          obtain ⟨h1, _, h3⟩ := (h.withProt false).setAttr k e.default
          simp only [h1]
          cases (Sofar.setAttr { o with prot := false } k e.default).out with
          | error x => exact ⟨rfl, h3⟩
          | ok u => exact ⟨rfl, h3.withProt _⟩
      obtain ⟨h1, h2⟩ := hr
      rw [h1]
      cases (if b then addDefault o k e.default else (.ok (), o)).1 with
      | error x => exact ⟨rfl, h2⟩
      | ok u =>
        simp only
        obtain ⟨h3, h4⟩ := ih h2
        rw [h3]
        cases (Sofar.fillMissing b ks l (if b then addDefault o k e.default else (.ok (), o)).2).1 with
        | error x => exact ⟨rfl, h4⟩
        | ok s => exact ⟨rfl, h4⟩
    · exact ih h

theorem Like.withConv {env : Env} {o o' : Obj} (h : Like env o o') (c : Dict Entry) (cu cu' : Option (Dict Entry))
    (hc : cu' = cu) :
    Like env { o with conv := c, custom := cu } { o' with conv := c, custom := cu' } :=
  ⟨h.keys, h.vals, by
    have := h.version
    rw [getAttr_congr (o := o) (o' := { o with conv := c, custom := cu }) rfl (by decide),
      getAttr_congr (o := o') (o' := { o' with conv := c, custom := cu' }) rfl (by decide)]
    exact this, rfl, hc, h.dims, h.api, h.readOnly, h.prot⟩

theorem Like.resetConvention {env : Env} {o o' : Obj} (h : Like env o o') :
    (∃ e, resetConvention env o = .error e ∧ resetConvention env o' = .error e) ∨
    ∃ o1 o1', resetConvention env o = .ok o1 ∧ resetConvention env o' = .ok o1' ∧ Like env o1 o1' := by
  unfold Sofar.resetConvention
  rw [h.version]
  rcases h.getAttr (py% "GLOBAL_SOFAConventions") with ⟨e, h1, h2⟩ | ⟨v, w, h1, h2, hl⟩
  · rw [h1, h2]; exact Or.inl ⟨e, rfl, rfl⟩
  · rw [h1, h2]
    simp only [hl.asStr]
    cases o.getAttr (py% "GLOBAL_SOFAConventionsVersion") with
    | error x => exact Or.inl ⟨x, rfl, rfl⟩
    | ok x =>
      simp only
      cases v.asStr with
      | none => exact Or.inl ⟨_, rfl, rfl⟩
      | some c =>
        simp only
        cases verifyConvention env (pyStr env x) c with
        | error x => exact Or.inl ⟨x, rfl, rfl⟩
        | ok u =>
          simp only
          cases loadConvention env c (.exact (pyStr env x)) with
          | error x => exact Or.inl ⟨x, rfl, rfl⟩
          | ok conv =>
            simp only
            rw [h.custom]
            cases hc : o.custom with
            | none => exact Or.inr ⟨_, _, rfl, rfl, h.withConv _ _ _ rfl⟩
            | some cu => exact Or.inr ⟨_, _, rfl, rfl, h.withConv _ _ _ rfl⟩

theorem Like.verify {env : Env} {o o' : Obj} (h : Like env o o') (ih : IH) (mode : Mode) :
    LikeRet env (verify env o ih mode) (verify env o' ih mode) := by
  unfold Sofar.verify verifyG
  rcases h.resetConvention with ⟨e, h1, h2⟩ | ⟨o1, o1', h1, h2, hl⟩
  · rw [h1, h2]; exact ⟨rfl, rfl, h⟩
  · rw [h1, h2]
    simp only [hl.objKeys, hl.conv]
    obtain ⟨h3, h4⟩ := hl.fillMissing (decide (ih ≠ .raise)) o1.keys o1.conv
    rw [h3]
    cases (Sofar.fillMissing (decide (ih ≠ .raise)) o1.keys o1.conv o1).1 with
    | error x => exact ⟨rfl, rfl, h4⟩
    | ok missing =>
      simp only
      rw [h4.phaseTypes]
      cases Sofar.phaseTypes env (Sofar.fillMissing (decide (ih ≠ .raise)) o1.keys o1.conv o1).2 o1.keys with
      | error x => exact ⟨rfl, rfl, h4⟩
      | ok e2 =>
        simp only
        generalize (if ih = .raise then section_ _ missing else [] : Str) = e1
        generalize (if ih = .raise then [] else section_ _ missing : Str) = w1
        split
        · unfold verifyEarly
          simp only
          generalize handleIssues _ _ _ = hh
          cases hh.out with
          | error x => exact ⟨rfl, rfl, h4⟩
          | ok q => exact ⟨rfl, rfl, h4⟩
        · rw [h4.referenceNames]
          exact h4.verifyBody _ _ _ _ _ _

theorem Like.updateDimensions {env : Env} {o o' : Obj} (h : Like env o o') :
    LikeRet env (updateDimensions env o) (updateDimensions env o') := by
  unfold Sofar.updateDimensions
  obtain ⟨h1, h2, h3⟩ := h.verify .ret .write
  simp only [h1, h2, h3.api]
  split
  · exact ⟨rfl, rfl, h3⟩
  · exact ⟨rfl, rfl, h3⟩
  · split
    · exact ⟨rfl, rfl, h3⟩
    · exact ⟨rfl, rfl, h3⟩

theorem Like.getDimension {env : Env} {o o' : Obj} (h : Like env o o') (d : Str) :
    LikeRet env (getDimension env o d) (getDimension env o' d) := by
  unfold Sofar.getDimension
  obtain ⟨h1, h2, h3⟩ := h.updateDimensions
  simp only [h1, h2, h3.api]
  split
  · exact ⟨rfl, rfl, h3⟩
  · split
    · exact ⟨rfl, rfl, h3⟩
    · split
      · exact ⟨rfl, rfl, h3⟩
      · exact ⟨rfl, rfl, h3⟩

end Sofar
