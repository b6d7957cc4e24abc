import Verif.Lemmas.WriteOrder
import Verif.Spec.StreamOrder
/-!
# Streams of files with the same content in another order
-/
namespace Sofar

theorem sameContent_vars {f f' : NcFile} (h : Spec.SameContent f f') (hn : Spec.OnceNames f) (k : Str) :
    (Dict.get? f.vars k = none ∧ Dict.get? f'.vars k = none) ∨
      ∃ x x', Dict.get? f.vars k = some x ∧ Dict.get? f'.vars k = some x' ∧ Spec.SameVariable x x' := by
  obtain ⟨vars, hp, hf⟩ := h.vars
  have e : Dict.get? vars k = Dict.get? f.vars k := get?_perm ⟨hp, hn.vars⟩ k
  rw [← e]
  clear e hp
  revert hf
  generalize f'.vars = l
  intro hf
  induction hf with
  | nil => exact Or.inl ⟨rfl, rfl⟩
  | @cons p p' v v' hd _ ih =>
    obtain ⟨n, x⟩ := p
    obtain ⟨n', x'⟩ := p'
    obtain ⟨h1, h2⟩ := hd
    simp only at h1 h2
    subst h1
    by_cases hk : n' = k
    · exact Or.inr ⟨x, x', by simp [Dict.get?, hk], by simp [Dict.get?, hk], h2⟩
    · simpa [Dict.get?, hk] using ih

theorem stream_same {nc : Nc} {f f' : NcFile} (h : Spec.SameContent f f') (hn : Spec.OnceNames f) (name : Str) :
    Spec.SameAnswer (streamGet nc f name) (streamGet nc f' name) := by
  have look : ∀ n a, Spec.SameAnswer (streamLookup nc f name n a) (streamLookup nc f' name n a) := by
    intro n a
    unfold streamLookup
    rcases sameContent_vars h hn n with ⟨h1, h2⟩ | ⟨x, x', h1, h2, h3⟩
    · simp only [h1, h2]
      rw [get?_perm ⟨h.attrs, hn.globals⟩]
      cases Dict.get? f.attrs n <;> simp [Spec.SameAnswer, Spec.SameGot]
    · simp only [h1, h2]
      cases a with
      | none => exact h3
      | some a =>
        unfold variableAttr
        simp only
        rw [get?_perm ⟨h3.attrs, hn.sub n x (Dict.mem_of_get? h1)⟩]
        split
        · rfl
        · cases Dict.get? x.attrs a <;> simp [Spec.SameAnswer, Spec.SameGot]
  unfold streamGet
  split
  · rfl
  · split
    · exact look _ _
    · exact look _ _
    · rfl

theorem onceNames_empty : Spec.OnceNames .empty := ⟨by simp [NcFile.empty], by simp [NcFile.empty], by simp [NcFile.empty]⟩

theorem onceNames_var {f f' : NcFile} (h : Spec.OnceNames f) {n : Str} {x : NcVar} (hx : (x.attrs.map Prod.fst).Nodup)
    (ha : f'.attrs = f.attrs) (hv : f'.vars = Dict.put f.vars n x) : Spec.OnceNames f' := by
  refine ⟨by rw [ha]; exact h.globals, by rw [hv]; exact Dict.nodup_put n x h.vars, fun m y hm => ?_⟩
  rw [hv] at hm
  have := Dict.get?_of_mem (Dict.nodup_put n x h.vars) hm
  rw [Dict.get?_put] at this
  split at this
  · cases this; exact hx
  · exact h.sub m y (Dict.mem_of_get? this)

theorem putAttr_nodup {nc : Nc} {d d' : Dict Val} {n t : Str} (h : putAttr nc d n t = .ok d') (hd : (d.map Prod.fst).Nodup) :
    (d'.map Prod.fst).Nodup := by
  unfold putAttr at h
  split at h
  · simp at h
  · split at h
    · simp at h
    · split at h
      · simp at h
      · cases h; exact Dict.nodup_put _ _ hd

theorem varAttrs_nodup {env : Env} {nc : Nc} {o : Obj} {n : Nat} (l : List Str) {d : Dict Val} (hd : (d.map Prod.fst).Nodup) :
    ((varAttrs env nc o n l d).2.map Prod.fst).Nodup := by
  induction l generalizing d with
  | nil => exact hd
  | cons k l ih =>
    unfold varAttrs
    cases o.getAttr k with
    | error e => exact hd
    | ok v =>
      simp only
      cases hp : putAttr nc d (k.drop n) (pyStr env v) with
      | error e => exact hd
      | ok d' => exact ih (putAttr_nodup hp hd)

theorem writeDims_once {nc : Nc} (l : Dict Nat) {f : NcFile} (h : Spec.OnceNames f) : Spec.OnceNames (writeDims nc l f).2 := by
  induction l generalizing f with
  | nil => exact h
  | cons p l ih =>
    obtain ⟨d, n⟩ := p
    unfold writeDims
    cases hc : createDimension nc f d n with
    | error e => exact h
    | ok f' =>
      refine ih ?_
      unfold createDimension at hc
      split at hc
      · simp at hc
      · split at hc
        · simp at hc
        · cases hc; exact ⟨h.globals, h.vars, h.sub⟩

theorem writeGlobals_once {env : Env} {nc : Nc} {o : Obj} (l : List Str) {f : NcFile} (h : Spec.OnceNames f) :
    Spec.OnceNames (writeGlobals env nc o l f).2 := by
  induction l generalizing f with
  | nil => exact h
  | cons k l ih =>
    unfold writeGlobals
    cases o.getAttr k with
    | error e => exact h
    | ok v =>
      simp only
      cases hp : putAttr nc f.attrs (k.drop 7) (pyStr env v) with
      | error e => exact h
      | ok d => exact ih ⟨putAttr_nodup hp h.globals, h.vars, h.sub⟩

theorem writeVariable_once {env : Env} {nc : Nc} {o : Obj} {c : Nat} {key dtype dims : Str} {S : Nat} {v : Val} {f : NcFile}
    (h : Spec.OnceNames f) : Spec.OnceNames (writeVariable env nc o c key dtype dims S v f).2 := by
  unfold writeVariable
  cases formatFor v dtype dims S key with
  | error e => exact h
  | ok q =>
    obtain ⟨k, a⟩ := q
    simp only
    cases hc : createVariable nc f (ncName key) k (dims.map (fun c => [c])) c with
    | error e => exact h
    | ok f1 =>
      have h1 : Spec.OnceNames f1 := by
        unfold createVariable at hc
        split at hc
        · simp at hc
        · split at hc
          · simp at hc
          · split at hc
            · simp at hc
            · split at hc
              · simp at hc
              · cases hc; exact onceNames_var h (by simp) rfl rfl
      simp only
      cases netcdfData env k a with
      | error e => exact h1
      | ok b =>
        simp only
        cases ha : assignVariable f1 (ncName key) k (dims.map (fun c => [c])) b with
        | error e => exact h1
        | ok f2 =>
          have h2 : Spec.OnceNames f2 := by
            unfold assignVariable at ha
            split at ha
            · simp at ha
            · split at ha
              · simp at ha
              · split at ha
                · simp at ha
                · cases ha; exact onceNames_var h1 (by simp) rfl rfl
          simp only [setVarAttrs]
          split
          · exact onceNames_var h2 (varAttrs_nodup _ (by simp)) rfl rfl
          · exact h2

theorem writeKeys_once {env : Env} {nc : Nc} {o : Obj} {c : Nat} (l : List Str) {f : NcFile} (h : Spec.OnceNames f) :
    Spec.OnceNames (writeKeys env nc o c l f).2 := by
  induction l generalizing f with
  | nil => exact h
  | cons k l ih =>
    have h1 : Spec.OnceNames (writeKey env nc o c k f).2 := by
      unfold writeKey
      repeat' split
      all_goals first | exact h | exact writeVariable_once h
    unfold writeKeys
    simp only
    split
    · exact h1
    · exact ih h1

theorem writeFile_once {env : Env} {nc : Nc} {o : Obj} {c : Nat} : Spec.OnceNames (writeFile env nc o c).2 := by
  unfold writeFile
  cases o.api with
  | none => exact onceNames_empty
  | some api =>
    have h1 := writeDims_once (nc := nc) api onceNames_empty
    simp only
    split
    · exact h1
    · have h2 := writeGlobals_once (env := env) (nc := nc) (o := o) (o.keys.filter (fun k => Str.startsWith k (py% "GLOBAL_"))) h1
      split
      · exact h2
      · exact writeKeys_once _ h2

theorem writeSofa_once {env : Env} {nc : Nc} {fs : FS} {name path : Str} {o : Obj} {c : Nat} {f : NcFile}
    (hp : withSuffix name = .ok path) (h : (writeSofa env nc fs name o c).out = .ok ())
    (hf : Dict.get? (writeSofa env nc fs name o c).fs.files path = some (.nc f)) : Spec.OnceNames f := by
  unfold writeSofa writeSofaG at h hf
  simp only [hp, if_true] at h hf
  cases hl : (checkLatest env o).1 with
  | error x => simp [hl] at h
  | ok u =>
    simp only [hl] at h hf
    cases hv : (verify env o .raise .write).out with
    | error x => simp [hv] at h
    | ok r =>
      simp only [hv, writeDisk] at h hf
      cases hc : fs.canWrite path with
      | false => simp [hc] at h
      | true =>
        simp only [hc, Bool.not_true, Bool.false_eq_true, if_false, Dict.get?_put_self, Option.some.injEq,
          DiskFile.nc.injEq] at hf
        rw [← hf]
        exact writeFile_once

end Sofar
