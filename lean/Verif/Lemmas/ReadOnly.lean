import Verif.Spec.ReadOnly
import Verif.Lemmas.Upgrade
import Verif.Lemmas.History
import Verif.Lemmas.IO
/-!
# The list of read only names never changes
-/
namespace Sofar

theorem setAttr_readOnly (o : Obj) (n : Str) (v : Inp) : (setAttr o n v).obj.readOnly = o.readOnly := by
  rcases setAttr_cases o n v with ⟨e, _, h, _⟩ | ⟨b, _, _, _, h⟩ | ⟨w, _, _, _, _, h, _⟩ <;> rw [h]

theorem delAttr_readOnly (o : Obj) (n : Str) : (delAttr o n).obj.readOnly = o.readOnly := by
  rcases delAttr_cases o n with ⟨e, _, h⟩ | ⟨_, _, h⟩ <;> rw [h]

theorem addCustomApiEntry_readOnly (o : Obj) (k : Str) (v : Inp) (f d : Option Str) (t : Str) :
    (addCustomApiEntry o k v f d t).obj.readOnly = o.readOnly := by
  have h : ∀ o1 : Obj, o1.readOnly = o.readOnly → (setAttr o1 k v).obj.readOnly = o.readOnly :=
    fun o1 h1 => (setAttr_readOnly o1 k v).trans h1
  have hr : (registerCustom { o with prot := false } k (customEntry f (d.map customDims) t)).readOnly = o.readOnly := by
    unfold registerCustom
    split <;> rfl
  unfold addCustomApiEntry
  simp only
  split <;> exact h _ hr

theorem addEntry_readOnly (o : Obj) (n : Str) (v : Inp) (t : Str) (d : Option Str) :
    (addEntry o n v t d).obj.readOnly = o.readOnly := by
  unfold addEntry
  split
  · rfl
  · exact addCustomApiEntry_readOnly ..

theorem resetConvention_readOnly {env : Env} {o o' : Obj} (h : resetConvention env o = .ok o') :
    o'.readOnly = o.readOnly := by
  obtain ⟨c, k, rfl, _⟩ := resetConvention_frame h
  rfl

theorem addMissingLoop_readOnly (m opt : Bool) (keys : List Str) (l : Dict Entry) (o : Obj) :
    (addMissingLoop m opt keys l o).2.readOnly = o.readOnly := by
  induction l generalizing o with
  | nil => rfl
  | cons p l ih =>
    obtain ⟨k, e⟩ := p
    unfold addMissingLoop
    simp only
    split
    · split
      · exact setAttr_readOnly ..
      · split <;> exact (ih _).trans (setAttr_readOnly ..)
    · exact ih o

theorem addMissing_readOnly (env : Env) (o : Obj) (m opt verbose : Bool) :
    (addMissing env o m opt verbose).obj.readOnly = o.readOnly := by
  unfold addMissing
  split
  · rfl
  · rename_i o1 h
    have h1 := resetConvention_readOnly h
    have h2 : (addMissingLoop m opt o1.keys o1.conv { o1 with prot := false }).2.readOnly = o1.readOnly :=
      addMissingLoop_readOnly m opt o1.keys o1.conv { o1 with prot := false }
    simp only
    split <;> exact h2.trans h1

theorem verify_readOnly (env : Env) (o : Obj) (ih : IH) (mode : Mode) : (verify env o ih mode).obj.readOnly = o.readOnly :=
  (verifyG_frame _ env o ih mode).readOnly

theorem step_readOnly (env : Env) (o : Obj) (op : Op) : (step env o op).readOnly = o.readOnly := by
  cases op with
  | set n v => exact setAttr_readOnly ..
  | delete n => exact delAttr_readOnly ..
  | addVariable n v t d => exact addEntry_readOnly ..
  | addAttribute n v => exact addEntry_readOnly ..
  | addMissing m opt vb => exact addMissing_readOnly ..
  | verify ih mode => exact verify_readOnly ..
  | getDimension d =>
    simp only [step, getDimension_obj]
    exact verify_readOnly ..

theorem putTarget_readOnly (l : List Str) (o : Obj) : (putTarget l o).2.readOnly = o.readOnly := by
  induction l generalizing o with
  | nil => rfl
  | cons k l ih =>
    unfold putTarget
    split
    · rfl
    · simp only
      split
      · exact setAttr_readOnly ..
      · exact (ih _).trans (setAttr_readOnly ..)

theorem moveOne_readOnly (o : Obj) (s : Str) (m : Move) : (moveOne o s m).obj.readOnly = o.readOnly := by
  unfold moveOne
  simp only
  split
  · rfl
  · split
    · exact delAttr_readOnly ..
    · split
      · exact delAttr_readOnly ..
      · split <;> exact (setAttr_readOnly ..).trans (delAttr_readOnly ..)

theorem moveAll_readOnly (l : Dict Move) (o : Obj) : (moveAll l o).obj.readOnly = o.readOnly := by
  induction l generalizing o with
  | nil => rfl
  | cons p l ih =>
    obtain ⟨s, m⟩ := p
    unfold moveAll
    simp only
    split
    · exact moveOne_readOnly ..
    · exact (ih _).trans (moveOne_readOnly ..)

theorem removeAll_readOnly (l : List Str) (o : Obj) : (removeAll l o).obj.readOnly = o.readOnly := by
  induction l generalizing o with
  | nil => rfl
  | cons t l ih =>
    unfold removeAll
    simp only
    split
    · exact delAttr_readOnly ..
    · exact (ih _).trans (delAttr_readOnly ..)

theorem upgradeVerify_readOnly (env : Env) (o : Obj) (arg : VerifyArg) :
    (upgradeVerify env o arg).obj.readOnly = o.readOnly := by
  unfold upgradeVerify
  simp only
  repeat' split
  all_goals first | rfl | exact verify_readOnly ..

theorem upgradeData_readOnly (env : Env) (o : Obj) (u : UpgradeDef) (arg : VerifyArg) :
    (upgradeData env o u arg).obj.readOnly = o.readOnly := by
  have h1 := moveAll_readOnly u.move o
  have h2 := (removeAll_readOnly u.remove (moveAll u.move o).obj).trans h1
  have h3 := (addMissing_readOnly env (removeAll u.remove (moveAll u.move o).obj).obj true false true).trans h2
  unfold upgradeData
  simp only
  split
  · exact h1
  · split
    · exact h2
    · split
      · exact h3
      · exact (upgradeVerify_readOnly ..).trans h3

theorem upgradeTo_readOnly (env : Env) (o : Obj) (c : Str) (v sv : Val) (t : Str) (u : UpgradeDef) (arg : VerifyArg) :
    (upgradeTo env o c v sv t u arg).obj.readOnly = o.readOnly := by
  unfold upgradeTo
  split
  · split
    · rfl
    · simp only
      split
      · rfl
      · split
        · exact (putTarget_readOnly ..)
        · exact (upgradeData_readOnly ..).trans (putTarget_readOnly ..)
  · rfl

theorem upgradeConvention_readOnly (env : Env) (o : Obj) (target : Option Str) (arg : VerifyArg) :
    (upgradeConvention env o target arg).obj.readOnly = o.readOnly := by
  rcases upgradeConvention_cases env o target arg with (h | h) | ⟨t, u, o1, c, v, sv, _, _, h1, h2⟩
  · rw [h]
  · exact resetConvention_readOnly h
  · rw [h2]
    exact (upgradeTo_readOnly ..).trans (resetConvention_readOnly h1)

theorem Later.readOnly {env : Env} {o o' : Obj} (h : Spec.Later env o o') : o'.readOnly = o.readOnly := by
  induction h with
  | start => rfl
  | call op _ ih => exact (step_readOnly ..).trans ih
  | upgrade t a _ ih => exact (upgradeConvention_readOnly ..).trans ih

theorem addDefaults_readOnly {m : Bool} {l : Dict Entry} {o o' : Obj} (h : addDefaults m l o = .ok o') :
    o'.readOnly = o.readOnly := by
  induction l generalizing o with
  | nil => cases h; rfl
  | cons p l ih =>
    obtain ⟨k, e⟩ := p
    unfold addDefaults at h
    split at h
    · exact ih h
    · split at h
      · cases h
      · simp only at h
        split at h
        · cases h
        · exact (ih h).trans (setAttr_readOnly ..)

theorem initSofa_readOnly {env : Env} {c : Str} {m : Bool} {ver : VersionArg} {a : VerifyArg} {o : Obj}
    {conv : Dict Entry} (h : (initSofa env c m ver a).out = .ok o) (hl : loadConvention env c ver = .ok conv) :
    o.readOnly = .ofList ((conv.filter (fun p => readOnlyFlag p.2.flags)).map Prod.fst) := by
  obtain ⟨conv', o0, h1, h2, _, _, h5⟩ := initSofa_ok h
  rw [hl] at h1
  cases h1
  rw [h5]
  unfold conventionToSofa at h2
  split at h2
  · cases h2
  · rename_i o1 hd
    cases h2
    exact addDefaults_readOnly hd

theorem loadItem_readOnly {st st' : Reading} {i : Item} (h : loadItem st i = .ok st') :
    st'.obj.readOnly = st.obj.readOnly := by
  unfold loadItem at h
  simp only at h
  split at h
  · split at h
    · cases h
    · cases h
      exact setAttr_readOnly ..
  · split at h
    · cases h
    · cases h
      exact addCustomApiEntry_readOnly ..

theorem loadItems_readOnly {l : List Item} {st st' : Reading} (h : loadItems l st = .ok st') :
    st'.obj.readOnly = st.obj.readOnly := by
  induction l generalizing st with
  | nil => cases h; rfl
  | cons i l ih =>
    unfold loadItems at h
    split at h
    · cases h
    · rename_i s hs
      exact (ih h).trans (loadItem_readOnly hs)

theorem readVars_readOnly {nc : Nc} {l : Dict NcVar} {st st' : Reading} (h : (readVars nc l st).1 = .ok st') :
    st'.obj.readOnly = st.obj.readOnly := by
  induction l generalizing st with
  | nil => cases h; rfl
  | cons p l ih =>
    obtain ⟨n, v⟩ := p
    unfold readVars at h
    simp only at h
    split at h
    · cases h
    · split at h
      · cases h
      · rename_i s hs
        exact (ih h).trans (loadItems_readOnly hs)

theorem deleteExtra_readOnly {all ks : List Str} {o o' : Obj} (h : deleteExtra all ks o = .ok o') :
    o'.readOnly = o.readOnly := by
  induction ks generalizing o with
  | nil => cases h; rfl
  | cons k ks ih =>
    unfold deleteExtra at h
    split at h
    · exact ih h
    · simp only at h
      split at h
      · cases h
      · exact (ih h).trans (delAttr_readOnly ..)

theorem loadFile_readOnly {nc : Nc} {f : NcFile} {new o : Obj} {verbose : Bool}
    (h : (loadFile nc f new verbose).out = .ok o) : o.readOnly = new.readOnly := by
  unfold loadFile at h
  split at h
  · cases h
  · split at h
    · cases h
    · rename_i hi
      simp only at h
      split at h
      · cases h
      · rename_i hv
        split at h
        · cases h
        · rename_i hd
          cases h
          exact (deleteExtra_readOnly hd).trans ((readVars_readOnly hv).trans (loadItems_readOnly hi))

/-- what the stored list says about a name -/
theorem readOnly_flag {conv : Dict Entry} (hn : (conv.map Prod.fst).Nodup) (k : Str) :
    k ∈ (conv.filter (fun p => readOnlyFlag p.2.flags)).map Prod.fst ↔ Spec.ReadOnlyIn conv k := by
  constructor
  · intro h
    obtain ⟨⟨k', e⟩, h1, rfl⟩ := List.mem_map.1 h
    obtain ⟨h2, h3⟩ := List.mem_filter.1 h1
    cases hf : e.flags with
    | none => simp [readOnlyFlag, hf] at h3
    | some f => exact ⟨e, f, Dict.get?_of_mem hn h2, hf, by simpa [readOnlyFlag, hf] using h3⟩
  · rintro ⟨e, f, h1, h2, h3⟩
    exact List.mem_map.2 ⟨(k, e), List.mem_filter.2 ⟨Dict.mem_of_get? h1, by simp [readOnlyFlag, h2, h3]⟩, rfl⟩

theorem readOnly_has_iff {l : List Str} (h : ∀ k ∈ l, ∃ j, j ≠ k ∧ j ∈ l) (k : Str) :
    (ReadOnly.ofList l).has k = true ↔ k ∈ l := by
  refine ⟨?_, readOnly_has_of_mem⟩
  intro hk
  match l, h with
  | [], _ => simp [ReadOnly.ofList, ReadOnly.has] at hk
  | [s], h =>
    obtain ⟨j, h1, h2⟩ := h s (by simp)
    exact absurd (List.mem_singleton.1 h2) h1
  | a :: b :: l, _ => simpa [ReadOnly.ofList, ReadOnly.has] using hk

theorem guards_of_list {o : Obj} {conv : Dict Entry} {k : Str}
    (ho : o.readOnly = .ofList ((conv.filter (fun p => readOnlyFlag p.2.flags)).map Prod.fst))
    (hn : (conv.map Prod.fst).Nodup) (hs : Spec.NotSingle conv) (hp : o.prot = true) (hk : Spec.IsData o k)
    (hname : Spec.DataName k) : Spec.Guards o k (Spec.ReadOnlyIn conv k) := by
  have hro : o.readOnly.has k = true ↔ Spec.ReadOnlyIn conv k := by
    rw [ho, readOnly_has_iff, readOnly_flag hn]
    intro j hj
    obtain ⟨i, h1, h2⟩ := hs j ((readOnly_flag hn j).1 hj)
    exact ⟨i, h1, (readOnly_flag hn i).2 h2⟩
  have hat : o.hasAttr k = true := (hasAttr_public o k hname.1).2 (Or.inl ((Dict.has_iff_mem _ _).2 hk))
  constructor
  · intro h x
    unfold setAttr
    rw [if_neg (by simp [hat]), if_pos (by simp [hro.2 h, hp])]
    exact ⟨_, rfl⟩
  · intro h v
    have hf : o.readOnly.has k = false := by
      cases hc : o.readOnly.has k with
      | false => rfl
      | true => exact absurd (hro.1 hc) h
    have : setAttr o k (.val v) = ⟨.ok (), { o with attrs := Dict.put o.attrs k v }, []⟩ := by
      unfold setAttr
      rw [if_neg (by simp [hat]), if_neg (by simp [hf]), if_neg hname.2.2]
      simp only [normalise]
      rw [if_neg hname.2.1, if_neg (by simp [(show isPrivate k = false from hname.1)])]
    rw [this]
    refine ⟨rfl, by simp, fun j hj => ?_⟩
    simp [Dict.get?_put, hj]

end Sofar
