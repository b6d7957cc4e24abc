import Verif.Lemmas.FileOrder
/-!
# The order of the data does not matter for adding missing data
-/
namespace Sofar

/-- the default of a row can be assigned -/
def Assignable (p : Str × Entry) : Prop :=
  (∃ v, normalise p.2.default = .ok v) ∧ p.1 ≠ py% "list_dimensions" ∧ isPrivate p.1 = false

/-- a row that `add_missing` adds -/
def wanted (m opt : Bool) (keys : List Str) (p : Str × Entry) : Bool :=
  ! keys.contains p.1 && ((mandatory p.2.flags && m) || (! mandatory p.2.flags && opt))

theorem setAttr_open {o : Obj} {k : Str} {d : Inp} (hp : o.prot = false) (hk : k ≠ py% "protected") :
    (setAttr o k d).out = .ok () ↔ (∃ v, normalise d = .ok v) ∧ k ≠ py% "list_dimensions" ∧ isPrivate k = false := by
  unfold setAttr
  simp only [hp, Bool.false_and, Bool.and_false, Bool.false_eq_true, if_false, hk]
  cases normalise d with
  | error e => simp
  | ok v =>
    by_cases h1 : k = py% "list_dimensions"
    · simp [h1]
    · cases h2 : isPrivate k <;> simp [h1]

theorem addMissingLoop_iff {m opt : Bool} {keys : List Str} {conv : Dict Entry} {o : Obj} (hp : o.prot = false)
    (hk : py% "protected" ∉ conv.map Prod.fst) :
    (∃ s, (addMissingLoop m opt keys conv o).1 = .ok s) ↔ ∀ p ∈ conv, wanted m opt keys p = true → Assignable p := by
  induction conv generalizing o with
  | nil => simp [addMissingLoop]
  | cons p conv ih =>
    obtain ⟨k, e⟩ := p
    simp only [List.map_cons, List.mem_cons, not_or] at hk
    simp only [addMissingLoop, List.forall_mem_cons]
    by_cases hc : (! keys.contains k && ((mandatory e.flags && m) || (! mandatory e.flags && opt))) = true
    · have hw : wanted m opt keys (k, e) = true := hc
      simp only [if_pos hc, hw, true_implies]
      have hi := setAttr_open (d := e.default) hp (Ne.symm hk.1)
      rcases setAttr_data (o := o) (d := e.default) (Ne.symm hk.1) with ⟨x, hx⟩ | ⟨w, hw, hpr, hs⟩
      · rw [hx] at hi
        have : ¬ Assignable (k, e) := fun h => by simpa using hi.2 h
        simp [hx, this]
      · rw [hs] at hi ⊢
        have h1 : Assignable (k, e) := hi.1 rfl
        have h2 := ih (o := { o with attrs := Dict.put o.attrs k w }) hp hk.2
        rw [← h2]
        simp only
        cases hq : (addMissingLoop m opt keys conv { o with attrs := Dict.put o.attrs k w }).1 with
        | error x => simp
        | ok s' => simp [h1]
    · have hw : wanted m opt keys (k, e) = false := by simpa [wanted] using hc
      simp only [if_neg hc, hw, Bool.false_eq_true, false_implies, true_and]
      exact ih hp hk.2

theorem addMissing_iff {env : Env} {o o1 : Obj} {m opt vb : Bool} (hr : resetConvention env o = .ok o1)
    (hk : py% "protected" ∉ o1.conv.map Prod.fst) : (addMissing env o m opt vb).out = .ok () ↔
      ∀ p ∈ o1.conv, wanted m opt o1.keys p = true → Assignable p := by
  rw [← addMissingLoop_iff (o := { o1 with prot := false }) rfl hk]
  unfold addMissing
  simp only [hr]
  cases (addMissingLoop m opt o1.keys o1.conv { o1 with prot := false }).1 with
  | error x => simp
  | ok s => simp

theorem added_mem {m opt : Bool} {keys : List Str} {conv : Dict Entry} {l : List (Str × Val)} (hn : (conv.map Prod.fst).Nodup)
    (h : Added m opt keys conv l) (k : Str) (v : Val) : (k, v) ∈ l ↔
      ∃ e, (k, e) ∈ conv ∧ wanted m opt keys (k, e) = true ∧ normalise e.default = .ok v := by
  constructor
  · intro hm
    obtain ⟨-, e, h1, h2⟩ := h.values k v hm
    have h3 : k ∈ l.map Prod.fst := List.mem_map.2 ⟨_, hm, rfl⟩
    rw [h.names] at h3
    obtain ⟨⟨k', e'⟩, h4, rfl⟩ := List.mem_map.1 h3
    rw [List.mem_filter] at h4
    have : e' = e := by
      have a := Dict.get?_of_mem hn h4.1
      have b := Dict.get?_of_mem hn h1
      rw [a] at b
      simpa using b
    subst this
    exact ⟨e', h1, h4.2, h2⟩
  · rintro ⟨e, h1, h2, h3⟩
    have h4 : k ∈ l.map Prod.fst := by
      rw [h.names]
      exact List.mem_map.2 ⟨(k, e), List.mem_filter.2 ⟨h1, h2⟩, rfl⟩
    obtain ⟨⟨k', v'⟩, h5, rfl⟩ := List.mem_map.1 h4
    obtain ⟨-, e', h6, h7⟩ := h.values _ _ h5
    have : e' = e := by
      have a := Dict.get?_of_mem hn h6
      have b := Dict.get?_of_mem hn h1
      rw [a] at b
      simpa using b
    subst this
    rw [h3] at h7
    cases h7
    exact h5

theorem reordered_addMissing {env : Env} {o o' : Obj} (h : Spec.Reordered o o') {m opt vb vb' : Bool}
    (hk : ∀ o1, resetConvention env o = .ok o1 → py% "protected" ∉ o1.conv.map Prod.fst)
    (ho : (addMissing env o m opt vb).out = .ok ()) :
    (addMissing env o' m opt vb').out = .ok () ∧
      Spec.Reordered (addMissing env o m opt vb).obj (addMissing env o' m opt vb').obj := by
  have c1 : ∀ c, o.custom = some c → (c.map Prod.fst).Nodup := by
    intro c hc
    rcases h.custom with ⟨e1, -⟩ | ⟨d, d', e1, -, hs⟩
    · rw [e1] at hc; cases hc
    · rw [e1] at hc; cases hc; exact hs.2
  have c2 : ∀ c, o'.custom = some c → (c.map Prod.fst).Nodup := by
    intro c hc
    rcases h.custom with ⟨-, e1⟩ | ⟨d, d', -, e1, hs⟩
    · rw [e1] at hc; cases hc
    · rw [e1] at hc; cases hc; exact sameEntries_nodup hs
  rcases reordered_reset (env := env) h with ⟨x, h1, h2⟩ | ⟨o1, o1', h1, h2, h3, a1, a2⟩
  · unfold addMissing at ho
    simp [h1] at ho
  · have k1 := hk o1 h1
    have k2 : py% "protected" ∉ o1'.conv.map Prod.fst := by
      intro hm
      obtain ⟨p, hp, e⟩ := List.mem_map.1 hm
      exact k1 (List.mem_map.2 ⟨p, (h3.convMem p).1 hp, e⟩)
    have hw : ∀ p, wanted m opt o1'.keys p = wanted m opt o1.keys p := by
      intro p
      unfold wanted
      have : o1'.keys.contains p.1 = o1.keys.contains p.1 := by
        rw [Bool.eq_iff_iff, List.contains_iff_mem, List.contains_iff_mem]
        exact h3.mem_keys
      rw [this]
    have ho' : (addMissing env o' m opt vb').out = .ok () := by
      rw [addMissing_iff h2 k2]
      intro p hp hq
      exact (addMissing_iff h1 k1).1 ho p ((h3.convMem p).1 hp) (by rw [← hw]; exact hq)
    refine ⟨ho', ?_⟩
    have e1 : (addMissing env o m opt vb).obj.conv = o1.conv := by
      unfold addMissing
      simp only [h1]
      split <;> simp [addMissingLoop_conv]
    have e2 : (addMissing env o' m opt vb').obj.conv = o1'.conv := by
      unfold addMissing
      simp only [h2]
      split <;> simp [addMissingLoop_conv]
    obtain ⟨p1, l, hr, hn, hl, hln, hnew, hobj⟩ := addMissing_ok c1 ho (by rw [e1]; exact k1)
    obtain ⟨p1', l', hr', hn', hl', hln', hnew', hobj'⟩ := addMissing_ok c2 ho' (by rw [e2]; exact k2)
    rw [h1] at hr
    cases hr
    rw [h2] at hr'
    cases hr'
    rw [hobj, hobj']
    have hkeys : o1.keys = o.keys := by unfold Obj.keys; rw [a1]
    have hkeys' : o1'.keys = o'.keys := by unfold Obj.keys; rw [a2]
    have hperm : l'.Perm l := by
      rw [List.perm_ext_iff_of_nodup (List.Nodup.of_map _ hln') (List.Nodup.of_map _ hln)]
      rintro ⟨k, v⟩
      rw [added_mem hn hl, added_mem hn' hl']
      simp only [h3.convMem, ← hkeys, ← hkeys', hw]
    refine ⟨⟨h.attrs.1.append hperm, ?_⟩, (reordered_loaded h h1 h2).custom⟩
    rw [List.map_append, List.nodup_append]
    exact ⟨h.attrs.2, hln, fun a ha b hb hab => hnew b hb (hab ▸ ha)⟩

end Sofar
