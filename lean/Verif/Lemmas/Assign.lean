import Verif.Spec.Assign
import Verif.Lemmas.Order
import Verif.Lemmas.Attr
import Verif.Lemmas.Write
import Verif.Lemmas.ExtendedRead
/-!
# Sequences of assignments
-/
namespace Sofar

theorem setAttr_done {o : Obj} {n : Str} {v : Inp} (hn : n ≠ py% "protected") (h : (setAttr o n v).out = .ok ()) :
    ∃ w, normalise v = .ok w ∧ setAttr o n v = ⟨.ok (), { o with attrs := Dict.put o.attrs n w }, []⟩ := by
  rcases setAttr_cases o n v with ⟨e, h1, _⟩ | ⟨b, _, h1, _⟩ | ⟨w, hw, _, _, _, h2, _⟩
  · simp [h] at h1
  · exact absurd h1 hn
  · exact ⟨w, hw, h2⟩

/-- What an assignment to a name checks depends only on the protection, the read only names and whether the name is known. -/
theorem setAttr_transfer {o o' : Obj} {n : Str} {v u : Inp} {w : Val} (hn : n ≠ py% "protected") (h : (setAttr o n v).out = .ok ())
    (hp : o'.prot = o.prot) (hr : o'.readOnly = o.readOnly) (ha : o.hasAttr n = true → o'.hasAttr n = true)
    (hu : normalise u = .ok w) : setAttr o' n u = ⟨.ok (), { o' with attrs := Dict.put o'.attrs n w }, []⟩ := by
  unfold setAttr at h ⊢
  rw [hp, hr, hu]
  split at h
  · simp at h
  · rename_i g1
    split at h
    · simp at h
    · rename_i g2
      have g1' : ¬ (o.prot && ! o'.hasAttr n) = true := by
        intro g
        apply g1
        cases hp' : o.prot
        · simp [hp'] at g
        · simp only [hp', Bool.true_and, Bool.not_eq_true'] at g ⊢
          cases hh : o.hasAttr n with
          | false => rfl
          | true => rw [ha hh] at g; simp at g
      rw [if_neg g1', if_neg g2, if_neg hn]
      cases hv : normalise v with
      | error e => rw [hv] at h; simp at h
      | ok w' =>
        rw [hv] at h
        simp only at h ⊢
        split at h
        · simp at h
        · rename_i g3
          split at h
          · simp at h
          · rename_i g4
            rw [if_neg g3, if_neg g4]

theorem hasAttr_put {o : Obj} {n k : Str} {w : Val} (h : o.hasAttr n = true) :
    ({ o with attrs := Dict.put o.attrs k w } : Obj).hasAttr n = true := by
  unfold Obj.hasAttr at h ⊢
  simp only [Bool.or_eq_true] at h ⊢
  rcases h with ((h | h) | h) | h
  · left; left; left; rw [Dict.has_put]; simp [h]
  · left; left; right; exact h
  · left; right; exact h
  · right; exact h

theorem hasAttr_of_put {o : Obj} {n k : Str} {w : Val} (hk : n ≠ k)
    (h : ({ o with attrs := Dict.put o.attrs k w } : Obj).hasAttr n = true) : o.hasAttr n = true := by
  unfold Obj.hasAttr at h ⊢
  simp only [Bool.or_eq_true] at h ⊢
  rcases h with ((h | h) | h) | h
  · left; left; left; rw [Dict.has_put] at h; simpa [hk] using h
  · left; left; right; exact h
  · left; right; exact h
  · right; exact h

/-- the value stored for an assigned value -/
def storedOf (v : Inp) : Val := (normalise v).toOption.getD (.str [])

/-- the values of all assignments, by names -/
def storedAll (l : List (Str × Inp)) : List (Str × Val) := l.map (fun p => (p.1, storedOf p.2))

theorem assigned_iff {l : List (Str × Inp)} : ∀ {o o' : Obj}, py% "protected" ∉ l.map Prod.fst →
    (Spec.Assigned o l o' ↔ (∀ p ∈ l, (setAttr o p.1 p.2).out = .ok ()) ∧
      o' = { o with attrs := (storedAll l).foldl (fun d p => Dict.put d p.1 p.2) o.attrs }) := by
  induction l with
  | nil =>
    intro o o' _
    constructor
    · intro h
      cases h
      exact ⟨by simp, rfl⟩
    · rintro ⟨_, rfl⟩
      exact .nil _
  | cons x l ih =>
    obtain ⟨n, v⟩ := x
    intro o o' hpr
    have hne : n ≠ py% "protected" := fun e => hpr (by simp [e])
    have hpr' : py% "protected" ∉ l.map Prod.fst := fun hm => hpr (List.mem_cons_of_mem _ hm)
    constructor
    · intro h
      cases h with
      | cons h ht =>
        obtain ⟨w, hw, hs⟩ := setAttr_done hne h
        rw [hs] at ht
        obtain ⟨h1, h2⟩ := (ih hpr').1 ht
        have hst : storedOf v = w := by simp [storedOf, hw, Except.toOption]
        refine ⟨fun p hp => ?_, by rw [h2]; simp [storedAll, hst]⟩
        rcases List.mem_cons.1 hp with rfl | hp
        · exact h
        · have hp1 : p.1 ≠ py% "protected" := fun e => hpr' (List.mem_map.2 ⟨p, hp, e⟩)
          obtain ⟨u, hu, _⟩ := setAttr_done hp1 (h1 p hp)
          by_cases e : p.1 = n
          · rw [e, setAttr_transfer (o' := o) hne h rfl rfl id hu]
          · rw [setAttr_transfer (o' := o) hp1 (h1 p hp) rfl rfl (hasAttr_of_put e) hu]
    · rintro ⟨h1, rfl⟩
      have h := h1 (n, v) List.mem_cons_self
      obtain ⟨w, hw, hs⟩ := setAttr_done hne h
      have hst : storedOf v = w := by simp [storedOf, hw, Except.toOption]
      refine .cons h ?_
      rw [hs]
      refine (ih hpr').2 ⟨fun p hp => ?_, by simp [storedAll, hst]⟩
      have hp1 : p.1 ≠ py% "protected" := fun e => hpr' (List.mem_map.2 ⟨p, hp, e⟩)
      obtain ⟨u, hu, _⟩ := setAttr_done hp1 (h1 p (List.mem_cons_of_mem _ hp))
      rw [setAttr_transfer (o' := { o with attrs := Dict.put o.attrs n w }) hp1 (h1 p (List.mem_cons_of_mem _ hp)) rfl rfl
        hasAttr_put hu]

theorem keys_foldl_put_of_mem {V : Type} (l : List (Str × V)) : ∀ (d : Dict V), (∀ p ∈ l, p.1 ∈ Dict.keys d) →
    Dict.keys (l.foldl (fun d p => Dict.put d p.1 p.2) d) = Dict.keys d := by
  induction l with
  | nil => intro d _; rfl
  | cons p l ih =>
    intro d h
    have hk : Dict.keys (Dict.put d p.1 p.2) = Dict.keys d :=
      Dict.keys_put_of_has _ ((Dict.has_iff_mem _ _).2 (h p List.mem_cons_self))
    rw [List.foldl_cons, ih _ (fun q hq => by rw [hk]; exact h q (List.mem_cons_of_mem _ hq)), hk]

theorem storedAll_names (l : List (Str × Inp)) : (storedAll l).map Prod.fst = l.map Prod.fst := by
  simp [storedAll, Function.comp_def]

/-- assignments to different names in any order -/
theorem assigned_order {o o' : Obj} {l l' : List (Str × Inp)} (ho : (o.attrs.map Prod.fst).Nodup) (hl : l'.Perm l)
    (hn : (l.map Prod.fst).Nodup) (hp : py% "protected" ∉ l.map Prod.fst) (h : Spec.Assigned o l o') :
    ∃ o'', Spec.Assigned o l' o'' ∧ o''.attrs.Perm o'.attrs ∧ o'' = { o' with attrs := o''.attrs } ∧
      ((∀ p ∈ l, p.1 ∈ o.attrs.map Prod.fst) → o'' = o') := by
  obtain ⟨h1, rfl⟩ := (assigned_iff hp).1 h
  have hp' : py% "protected" ∉ l'.map Prod.fst := fun hm => hp ((hl.map _).mem_iff.1 hm)
  have n1 := Dict.nodup_foldl_put (storedAll l) o.attrs ho
  have n2 := Dict.nodup_foldl_put (storedAll l') o.attrs ho
  have hg : ∀ k, Dict.get? ((storedAll l').foldl (fun d p => Dict.put d p.1 p.2) o.attrs) k =
      Dict.get? ((storedAll l).foldl (fun d p => Dict.put d p.1 p.2) o.attrs) k := by
    intro k
    have hps : (storedAll l').reverse.Perm (storedAll l).reverse :=
      (List.reverse_perm _).trans ((hl.map _).trans (List.reverse_perm _).symm)
    have hnr : (((storedAll l).reverse).map Prod.fst).Nodup := by
      rw [List.map_reverse, List.nodup_reverse, storedAll_names]
      exact hn
    rw [Dict.get?_foldl_put, Dict.get?_foldl_put]
    have key : ∀ {m m' : List (Str × Val)}, m'.Perm m → (m.map Prod.fst).Nodup →
        m'.find? (fun p => decide (p.1 = k)) = m.find? (fun p => decide (p.1 = k)) := by
      intro m m' hm hnd
      have e : ∀ z : List (Str × Val), (z.find? (fun p => decide (p.1 = k))).map Prod.snd = Dict.get? z k := by
        intro z
        induction z with
        | nil => rfl
        | cons q z ih =>
          obtain ⟨a, b⟩ := q
          by_cases hq : a = k
          · simp [Dict.get?, hq]
          · simp [Dict.get?, hq, ih]
      have e2 : ∀ z : List (Str × Val), ∀ q, z.find? (fun p => decide (p.1 = k)) = some q → q.1 = k := by
        intro z q hq
        simpa using List.find?_some hq
      have hget := get?_perm ⟨hm, hnd⟩ k
      rw [← e, ← e] at hget
      cases ha : m'.find? (fun p => decide (p.1 = k)) with
      | none =>
        cases hb : m.find? (fun p => decide (p.1 = k)) with
        | none => rfl
        | some q => simp [ha, hb] at hget
      | some p =>
        cases hb : m.find? (fun p => decide (p.1 = k)) with
        | none => simp [ha, hb] at hget
        | some q =>
          have g := (e2 _ _ ha).trans (e2 _ _ hb).symm
          simp [ha, hb] at hget
          rw [Prod.ext g hget]
    rw [key hps hnr]
  refine ⟨_, (assigned_iff hp').2 ⟨fun p hm => h1 p (hl.mem_iff.1 hm), rfl⟩, ?_, rfl, fun hm => ?_⟩
  · refine (List.perm_ext_iff_of_nodup (List.Nodup.of_map _ n2) (List.Nodup.of_map _ n1)).2 ?_
    rintro ⟨k, v⟩
    exact mem_iff_of_get? n1 n2 hg k v
  · have hk : ∀ m : List (Str × Inp), (∀ p ∈ m, p.1 ∈ o.attrs.map Prod.fst) → ∀ q ∈ storedAll m, q.1 ∈ Dict.keys o.attrs := by
      intro m h q hq
      obtain ⟨p, hp, rfl⟩ := List.mem_map.1 hq
      exact h p hp
    congr 1
    refine Dict.eq_of_keys ?_ n1 (fun k _ => hg k)
    rw [keys_foldl_put_of_mem _ _ (hk l' (fun p hp => hm p (hl.mem_iff.1 hp))), keys_foldl_put_of_mem _ _ (hk l hm)]

end Sofar
