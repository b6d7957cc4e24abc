import Verif.Model.PyDict
/-! # Lemmas on dictionaries -/
namespace Sofar
namespace Dict
variable {V : Type}

@[simp] theorem get?_nil (k : Str) : get? ([] : Dict V) k = none := rfl

@[simp] theorem get?_put_self (d : Dict V) (k : Str) (v : V) : get? (put d k v) k = some v := by
  induction d with
  | nil => simp [put, get?]
  | cons p t ih =>
    obtain ⟨k', v'⟩ := p
    by_cases h : k' = k <;> simp [put, get?, h, ih]

theorem get?_put_ne (d : Dict V) {k k' : Str} (v : V) (h : k' ≠ k) : get? (put d k v) k' = get? d k' := by
  induction d with
  | nil => simp [put, get?, Ne.symm h]
  | cons p t ih =>
    obtain ⟨a, b⟩ := p
    by_cases h1 : a = k
    · subst h1; simp [put, get?, Ne.symm h]
    · by_cases h2 : a = k'
      · subst h2; simp [put, get?, h1]
      · simp [put, get?, h1, h2, ih]

theorem get?_put (d : Dict V) (k k' : Str) (v : V) :
    get? (put d k v) k' = if k' = k then some v else get? d k' := by
  by_cases h : k' = k
  · subst h; simp
  · simp [h, get?_put_ne d v h]

theorem has_iff (d : Dict V) (k : Str) : has d k = true ↔ ∃ v, get? d k = some v := by
  simp [has, Option.isSome_iff_exists]

theorem has_false_iff (d : Dict V) (k : Str) : has d k = false ↔ get? d k = none := by
  simp [has]

theorem has_put (d : Dict V) (k k' : Str) (v : V) :
    has (put d k v) k' = (decide (k' = k) || has d k') := by
  by_cases h : k' = k <;> simp [has, get?_put, h]

theorem get?_eq_none_iff (d : Dict V) (k : Str) : get? d k = none ↔ k ∉ keys d := by
  induction d with
  | nil => simp [keys]
  | cons p t ih =>
    obtain ⟨a, b⟩ := p
    by_cases h : a = k
    · subst h; simp [get?, keys]
    · simp only [get?, h, if_false, ih, keys, List.map_cons, List.mem_cons, not_or]
      constructor
      · intro h2; exact ⟨fun e => h e.symm, h2⟩
      · exact fun h2 => h2.2

theorem has_iff_mem (d : Dict V) (k : Str) : has d k = true ↔ k ∈ keys d := by
  have := get?_eq_none_iff d k
  unfold has
  cases h : get? d k with
  | none => simp [h] at this; simp [this]
  | some v => simp [h] at this; simp [this]

theorem mem_of_get? {d : Dict V} {k : Str} {v : V} (h : get? d k = some v) : (k, v) ∈ d := by
  induction d with
  | nil => simp at h
  | cons p t ih =>
    obtain ⟨a, b⟩ := p
    by_cases h1 : a = k
    · subst h1; simp [get?] at h; simp [h]
    · simp [get?, h1] at h; exact List.mem_cons_of_mem _ (ih h)

theorem get?_of_mem {d : Dict V} {k : Str} {v : V} (hn : (keys d).Nodup) (h : (k, v) ∈ d) :
    get? d k = some v := by
  induction d with
  | nil => simp at h
  | cons p t ih =>
    obtain ⟨a, b⟩ := p
    simp only [keys, List.map_cons, List.nodup_cons] at hn
    rcases List.mem_cons.1 h with h1 | h1
    · cases h1; simp [get?]
    · have : a ≠ k := by
        rintro rfl
        exact hn.1 (List.mem_map.2 ⟨(a, v), h1, rfl⟩)
      simp [get?, this, ih hn.2 h1]

@[simp] theorem keys_nil : keys ([] : Dict V) = [] := rfl
@[simp] theorem keys_cons (p : Str × V) (t : Dict V) : keys (p :: t) = p.1 :: keys t := rfl

theorem keys_put (d : Dict V) (k : Str) (v : V) :
    keys (put d k v) = if k ∈ keys d then keys d else keys d ++ [k] := by
  induction d with
  | nil => simp [put]
  | cons p t ih =>
    obtain ⟨a, b⟩ := p
    by_cases h : a = k
    · subst h; simp [put]
    · have h' : k ≠ a := fun e => h e.symm
      simp only [put, h, if_false, keys_cons, List.mem_cons, h', false_or, ih]
      split <;> simp

theorem keys_put_of_has {d : Dict V} {k : Str} (v : V) (h : has d k = true) : keys (put d k v) = keys d := by
  rw [keys_put, if_pos ((has_iff_mem d k).1 h)]

theorem keys_put_of_not_has {d : Dict V} {k : Str} (v : V) (h : has d k = false) :
    keys (put d k v) = keys d ++ [k] := by
  rw [keys_put, if_neg]
  intro hm
  rw [← has_iff_mem] at hm
  simp [h] at hm

theorem mem_keys_put (d : Dict V) (k k' : Str) (v : V) : k' ∈ keys (put d k v) ↔ k' = k ∨ k' ∈ keys d := by
  rw [← has_iff_mem, has_put, ← has_iff_mem]; simp

theorem nodup_put {d : Dict V} (k : Str) (v : V) (h : (keys d).Nodup) : (keys (put d k v)).Nodup := by
  rw [keys_put]
  split
  · exact h
  · rename_i hk
    rw [List.nodup_append]
    refine ⟨h, by simp, ?_⟩
    intro a ha b hb
    simp only [List.mem_singleton] at hb
    rintro rfl
    exact hk (hb ▸ ha)

@[simp] theorem get?_del_self (d : Dict V) (k : Str) : get? (del d k) k = none := by
  rw [get?_eq_none_iff]
  simp [keys, del]

theorem get?_filter (d : Dict V) (f : Str × V → Bool) (k : Str) (hf : ∀ v, f (k, v) = true) :
    get? (d.filter f) k = get? d k := by
  induction d with
  | nil => rfl
  | cons p t ih =>
    obtain ⟨a, b⟩ := p
    by_cases h : a = k
    · subst h; simp [hf, get?]
    · by_cases h2 : f (a, b) = true <;> simp [h2, get?, h, ih]

theorem get?_del_ne (d : Dict V) {k k' : Str} (h : k' ≠ k) : get? (del d k) k' = get? d k' := by
  unfold del
  exact get?_filter d _ k' (by simp [h])

theorem get?_del (d : Dict V) (k k' : Str) :
    get? (del d k) k' = if k' = k then none else get? d k' := by
  by_cases h : k' = k
  · subst h; simp
  · simp [h, get?_del_ne d h]

theorem has_del (d : Dict V) (k k' : Str) : has (del d k) k' = (decide (k' ≠ k) && has d k') := by
  by_cases h : k' = k <;> simp [has, get?_del, h]

theorem keys_del (d : Dict V) (k : Str) : keys (del d k) = (keys d).filter (fun x => x ≠ k) := by
  simp [keys, del, List.filter_map, Function.comp_def]

theorem nodup_filter {d : Dict V} (f : Str × V → Bool) (h : (keys d).Nodup) : (keys (d.filter f)).Nodup :=
  List.Nodup.sublist (List.Sublist.map _ List.filter_sublist) h

theorem put_get?_self {d : Dict V} {k : Str} {v : V} (h : get? d k = some v) : put d k v = d := by
  induction d with
  | nil => simp at h
  | cons p t ih =>
    obtain ⟨a, b⟩ := p
    by_cases h1 : a = k
    · subst h1; simp [get?] at h; simp [put, h]
    · simp [get?, h1] at h; simp [put, h1, ih h]

/-- folding `put` over a list of pairs -/
theorem get?_foldl_put (l : List (Str × V)) (d : Dict V) (k : Str) :
    get? (l.foldl (fun d p => put d p.1 p.2) d) k =
      match (l.reverse.find? (fun p => p.1 = k)) with
      | some p => some p.2
      | none => get? d k := by
  induction l generalizing d with
  | nil => simp
  | cons p t ih =>
    simp only [List.foldl_cons, List.reverse_cons, List.find?_append]
    rw [ih]
    cases h : List.find? (fun p => decide (p.1 = k)) t.reverse with
    | some q => simp
    | none =>
      by_cases h2 : p.1 = k
      · subst h2; simp
      · simp [h2, get?_put_ne _ _ (Ne.symm h2)]

theorem nodup_foldl_put (l : List (Str × V)) (d : Dict V) (h : (keys d).Nodup) :
    (keys (l.foldl (fun d p => put d p.1 p.2) d)).Nodup := by
  induction l generalizing d with
  | nil => exact h
  | cons p t ih => exact ih _ (nodup_put _ _ h)

theorem nodup_ofList (l : List (Str × V)) : (keys (ofList l)).Nodup := nodup_foldl_put l [] (by simp [keys])

theorem mem_keys_foldl_put (l : List (Str × V)) (d : Dict V) (k : Str) :
    k ∈ keys (l.foldl (fun d p => put d p.1 p.2) d) ↔ k ∈ keys d ∨ k ∈ l.map Prod.fst := by
  induction l generalizing d with
  | nil => simp
  | cons p t ih =>
    simp only [List.foldl_cons, ih, mem_keys_put, List.map_cons, List.mem_cons]
    grind

end Dict
end Sofar
