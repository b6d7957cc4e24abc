import Verif.Lemmas.Phases
/-!
# Names with underscores
-/
namespace Sofar

theorem beforeLast_some {c : Char} {s v : Str} (h : Str.beforeLast c s = some v) :
    ∃ a, s = v ++ c :: a ∧ c ∉ a := by
  induction s generalizing v with
  | nil => simp [Str.beforeLast] at h
  | cons d t ih =>
    simp only [Str.beforeLast] at h
    cases hb : Str.beforeLast c t with
    | some r =>
      simp only [hb, Option.some.injEq] at h
      obtain ⟨a, rfl, ha⟩ := ih hb
      exact ⟨a, by rw [← h]; rfl, ha⟩
    | none =>
      simp only [hb] at h
      split at h
      · rename_i hd
        simp only [Option.some.injEq] at h
        subst h hd
        exact ⟨t, rfl, beforeLast_none_iff.1 hb⟩
      · simp at h

/-- state of the replacement of `Data_`: `a` was read, `b` is still to be skipped -/
def Skipping (j : Nat) (pre t : Str) : Prop :=
  j = 0 ∨ ∃ a b, a ++ b = py% "Data_" ∧ b.length = j ∧ a <:+ pre ∧ b <+: t

theorem replace_data_go (j : Nat) (pre t : Str) (hs : Skipping j pre t)
    (h : '_' ∉ Str.replaceGo (py% "Data_") [] j t) (p s : Str) (ht : t = p ++ '_' :: s) : (py% "Data") <:+ pre ++ p := by
  induction t generalizing j pre p with
  | nil => simp at ht
  | cons c t ih =>
    have hstep : ∀ p', p = c :: p' → ∀ j', Skipping j' (pre ++ [c]) t → '_' ∉ Str.replaceGo (py% "Data_") [] j' t →
        (py% "Data") <:+ pre ++ p := by
      rintro p' rfl j' hs' h'
      have := ih j' (pre ++ [c]) hs' h' p' (by simpa using ht)
      simpa using this
    cases j with
    | zero =>
      simp only [Str.replaceGo] at h
      split at h
      · rename_i hm
        have hm' : (py% "Data_") <+: c :: t := by simpa using hm
        rw [List.cons_prefix_cons] at hm'
        obtain ⟨rfl, hm'⟩ := hm'
        cases p with
        | nil => simp at ht
        | cons c' p' =>
          have : c' = 'D' := by simp at ht; exact ht.1.symm
          subst this
          exact hstep p' rfl 4 (Or.inr ⟨['D'], py% "ata_", rfl, rfl, List.suffix_append _ _, hm'⟩) (by simpa using h)
      · simp only [List.mem_cons, not_or] at h
        cases p with
        | nil => simp at ht; exact absurd ht.1.symm h.1
        | cons c' p' =>
          have : c' = c := by simp at ht; exact ht.1.symm
          subst this
          exact hstep p' rfl 0 (Or.inl rfl) h.2
    | succ j =>
      simp only [Str.replaceGo] at h
      rcases hs with hs | ⟨a, b, hab, hb, ha, hbt⟩
      · simp at hs
      · cases b with
        | nil => simp at hb
        | cons b0 b =>
          rw [List.cons_prefix_cons] at hbt
          obtain ⟨rfl, hbt⟩ := hbt
          cases p with
          | nil =>
            have hc : b0 = '_' := by simp at ht; exact ht.1
            subst hc
            have : a = py% "Data" := by
              match a, hab with
              | [], hab => simp at hab
              | [_], hab => simp at hab
              | [_, _], hab => simp at hab
              | [_, _, _], hab => simp at hab
              | [_, _, _, _], hab => simp at hab; simp [hab]
              | _ :: _ :: _ :: _ :: _ :: a', hab =>
                have := congrArg List.length hab
                simp at this
            rw [List.append_nil, ← this]
            exact ha
          | cons c' p' =>
            have : c' = b0 := by simp at ht; exact ht.1.symm
            subst this
            refine hstep p' rfl j ?_ h
            right
            refine ⟨a ++ [c'], b, by simpa using hab, by simpa using hb, ?_, hbt⟩
            obtain ⟨x, hx⟩ := ha
            exact ⟨x, by rw [← hx]; simp⟩

/-- every underscore is preceded by `Data` -/
theorem replace_data {k : Str} (h : '_' ∉ Str.replace k (py% "Data_") []) (p s : Str) (hk : k = p ++ '_' :: s) :
    (py% "Data") <:+ p := by
  have := replace_data_go 0 [] k (Or.inl rfl) h p s hk
  simpa using this

theorem replace_global (n : Str) :
    Str.replace (py% "GLOBAL_" ++ n) (py% "GLOBAL_") [] = Str.replace n (py% "GLOBAL_") [] := by
  simp [Str.replace, Str.replaceGo]

end Sofar
