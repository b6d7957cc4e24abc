import Verif.Lemmas.Csv
/-!
# Updating the conventions
-/
namespace Sofar

theorem excluded_iff (c : Str) : excluded c = true ↔ Spec.Excluded c := by
  simp [excluded, Spec.Excluded, Str.startsWith]

theorem splitChar_last (c : Char) (s : Str) : c ∉ (Str.splitChar c s).getLastD [] ∧
    (s = (Str.splitChar c s).getLastD [] ∨ ∃ p, s = p ++ c :: (Str.splitChar c s).getLastD []) := by
  induction s with
  | nil => exact ⟨by simp [Str.splitChar], Or.inl rfl⟩
  | cons x t ih =>
    obtain ⟨a, r, h1, h2, h3⟩ := splitChar_first c t
    obtain ⟨h4, h5⟩ := ih
    by_cases hx : x = c
    · subst hx
      have e : (Str.splitChar x (x :: t)).getLastD [] = (Str.splitChar x t).getLastD [] := by
        simp [Str.splitChar, h1]
      rw [e]
      refine ⟨h4, Or.inr ?_⟩
      rcases h5 with h5 | ⟨p, hp⟩
      · exact ⟨[], by simpa using h5⟩
      · exact ⟨x :: p, by simpa using hp⟩
    · cases r with
      | nil =>
        have e : (Str.splitChar c (x :: t)).getLastD [] = x :: a := by
          simp [Str.splitChar, hx, h1, Str.consHead]
        have e2 : (Str.splitChar c t).getLastD [] = a := by simp [h1]
        rw [e2] at h5
        rw [e]
        refine ⟨by simp [h2, Ne.symm hx], ?_⟩
        rcases h5 with h5 | ⟨p, hp⟩
        · exact Or.inl (by rw [← h5])
        · rcases h3 with h3 | ⟨rest, h3⟩
          · exact Or.inl (by rw [← h3])
          · exfalso
            have hl : (Str.splitChar c t).length = 1 := by rw [h1]; rfl
            have : ∀ (q u : Str), 2 ≤ (Str.splitChar c (q ++ c :: u)).length := by
              intro q u
              induction q with
              | nil =>
                obtain ⟨b, r', e', _⟩ := splitChar_first c u
                simp [Str.splitChar, e']
              | cons y q ihq =>
                by_cases hy : y = c
                · obtain ⟨b, r', e', _⟩ := splitChar_first c (q ++ c :: u)
                  simp [Str.splitChar, hy, e']
                · obtain ⟨b, r', e', _⟩ := splitChar_first c (q ++ c :: u)
                  rw [e'] at ihq
                  simp [Str.splitChar, hy, e', Str.consHead] at ihq ⊢
                  exact ihq
            have h6 := this a rest
            rw [← h3] at h6
            omega
      | cons b r =>
        have e : (Str.splitChar c (x :: t)).getLastD [] = (Str.splitChar c t).getLastD [] := by
          simp [Str.splitChar, hx, h1, Str.consHead]
        rw [e]
        refine ⟨h4, ?_⟩
        rcases h5 with h5 | ⟨p, hp⟩
        · exfalso
          rcases h3 with h3 | ⟨rest, h3⟩
          · have : Str.splitChar c t = [t] := by
              have hc : c ∉ t := by rw [h3]; exact h2
              clear h1 h2 h3 h4 h5 e
              induction t with
              | nil => rfl
              | cons y t iht =>
                simp only [List.mem_cons, not_or] at hc
                simp [Str.splitChar, Ne.symm hc.1, iht hc.2, Str.consHead]
            rw [h1] at this
            simp at this
          · rw [← h5] at h4
            exact h4 (by rw [h3]; simp)
        · exact Or.inr ⟨x :: p, by rw [List.cons_append, ← hp]⟩

/-! ## Links -/

theorem linkNames_mem {ext : Str} {l : List (Option Str)} {r : List Str} (h : linkNames ext l = .ok r) (c : Str) :
    c ∈ r ↔ ∃ u, some u ∈ l ∧ ext <:+ u ∧ '/' ∉ c ∧ (u = c ∨ ∃ p, u = p ++ '/' :: c) := by
  induction l generalizing r with
  | nil =>
    simp only [linkNames, Except.ok.injEq] at h
    subst h
    simp
  | cons x l ih =>
    cases x with
    | none => simp [linkNames] at h
    | some u =>
      unfold linkNames at h
      cases hr : linkNames ext l with
      | error e => simp [hr] at h
      | ok r' =>
        simp only [hr, Except.ok.injEq] at h
        have hih := ih hr
        obtain ⟨hl1, hl2⟩ := splitChar_last '/' u
        have huniq : ∀ c, '/' ∉ c → (u = c ∨ ∃ p, u = p ++ '/' :: c) → c = (Str.splitChar '/' u).getLastD [] := by
          intro c hc hu
          rcases hu with rfl | ⟨p, hp⟩
          · rcases hl2 with h2 | ⟨q, hq⟩
            · exact h2
            · exact absurd (by rw [hq]; simp) hc
          · rcases hl2 with h2 | ⟨q, hq⟩
            · exact absurd (by rw [← h2, hp]; simp) hl1
            · have hq' := hp.symm.trans hq
              have := congrArg List.reverse hq'
              simp only [List.reverse_append, List.reverse_cons, List.append_assoc] at this
              have key : ∀ (a b x y : Str), '/' ∉ a → '/' ∉ b → a ++ (['/'] ++ x) = b ++ (['/'] ++ y) → a = b := by
                intro a b x y ha hb he
                rcases List.append_eq_append_iff.1 he with ⟨k, hk1, hk2⟩ | ⟨k, hk1, hk2⟩
                · cases k with
                  | nil => simpa using hk1.symm
                  | cons z k =>
                    exfalso
                    simp at hk2
                    apply hb
                    rw [hk1, hk2.1]; simp
                · cases k with
                  | nil => simpa using hk1
                  | cons z k =>
                    exfalso
                    simp at hk2
                    apply ha
                    rw [hk1, hk2.1]; simp
              have h3 := key _ _ _ _ (by simpa using hc) (by simpa using hl1) this
              simpa using congrArg List.reverse h3
        by_cases he : Str.endsWith u ext = true
        · rw [if_pos he] at h
          subst h
          have he' : ext <:+ u := by simpa [Str.endsWith, List.isSuffixOf_iff_suffix] using he
          constructor
          · intro hc
            rcases List.mem_cons.1 hc with rfl | hc
            · exact ⟨u, by simp, he', hl1, hl2⟩
            · obtain ⟨u', h1, h2⟩ := hih.1 hc
              exact ⟨u', by simp [h1], h2⟩
          · rintro ⟨u', h1, h2, h3, h4⟩
            rcases List.mem_cons.1 h1 with h1 | h1
            · cases h1
              rw [huniq c h3 h4]
              simp
            · exact List.mem_cons_of_mem _ (hih.2 ⟨u', h1, h2, h3, h4⟩)
        · rw [if_neg he] at h
          subst h
          have he' : ¬ ext <:+ u := by simpa [Str.endsWith, List.isSuffixOf_iff_suffix] using he
          rw [hih]
          constructor
          · rintro ⟨u', h1, h2⟩
            exact ⟨u', by simp [h1], h2⟩
          · rintro ⟨u', h1, h2, h3⟩
            rcases List.mem_cons.1 h1 with h1 | h1
            · cases h1
              exact absurd h2 he'
            · exact ⟨u', h1, h2, h3⟩

/-! ## The plan -/

/-- the path of a convention -/
def target (std : Str → Bool) (c : Str) : Str := if std c then c else deprecatedPath c

theorem target_inj {std : Str → Bool} {a b : Str} (ha : '/' ∉ a) (hb : '/' ∉ b) (h : target std a = target std b) :
    a = b := by
  unfold target deprecatedPath at h
  split at h <;> split at h
  · exact h
  · exact absurd (by rw [h]; simp) ha
  · exact absurd (by rw [← h]; simp) hb
  · simpa using h

/-- what the plan contains after the conventions in `cs` -/
structure PlanOk (file : Bool → Str → Except Exc Str) (d : Folder) (std : Str → Bool) (cs : List Str) (p : Plan) : Prop where
  all : ∀ c ∈ cs, excluded c = false → ∃ y, file (!std c) c = .ok y ∧
    (target std c ∈ p.update ∨ (std c = false ∧ c ∈ p.outdated) ∨
      ((std c = false → Dict.has d.csv c = false) ∧ ∃ x, Dict.get? d.csv (target std c) = some x ∧ unixLines x = unixLines y))
  update : ∀ x ∈ p.update, ∃ c ∈ cs, excluded c = false ∧ x = target std c ∧ (std c = false → Dict.has d.csv c = false) ∧
    ∃ y, file (!std c) c = .ok y ∧ Dict.get? p.temp x = some (unixLines y)
  outdated : ∀ c ∈ p.outdated, c ∈ cs ∧ excluded c = false ∧ std c = false ∧ Dict.has d.csv c = true ∧
    ∃ y, file true c = .ok y ∧ Dict.get? p.temp (deprecatedPath c) = some (unixLines y)

/-- storing the content of a convention does not change what is stored for the others -/
theorem temp_put {file : Bool → Str → Except Exc Str} {std : Str → Bool} {temp : Dict Str} {c c' y y' : Str}
    (hc : '/' ∉ c) (hc' : '/' ∉ c') (hy : file (!std c) c = .ok y) (hy' : file (!std c') c' = .ok y')
    (h : Dict.get? temp (target std c') = some (unixLines y')) :
    Dict.get? (Dict.put temp (target std c) (unixLines y)) (target std c') = some (unixLines y') := by
  rw [Dict.get?_put]
  split
  · rename_i e
    have := target_inj hc' hc e
    subst this
    rw [hy] at hy'
    cases hy'
    rfl
  · exact h

/-- a convention whose file is added to the list of updates -/
theorem PlanOk.addUpdate {file : Bool → Str → Except Exc Str} {d : Folder} {std : Str → Bool} {cs : List Str} {p : Plan}
    {c y : Str} {ev : List Event} (h : PlanOk file d std cs p) (hs : ∀ c ∈ cs, '/' ∉ c) (hc : '/' ∉ c)
    (he : excluded c = false) (hy : file (!std c) c = .ok y) (hno : std c = false → Dict.has d.csv c = false) :
    PlanOk file d std (cs ++ [c])
      { p with temp := Dict.put p.temp (target std c) (unixLines y), update := p.update ++ [target std c], ev := ev } where
  all := by
    intro a ha hae
    rcases List.mem_append.1 ha with ha | ha
    · obtain ⟨y', h1, h2⟩ := h.all a ha hae
      refine ⟨y', h1, ?_⟩
      rcases h2 with h2 | h2 | h2
      · exact Or.inl (List.mem_append_left _ h2)
      · exact Or.inr (Or.inl h2)
      · exact Or.inr (Or.inr h2)
    · rw [List.mem_singleton.1 ha]
      exact ⟨y, hy, Or.inl (by simp)⟩
  update := by
    intro x hx
    rcases List.mem_append.1 hx with hx | hx
    · obtain ⟨c', h1, h2, rfl, h3, y', h4, h5⟩ := h.update x hx
      exact ⟨c', List.mem_append_left _ h1, h2, rfl, h3, y', h4, temp_put hc (hs c' h1) hy h4 h5⟩
    · rw [List.mem_singleton.1 hx]
      exact ⟨c, by simp, he, rfl, hno, y, hy, by simp⟩
  outdated := by
    intro a ha
    obtain ⟨h1, h2, h3, h4, y', h5, h6⟩ := h.outdated a ha
    refine ⟨List.mem_append_left _ h1, h2, h3, h4, y', h5, ?_⟩
    have := temp_put (std := std) (c' := a) hc (hs a h1) hy (y' := y') (by rw [h3]; exact h5) (temp := p.temp) (by
      unfold target; rw [h3]; exact h6)
    rw [show target std a = deprecatedPath a by simp [target, h3]] at this
    exact this

/-- a convention that became deprecated -/
theorem PlanOk.addOutdated {file : Bool → Str → Except Exc Str} {d : Folder} {std : Str → Bool} {cs : List Str} {p : Plan}
    {c y : Str} {ev : List Event} (h : PlanOk file d std cs p) (hs : ∀ c ∈ cs, '/' ∉ c) (hc : '/' ∉ c)
    (he : excluded c = false) (hstd : std c = false) (hy : file true c = .ok y) (hhas : Dict.has d.csv c = true) :
    PlanOk file d std (cs ++ [c])
      { p with temp := Dict.put p.temp (deprecatedPath c) (unixLines y), outdated := p.outdated ++ [c], ev := ev } := by
  have ht : target std c = deprecatedPath c := by simp [target, hstd]
  have hy' : file (!std c) c = .ok y := by rw [hstd]; exact hy
  rw [← ht]
  refine ⟨?_, ?_, ?_⟩
  · intro a ha hae
    rcases List.mem_append.1 ha with ha | ha
    · obtain ⟨y', h1, h2⟩ := h.all a ha hae
      refine ⟨y', h1, ?_⟩
      rcases h2 with h2 | h2 | h2
      · exact Or.inl h2
      · exact Or.inr (Or.inl ⟨h2.1, List.mem_append_left _ h2.2⟩)
      · exact Or.inr (Or.inr h2)
    · rw [List.mem_singleton.1 ha]
      exact ⟨y, hy', Or.inr (Or.inl ⟨hstd, by simp⟩)⟩
  · intro x hx
    obtain ⟨c', h1, h2, rfl, h3, y', h4, h5⟩ := h.update x hx
    exact ⟨c', List.mem_append_left _ h1, h2, rfl, h3, y', h4, temp_put hc (hs c' h1) hy' h4 h5⟩
  · intro a ha
    rcases List.mem_append.1 ha with ha | ha
    · obtain ⟨h1, h2, h3, h4, y', h5, h6⟩ := h.outdated a ha
      refine ⟨List.mem_append_left _ h1, h2, h3, h4, y', h5, ?_⟩
      have := temp_put (std := std) (c' := a) hc (hs a h1) hy' (y' := y') (by rw [h3]; exact h5) (temp := p.temp) (by
        unfold target; rw [h3]; exact h6)
      rw [show target std a = deprecatedPath a by simp [target, h3]] at this
      exact this
    · rw [List.mem_singleton.1 ha]
      refine ⟨by simp, he, hstd, hhas, y, hy, ?_⟩
      rw [ht]
      simp

/-- a convention that is up to date, or excluded -/
theorem PlanOk.addNothing {file : Bool → Str → Except Exc Str} {d : Folder} {std : Str → Bool} {cs : List Str} {p : Plan}
    {c : Str} (h : PlanOk file d std cs p)
    (hok : excluded c = false → ∃ y, file (!std c) c = .ok y ∧ (std c = false → Dict.has d.csv c = false) ∧
      ∃ x, Dict.get? d.csv (target std c) = some x ∧ unixLines x = unixLines y) :
    PlanOk file d std (cs ++ [c]) p where
  all := by
    intro a ha hae
    rcases List.mem_append.1 ha with ha | ha
    · exact h.all a ha hae
    · rw [List.mem_singleton.1 ha] at hae ⊢
      obtain ⟨y, h1, h2⟩ := hok hae
      exact ⟨y, h1, Or.inr (Or.inr h2)⟩
  update := by
    intro x hx
    obtain ⟨c', h1, h2⟩ := h.update x hx
    exact ⟨c', List.mem_append_left _ h1, h2⟩
  outdated := by
    intro a ha
    obtain ⟨h1, h2⟩ := h.outdated a ha
    exact ⟨List.mem_append_left _ h1, h2⟩

theorem planFile_ok {file : Bool → Str → Except Exc Str} {d : Folder} {std : Str → Bool} {cs : List Str} {p : Plan}
    {c y : Str} (h : PlanOk file d std cs p) (hs : ∀ c ∈ cs, '/' ∉ c) (hc : '/' ∉ c)
    (he : excluded c = false) (hy : file (!std c) c = .ok y) :
    PlanOk file d std (cs ++ [c]) (planFile d (std c) c (unixLines y) p) := by
  unfold planFile
  simp only
  cases hstd : std c with
  | true =>
    have ht : target std c = c := by simp [target, hstd]
    simp only [if_true]
    cases hg : Dict.get? d.csv c with
    | none => have := fun ev => h.addUpdate (ev := ev) hs hc he hy (by simp [hstd]); simp only [ht] at this; exact this _
    | some x =>
      simp only
      split
      · have := fun ev => h.addUpdate (ev := ev) hs hc he hy (by simp [hstd]); simp only [ht] at this; exact this _
      · rename_i hx
        exact h.addNothing (fun _ => ⟨y, hy, by simp [hstd], x, by rw [ht]; exact hg, by simpa using hx⟩)
  | false =>
    have ht : target std c = deprecatedPath c := by simp [target, hstd]
    have hy' : file true c = .ok y := by rw [hstd] at hy; exact hy
    simp only [Bool.false_eq_true, if_false]
    cases hhas : Dict.has d.csv c with
    | true => exact h.addOutdated hs hc he hstd hy' hhas
    | false =>
      simp only [Bool.false_eq_true, if_false]
      cases hg : Dict.get? d.csv (deprecatedPath c) with
      | none => have := fun ev => h.addUpdate (ev := ev) hs hc he hy (fun _ => hhas); simp only [ht] at this; exact this _
      | some x =>
        simp only
        split
        · have := fun ev => h.addUpdate (ev := ev) hs hc he hy (fun _ => hhas); simp only [ht] at this; exact this _
        · rename_i hx
          exact h.addNothing (fun _ => ⟨y, hy, fun _ => hhas, x, by rw [ht]; exact hg, by simpa using hx⟩)

theorem planAll_ok {server : Server} {d : Folder} {std cs done : List Str} {p p' : Plan}
    (h : PlanOk server.file d (fun c => std.contains c) done p) (hs : ∀ c ∈ done ++ cs, '/' ∉ c)
    (hp : planAll server d std cs p = (.ok (), p')) : PlanOk server.file d (fun c => std.contains c) (done ++ cs) p' := by
  induction cs generalizing done p with
  | nil =>
    simp only [planAll, Prod.mk.injEq, true_and] at hp
    subst hp
    simpa using h
  | cons c cs ih =>
    have hs' : ∀ a ∈ (done ++ [c]) ++ cs, '/' ∉ a := by simpa using hs
    unfold planAll at hp
    have e : done ++ c :: cs = (done ++ [c]) ++ cs := by simp
    rw [e]
    split at hp
    · rename_i hex
      exact ih (h.addNothing (by simp [hex])) hs' hp
    · rename_i hex
      simp only at hp
      split at hp
      · simp at hp
      · rename_i y hy
        exact ih (planFile_ok h (fun a ha => hs a (by simp [ha])) (hs c (by simp)) (by simpa using hex) hy) hs' hp

/-! ## Applying the plan -/

theorem copyUpdates_csv {temp : Dict Str} {cs : List Str} {d d' : Folder} (h : copyUpdates temp cs d = (.ok (), d')) (k : Str) :
    Dict.get? d'.csv k = if k ∈ cs then Dict.get? temp k else Dict.get? d.csv k := by
  induction cs generalizing d with
  | nil =>
    simp only [copyUpdates, Prod.mk.injEq, true_and] at h
    subst h
    simp
  | cons c cs ih =>
    unfold copyUpdates at h
    cases hg : Dict.get? temp c with
    | none => simp [hg] at h
    | some x =>
      simp only [hg] at h
      rw [ih h, Dict.get?_put]
      by_cases hk : k = c
      · subst hk; simp [hg]
      · simp [hk]

theorem copyUpdates_root {temp : Dict Str} {cs : List Str} {d : Folder} :
    (copyUpdates temp cs d).2.root = d.root ∧ (copyUpdates temp cs d).2.sub = d.sub ∧
      (copyUpdates temp cs d).2.json = d.json := by
  induction cs generalizing d with
  | nil => simp [copyUpdates]
  | cons c cs ih =>
    unfold copyUpdates
    cases hg : Dict.get? temp c with
    | none => simp
    | some x => exact ih (d := { d with csv := Dict.put d.csv c x })

theorem moveDeprecated_csv {temp : Dict Str} {cs : List Str} {d d' : Folder} (hs : ∀ c ∈ cs, '/' ∉ c)
    (h : moveDeprecated temp cs d = (.ok (), d')) (k : Str) :
    Dict.get? d'.csv k = if k ∈ cs then none else if k ∈ cs.map deprecatedPath then Dict.get? temp k else Dict.get? d.csv k := by
  induction cs generalizing d with
  | nil =>
    simp only [moveDeprecated, Prod.mk.injEq, true_and] at h
    subst h
    simp
  | cons c cs ih =>
    have hdep : ∀ c', deprecatedPath c' ∉ c :: cs := by
      intro c' hm
      exact hs _ hm (by simp [deprecatedPath])
    unfold moveDeprecated at h
    split at h
    · simp at h
    · simp only at h
      split at h
      · simp at h
      · cases hg : Dict.get? temp (deprecatedPath c) with
        | none => simp [hg] at h
        | some x =>
          simp only [hg] at h
          rw [ih (fun a ha => hs a (by simp [ha])) h, Dict.get?_put, Dict.get?_del]
          by_cases hk : k ∈ c :: cs
          · rw [if_pos hk]
            by_cases hk2 : k ∈ cs
            · simp [hk2]
            · have hkc : k = c := by simpa [hk2] using hk
              rw [if_neg hk2]
              have h1 : k ∉ cs.map deprecatedPath := by
                intro hm
                obtain ⟨c', -, he⟩ := List.mem_map.1 hm
                exact hdep c' (he ▸ hk)
              have h2 : k ≠ deprecatedPath c := fun he => hdep c (he ▸ hk)
              rw [if_neg h1, if_neg h2, if_pos hkc]
          · rw [if_neg hk]
            simp only [List.mem_cons, not_or] at hk
            rw [if_neg hk.2]
            by_cases h1 : k ∈ cs.map deprecatedPath
            · rw [if_pos h1, if_pos (by simp only [List.map_cons, List.mem_cons]; exact Or.inr h1)]
            · rw [if_neg h1]
              by_cases h2 : k = deprecatedPath c
              · rw [if_pos h2, if_pos (by simp [h2]), h2, hg]
              · rw [if_neg h2, if_neg hk.1, if_neg (by simp only [List.map_cons, List.mem_cons, not_or]; exact ⟨h2, h1⟩)]

theorem moveDeprecated_root {temp : Dict Str} {cs : List Str} {d : Folder} :
    (moveDeprecated temp cs d).2.root = d.root ∧ (moveDeprecated temp cs d).2.sub = d.sub := by
  induction cs generalizing d with
  | nil => simp [moveDeprecated]
  | cons c cs ih =>
    unfold moveDeprecated
    split
    · simp
    · simp only
      split
      · simp
      · cases hg : Dict.get? temp (deprecatedPath c) with
        | none => simp
        | some x =>
          simp only
          rw [ih.1, ih.2]
          simp

theorem compileFiles_csv (lang : Lang) (cs : List Str) (d : Folder) :
    (compileFiles lang cs d).2.csv = d.csv ∧ (compileFiles lang cs d).2.root = d.root ∧
      (compileFiles lang cs d).2.sub = d.sub := by
  induction cs generalizing d with
  | nil => simp [compileFiles]
  | cons c cs ih =>
    unfold compileFiles
    cases csv2dict lang ((Dict.get? d.csv c).getD []) with
    | error e => simp
    | ok t => exact ih { d with json := Dict.put d.json (jsonName c) t }

theorem dropEnd_of_append (s t : Str) (n : Nat) (h : t.length = n) : Str.dropEnd (s ++ t) n = s := by
  simp [Str.dropEnd, ← h]

/-- the names of the json files are different for files that end with `.csv` -/
theorem jsonName_inj {a b : Str} (ha : (py% ".csv") <:+ a) (hb : (py% ".csv") <:+ b) (h : jsonName a = jsonName b) : a = b := by
  obtain ⟨s, rfl⟩ := ha
  obtain ⟨t, rfl⟩ := hb
  unfold jsonName at h
  have e : ∀ s : Str, Str.dropEnd (s ++ py% ".csv") 3 = s ++ py% "." := by
    intro s
    rw [show s ++ py% ".csv" = (s ++ py% ".") ++ py% "csv" by simp]
    exact dropEnd_of_append _ _ _ rfl
  rw [e, e] at h
  simpa using h

theorem compileFiles_json {lang : Lang} {cs : List Str} {d d' : Folder} (h : compileFiles lang cs d = (.ok (), d'))
    (hs : ∀ c ∈ cs, (py% ".csv") <:+ c) :
    (∀ c ∈ cs, ∃ t, csv2dict lang ((Dict.get? d.csv c).getD []) = .ok t ∧ Dict.get? d'.json (jsonName c) = some t) ∧
    ∀ k, (∀ c ∈ cs, k ≠ jsonName c) → Dict.get? d'.json k = Dict.get? d.json k := by
  induction cs generalizing d with
  | nil =>
    simp only [compileFiles, Prod.mk.injEq, true_and] at h
    subst h
    simp
  | cons c cs ih =>
    unfold compileFiles at h
    cases ht : csv2dict lang ((Dict.get? d.csv c).getD []) with
    | error e => simp [ht] at h
    | ok t =>
      simp only [ht] at h
      obtain ⟨h1, h2⟩ := ih h (fun a ha => hs a (by simp [ha]))
      refine ⟨?_, ?_⟩
      · intro a ha
        by_cases hm : a ∈ cs
        · exact h1 a hm
        · have hac : a = c := by simpa [hm] using ha
          subst hac
          refine ⟨t, ht, ?_⟩
          rw [h2 _ (fun c' hc' he => hm ?_)]
          · simp
          · rw [jsonName_inj (hs a (by simp)) (hs c' (by simp [hc'])) he]; exact hc'
      · intro k hk
        rw [h2 k (fun c' hc' => hk c' (by simp [hc'])), Dict.get?_put, if_neg (hk c (by simp))]

theorem csvFiles_csv {d : Folder} {c : Str} (h : c ∈ csvFiles d) : (py% ".csv") <:+ c := by
  unfold csvFiles globFile at h
  rcases List.mem_append.1 h with h | h
  · simp only [List.mem_filter, Bool.and_eq_true, Str.endsWith, List.isSuffixOf_iff_suffix] at h
    exact h.2.1.2
  · simp only [List.mem_filter, Bool.and_eq_true, Str.endsWith, List.isSuffixOf_iff_suffix] at h
    exact h.2.2.1.2.trans (List.drop_suffix _ _)

theorem applyPlan_csv {lang : Lang} {p : Plan} {d d' : Folder} (hs : ∀ c ∈ p.outdated, '/' ∉ c)
    (h : applyPlan lang p d = (.ok (), d')) (k : Str) :
    Dict.get? d'.csv k = if k ∈ p.outdated then none else if k ∈ p.outdated.map deprecatedPath then Dict.get? p.temp k
      else if k ∈ p.update then Dict.get? p.temp k else Dict.get? d.csv k := by
  unfold applyPlan at h
  split at h
  · simp at h
  · rename_i u d1 h1
    split at h
    · simp at h
    · rename_i u2 d2 h2
      rw [← copyUpdates_csv h1, ← moveDeprecated_csv hs h2]
      unfold compileConventions at h
      split at h
      · simp at h
      · have := (compileFiles_csv lang (csvFiles d2) d2).1
        rw [h] at this
        simp only at this
        rw [this]

theorem applyPlan_root {lang : Lang} {p : Plan} {d d' : Folder} (h : applyPlan lang p d = (.ok (), d')) :
    d'.root = d.root ∧ d'.sub = d.sub := by
  unfold applyPlan at h
  split at h
  · simp at h
  · rename_i u d1 h1
    split at h
    · simp at h
    · rename_i u2 d2 h2
      have e1 := copyUpdates_root (temp := p.temp) (cs := p.update) (d := d)
      have e2 := moveDeprecated_root (temp := p.temp) (cs := p.outdated) (d := d1)
      rw [h1] at e1
      rw [h2] at e2
      unfold compileConventions at h
      split at h
      · simp at h
      · have := compileFiles_csv lang (csvFiles d2) d2
        rw [h] at this
        simp only at this e1 e2
        exact ⟨this.2.1.trans (e2.1.trans e1.1), this.2.2.trans (e2.2.trans e1.2.1)⟩

/-- after the update, the folder holds what the server provides -/
structure Mirrored (file : Bool → Str → Except Exc Str) (std : Str → Bool) (cs : List Str) (d : Folder) : Prop where
  mirror : ∀ c ∈ cs, excluded c = false → ∃ y x, file (!std c) c = .ok y ∧ Dict.get? d.csv (target std c) = some x ∧
    (x = unixLines y ∨ unixLines x = unixLines y) ∧ (std c = false → Dict.get? d.csv c = none)

theorem applyPlan_mirrored {lang : Lang} {file : Bool → Str → Except Exc Str} {std : Str → Bool} {cs : List Str} {p : Plan}
    {d d' : Folder} (hp : PlanOk file d std cs p) (hs : ∀ c ∈ cs, '/' ∉ c) (h : applyPlan lang p d = (.ok (), d')) :
    Mirrored file std cs d' := by
  constructor
  intro c hc he
  have hk := applyPlan_csv (fun c hc => hs c (hp.outdated c hc).1) h
  obtain ⟨y, hy, hcases⟩ := hp.all c hc he
  -- the path is not removed
  have h1 : target std c ∉ p.outdated := by
    intro hm
    obtain ⟨m1, m2, m3, m4⟩ := hp.outdated _ hm
    unfold target at m1 m3
    split at m1
    · rename_i hstd
      rw [if_pos hstd, hstd] at m3
      simp at m3
    · exact hs _ m1 (by simp [deprecatedPath])
  -- the convention itself is not added
  have h2 : std c = false → Dict.has d.csv c = false ∨ c ∈ p.outdated → Dict.get? d'.csv c = none := by
    intro hstd hno
    rw [hk]
    split
    · rfl
    · rename_i hnot
      rw [if_neg, if_neg]
      · rcases hno with hno | hno
        · exact (Dict.has_false_iff _ _).1 hno
        · exact absurd hno hnot
      · intro hm
        obtain ⟨c', hc', _, e, _⟩ := hp.update c hm
        unfold target at e
        split at e
        · rename_i hc''
          rw [e, hc''] at hstd
          simp at hstd
        · exact hs c hc (by rw [e]; simp [deprecatedPath])
      · intro hm
        obtain ⟨c', -, e⟩ := List.mem_map.1 hm
        exact hs c hc (by rw [← e]; simp [deprecatedPath])
  -- content in the temporary folder
  have h3 : target std c ∈ p.outdated.map deprecatedPath → Dict.get? p.temp (target std c) = some (unixLines y) ∧ c ∈ p.outdated := by
    intro hm
    obtain ⟨c', hc', e⟩ := List.mem_map.1 hm
    obtain ⟨m1, m2, m3, m4, y', m5, m6⟩ := hp.outdated c' hc'
    have : c' = c := target_inj (std := std) (hs c' m1) (hs c hc) (by rw [← e]; simp [target, m3])
    subst this
    rw [m3] at hy
    have hyy : y = y' := by
      rw [Bool.not_false, m5] at hy
      cases hy; rfl
    subst hyy
    rw [← e]
    exact ⟨m6, hc'⟩
  by_cases h4 : target std c ∈ p.outdated.map deprecatedPath
  · obtain ⟨h5, h6⟩ := h3 h4
    refine ⟨y, unixLines y, hy, ?_, Or.inl rfl, fun hstd => h2 hstd (Or.inr h6)⟩
    rw [hk, if_neg h1, if_pos h4, h5]
  · by_cases h5 : target std c ∈ p.update
    · obtain ⟨c', hc', e1, e2, e3, y', e4, e5⟩ := hp.update _ h5
      have : c = c' := target_inj (std := std) (hs c hc) (hs c' hc') e2
      subst this
      rw [e4] at hy
      cases hy
      refine ⟨y, unixLines y, e4, ?_, Or.inl rfl, fun hstd => h2 hstd (Or.inl (e3 hstd))⟩
      rw [hk, if_neg h1, if_neg h4, if_pos h5, e5]
    · rcases hcases with h6 | ⟨h6, h7⟩ | ⟨h6, x, h7, h8⟩
      · exact absurd h6 h5
      · exfalso
        apply h4
        simp only [target, h6, Bool.false_eq_true, if_false]
        exact List.mem_map.2 ⟨c, h7, rfl⟩
      · refine ⟨y, x, hy, ?_, Or.inr h8, fun hstd => h2 hstd (Or.inl (h6 hstd))⟩
        rw [hk, if_neg h1, if_neg h4, if_neg h5, h7]

theorem planOk_nothing_mirrored {file : Bool → Str → Except Exc Str} {std : Str → Bool} {cs : List Str} {p : Plan}
    {d : Folder} (hp : PlanOk file d std cs p) (h1 : p.update = []) (h2 : p.outdated = []) : Mirrored file std cs d := by
  constructor
  intro c hc he
  obtain ⟨y, hy, hcases⟩ := hp.all c hc he
  rcases hcases with h | ⟨-, h⟩ | ⟨h6, x, h7, h8⟩
  · simp [h1] at h
  · simp [h2] at h
  · exact ⟨y, x, hy, h7, Or.inr h8, fun hstd => (Dict.has_false_iff _ _).1 (h6 hstd)⟩

/-- if everything is up to date, nothing is planned -/
theorem planAll_mirrored {server : Server} {d : Folder} {std cs : List Str} {p : Plan}
    (h : Mirrored server.file (fun c => std.contains c) cs d)
    (hid : ∀ c ∈ cs, excluded c = false → ∀ y, server.file (!std.contains c) c = .ok y → unixLines (unixLines y) = unixLines y) :
    planAll server d std cs p = (.ok (), p) := by
  induction cs generalizing p with
  | nil => rfl
  | cons c cs ih =>
    have ih' := fun p => ih (p := p) ⟨fun a ha => h.mirror a (by simp [ha])⟩ (fun a ha => hid a (by simp [ha]))
    unfold planAll
    split
    · exact ih' p
    · rename_i hex
      obtain ⟨y, x, hy, hx, hxy, hno⟩ := h.mirror c (by simp) (by simpa using hex)
      have hxy' : unixLines x = unixLines y := by
        rcases hxy with rfl | hxy
        · exact hid c (by simp) (by simpa using hex) y hy
        · exact hxy
      simp only [hy]
      have : planFile d (std.contains c) c (unixLines y) p = p := by
        unfold planFile
        unfold target at hx
        cases hstd : std.contains c with
        | true =>
          simp only [hstd, if_true] at hx
          simp [hx, hxy']
        | false =>
          simp only [hstd, Bool.false_eq_true, if_false] at hx
          have h3 : Dict.has d.csv c = false :=
            (Dict.has_false_iff _ _).2 (hno hstd)
          simp [hx, hxy', h3]
      rw [this]
      exact ih' p

/-! ## The whole update -/

/-- the steps of an update up to the confirmation -/
structure Planned (server : Server) (d : Folder) (std dep : List Str) (p : Plan) : Prop where
  std_links : ∃ l, server.links false = .ok l ∧ linkNames (py% "csv") l = .ok std
  dep_links : ∃ l, server.links true = .ok l ∧ linkNames (py% "csv") l = .ok dep
  std_mem : ∀ c, c ∈ std ↔ Spec.Listed server false c
  dep_mem : ∀ c, c ∈ dep ↔ Spec.Listed server true c
  plan : planAll server { d with root := true, sub := true } std (std ++ dep)
    ⟨[], [], [], [Event.print (py% "Reading SOFA conventions from https://www.sofaconventions.org/conventions/ ...")]⟩ = (.ok (), p)

theorem offers_iff {server : Server} {dep : Bool} {l : List (Option Str)} {r : List Str} (hl : server.links dep = .ok l)
    (hr : linkNames (py% "csv") l = .ok r) (c : Str) : c ∈ r ↔ Spec.Listed server dep c := by
  rw [linkNames_mem hr]
  unfold Spec.Listed
  constructor
  · rintro ⟨u, h⟩
    exact ⟨l, u, hl, h⟩
  · rintro ⟨l', u, h1, h2⟩
    rw [hl] at h1
    cases h1
    exact ⟨u, h2⟩

/-- an update either stops before anything is changed, or it comes to the confirmation -/
theorem updateConventions_cases (lang : Lang) (server : Server) (d : Folder) (assumeYes : Bool) (answer : Except Exc Str) :
    (∃ e, (updateConventions lang server d assumeYes answer).out = .error e ∧
      (updateConventions lang server d assumeYes answer).folder.csv = d.csv ∧
      (updateConventions lang server d assumeYes answer).folder.json = d.json) ∨
    ∃ std dep p, Planned server d std dep p ∧
      updateConventions lang server d assumeYes answer =
        finishUpdate lang p { d with root := true, sub := true } assumeYes answer := by
  unfold updateConventions
  simp only
  cases h1 : server.links false with
  | error e => exact Or.inl ⟨e, rfl, rfl, rfl⟩
  | ok l0 =>
    simp only
    cases h2 : linkNames (py% "csv") l0 with
    | error e => exact Or.inl ⟨e, rfl, rfl, rfl⟩
    | ok std =>
      simp only
      cases h3 : server.links true with
      | error e => exact Or.inl ⟨e, rfl, rfl, rfl⟩
      | ok l1 =>
        simp only
        cases h4 : linkNames (py% "csv") l1 with
        | error e => exact Or.inl ⟨e, rfl, rfl, rfl⟩
        | ok dep =>
          simp only
          split
          · rename_i e p h5
            exact Or.inl ⟨e, rfl, rfl, rfl⟩
          · rename_i u p h5
            exact Or.inr ⟨std, dep, p, ⟨⟨l0, h1, h2⟩, ⟨l1, h3, h4⟩, offers_iff h1 h2, offers_iff h3 h4, h5⟩, rfl⟩

theorem Planned.slash {server : Server} {d : Folder} {std dep : List Str} {p : Plan} (h : Planned server d std dep p) :
    ∀ c ∈ std ++ dep, '/' ∉ c := by
  intro c hc
  rcases List.mem_append.1 hc with hc | hc
  · obtain ⟨_, _, _, _, _, h5, _⟩ := (h.std_mem c).1 hc
    exact h5
  · obtain ⟨_, _, _, _, _, h5, _⟩ := (h.dep_mem c).1 hc
    exact h5

theorem Planned.ok {server : Server} {d : Folder} {std dep : List Str} {p : Plan} (h : Planned server d std dep p) :
    PlanOk server.file { d with root := true, sub := true } (fun c => std.contains c) (std ++ dep) p := by
  have h0 : PlanOk server.file { d with root := true, sub := true } (fun c => std.contains c) []
      ⟨[], [], [], [Event.print (py% "Reading SOFA conventions from https://www.sofaconventions.org/conventions/ ...")]⟩ :=
    ⟨by simp, by simp, by simp⟩
  have := planAll_ok (cs := std ++ dep) h0 (by simpa using h.slash) h.plan
  simpa using this

/-- the cases of a confirmed update that succeeds -/
theorem finishUpdate_ok {lang : Lang} {p : Plan} {d : Folder} {assumeYes : Bool} {answer : Except Exc Str}
    (hy : assumeYes = true ∨ answer = .ok (py% "y")) (h : (finishUpdate lang p d assumeYes answer).out = .ok ()) :
    (p.update = [] ∧ p.outdated = [] ∧ (finishUpdate lang p d assumeYes answer).folder = d) ∨
    applyPlan lang p d = (.ok (), (finishUpdate lang p d assumeYes answer).folder) := by
  unfold finishUpdate at h ⊢
  split
  · rename_i hn
    left
    simp only [Bool.and_eq_true, List.isEmpty_iff] at hn
    exact ⟨hn.1, hn.2, rfl⟩
  · rename_i hn
    rw [if_neg hn] at h
    right
    cases assumeYes with
    | true =>
      simp only [if_true] at h ⊢
      split at h
      · simp at h
      · rename_i u d' h1
        rw [h1]
    | false =>
      have ha : answer = .ok (py% "y") := by simpa using hy
      subst ha
      simp only [Bool.false_eq_true, if_false, ne_eq, not_true_eq_false] at h ⊢
      split at h
      · simp at h
      · rename_i u d' h1
        rw [h1]

theorem update_mirrored {lang : Lang} {server : Server} {d : Folder} {assumeYes : Bool} {answer : Except Exc Str}
    (hy : assumeYes = true ∨ answer = .ok (py% "y"))
    (h : (updateConventions lang server d assumeYes answer).out = .ok ()) :
    ∃ std dep p, Planned server d std dep p ∧
      Mirrored server.file (fun c => std.contains c) (std ++ dep) (updateConventions lang server d assumeYes answer).folder ∧
      (updateConventions lang server d assumeYes answer).folder.root = true ∧
      (updateConventions lang server d assumeYes answer).folder.sub = true := by
  rcases updateConventions_cases lang server d assumeYes answer with ⟨e, he, -⟩ | ⟨std, dep, p, hp, he⟩
  · rw [he] at h; simp at h
  · refine ⟨std, dep, p, hp, ?_⟩
    rw [he] at h ⊢
    rcases finishUpdate_ok hy h with ⟨h1, h2, h3⟩ | h1
    · rw [h3]
      exact ⟨planOk_nothing_mirrored hp.ok h1 h2, rfl, rfl⟩
    · exact ⟨applyPlan_mirrored hp.ok hp.slash h1, applyPlan_root h1⟩

/-! ## Comparison of platforms -/

theorem congruencyLoop_sound (missing : Str → Bool) (i : Nat) (l reported : List Str) :
    (∀ c ∈ (congruencyLoop missing i l reported).2, c ∈ reported ∨ (c ∈ l ∧ excluded c = false ∧ missing c = true)) ∧
    (∀ c ∈ reported, c ∈ (congruencyLoop missing i l reported).2) ∧
    (∀ c ∈ (congruencyLoop missing i l reported).1, c ∈ l) ∧
    (∀ c ∈ l, excluded c = false → missing c = false → c ∈ (congruencyLoop missing i l reported).1) := by
  fun_induction congruencyLoop missing i l reported with
  | case1 i l rep h hex ih =>
    obtain ⟨h1, h2, h3, h4⟩ := ih
    refine ⟨fun c hc => ?_, h2, fun c hc => List.mem_of_mem_erase (h3 c hc), fun c hc he hm => h4 c ?_ he hm⟩
    · rcases h1 c hc with h | ⟨h, h'⟩
      · exact Or.inl h
      · exact Or.inr ⟨List.mem_of_mem_erase h, h'⟩
    · refine (List.mem_erase_of_ne ?_).2 hc
      rintro rfl
      rw [hex] at he
      simp at he
  | case2 i l rep h hex hmiss ih =>
    obtain ⟨h1, h2, h3, h4⟩ := ih
    refine ⟨fun c hc => ?_, fun c hc => h2 c (by simp [hc]), fun c hc => List.mem_of_mem_erase (h3 c hc),
      fun c hc he hm => h4 c ?_ he hm⟩
    · rcases h1 c hc with h5 | ⟨h5, h'⟩
      · rcases List.mem_append.1 h5 with h5 | h5
        · exact Or.inl h5
        · rw [List.mem_singleton.1 h5]
          exact Or.inr ⟨List.getElem_mem h, by simpa using hex, hmiss⟩
      · exact Or.inr ⟨List.mem_of_mem_erase h5, h'⟩
    · refine (List.mem_erase_of_ne ?_).2 hc
      rintro rfl
      rw [hmiss] at hm
      simp at hm
  | case3 i l rep h hex hmiss ih => exact ih
  | case4 i l rep h => exact ⟨fun c hc => Or.inl hc, fun c hc => hc, fun c hc => hc, fun c hc _ _ => hc⟩

/-- without neighbouring conventions that are removed, all are found -/
theorem congruencyLoop_filter (missing : Str → Bool) (n : Nat) (pre rest reported : List Str) (hlen : rest.length ≤ n)
    (hn : (pre ++ rest).Nodup)
    (hadj : ∀ a b, [a, b] <:+: rest → ¬ ((excluded a = true ∨ missing a = true) ∧ (excluded b = true ∨ missing b = true))) :
    congruencyLoop missing pre.length (pre ++ rest) reported =
      (pre ++ rest.filter (fun c => ! (excluded c || missing c)), reported ++ rest.filter (fun c => ! excluded c && missing c)) := by
  induction n generalizing pre rest reported with
  | zero =>
    have : rest = [] := by simpa using hlen
    subst this
    rw [congruencyLoop]
    simp
  | succ n ih =>
    cases rest with
    | nil =>
      rw [congruencyLoop]
      simp
    | cons x rest =>
      have hx : (pre ++ x :: rest)[pre.length]'(by simp) = x := by simp
      have hxpre : x ∉ pre := by
        rw [List.nodup_append] at hn
        intro hm
        exact hn.2.2 x hm x (by simp) rfl
      have her : (pre ++ x :: rest).erase x = pre ++ rest := by
        rw [List.erase_append_right _ hxpre]
        simp
      have hn2 : (pre ++ rest).Nodup := by rw [← her]; exact hn.erase x
      have hinf : ∀ a b, [a, b] <:+: rest → [a, b] <:+: x :: rest := by
        rintro a b ⟨s, t, e⟩
        exact ⟨x :: s, t, by rw [← e]; rfl⟩
      -- continue after a removed element
      have hskip : ∀ rep, (excluded x = true ∨ missing x = true) →
          congruencyLoop missing (pre.length + 1) (pre ++ rest) rep =
            (pre ++ rest.filter (fun c => ! (excluded c || missing c)), rep ++ rest.filter (fun c => ! excluded c && missing c)) := by
        intro rep hbad
        cases rest with
        | nil =>
          rw [congruencyLoop, dif_neg (by simp)]
          simp
        | cons y rest =>
          have hy : ¬ (excluded y = true ∨ missing y = true) := by
            intro hy
            exact hadj x y ⟨[], rest, rfl⟩ ⟨hbad, hy⟩
          simp only [not_or, Bool.not_eq_true] at hy
          have := ih (pre ++ [y]) rest rep (by simp at hlen ⊢; omega) (by simpa using hn2)
            (fun a b hab => hadj a b (hinf a b (by
              obtain ⟨s, t, e⟩ := hab
              exact ⟨y :: s, t, by rw [← e]; rfl⟩)))
          simp only [List.length_append, List.length_cons, List.length_nil, List.append_assoc, List.cons_append,
            List.nil_append] at this
          rw [this]
          simp [hy.1, hy.2]
      rw [congruencyLoop]
      rw [dif_pos (by simp)]
      simp only [hx, her]
      split
      · rename_i hex
        rw [hskip _ (Or.inl hex)]
        simp [hex]
      · rename_i hex
        split
        · rename_i hm
          rw [hskip _ (Or.inr hm)]
          simp [hex, hm]
        · rename_i hm
          have := ih (pre ++ [x]) rest reported (by simp at hlen ⊢; omega) (by simpa using hn)
            (fun a b hab => hadj a b (hinf a b hab))
          simp only [List.length_append, List.length_cons, List.length_nil, List.append_assoc, List.cons_append,
            List.nil_append] at this
          rw [this]
          simp [hex, hm]

/-- the parts of the report -/
def reportLines (m n k : List Str) : List Str :=
  m.map (fun c => py% "- " ++ c ++ py% " is missing in SOFAtoolbox\n") ++
    n.map (fun c => py% "- " ++ c ++ py% " is missing on sofaconventions.org\n") ++
    k.map (fun c => py% "- " ++ c ++ py% " differs across platforms\n")

theorem mem_report {m n k : List Str} {x : Str} (h : x ∈ reportLines m n k) :
    (∃ c ∈ m, x = py% "- " ++ c ++ py% " is missing in SOFAtoolbox\n") ∨
    (∃ c ∈ n, x = py% "- " ++ c ++ py% " is missing on sofaconventions.org\n") ∨
    (∃ c ∈ k, x = py% "- " ++ c ++ py% " differs across platforms\n") := by
  unfold reportLines at h
  rcases List.mem_append.1 h with h | h
  · rcases List.mem_append.1 h with h | h
    · obtain ⟨c, hc, e⟩ := List.mem_map.1 h
      exact Or.inl ⟨c, hc, e.symm⟩
    · obtain ⟨c, hc, e⟩ := List.mem_map.1 h
      exact Or.inr (Or.inl ⟨c, hc, e.symm⟩)
  · obtain ⟨c, hc, e⟩ := List.mem_map.1 h
    exact Or.inr (Or.inr ⟨c, hc, e.symm⟩)

theorem report_inj {a b s t : Str} (h : s ++ a ++ t = s ++ b ++ t) : a = b := by
  simpa using h

theorem checkCongruency_parts {names : Bool → List Str} {file : Bool → Str → Str} {r : Congruency}
    (h : checkCongruency names file = .ok r) :
    ∃ m n, r.report = reportLines m n (r.compared.filter (fun c => unixLines (file false c) ≠ unixLines (file true c))) ∧
      (∀ c ∈ m, c ∈ names false ∧ c ∉ names true ∧ ¬ Spec.Excluded c) ∧
      (∀ c ∈ n, c ∈ names true ∧ c ∉ names false ∧ ¬ Spec.Excluded c) ∧
      (∀ c, c ∈ r.compared.filter (fun c => unixLines (file false c) ≠ unixLines (file true c)) ↔
        c ∈ r.compared ∧ Spec.unix (file false c) ≠ Spec.unix (file true c)) ∧
      (∀ {c}, c ∈ r.compared → c ∈ names false) ∧
      (∀ {c}, c ∈ names false → c ∈ names true → ¬ Spec.Excluded c → c ∈ r.compared) ∧
      ((names false).Nodup → (∀ a b, [a, b] <:+: names false → (Spec.Excluded a ∨ a ∉ names (!false)) →
          ¬ (Spec.Excluded b ∨ b ∉ names (!false))) →
        (∀ c, c ∈ names false → c ∉ names true → ¬ Spec.Excluded c → c ∈ m) ∧
        ∀ c ∈ r.compared, c ∈ names false ∧ c ∈ names true ∧ ¬ Spec.Excluded c) ∧
      ((names true).Nodup → (∀ a b, [a, b] <:+: names true → (Spec.Excluded a ∨ a ∉ names (!true)) →
          ¬ (Spec.Excluded b ∨ b ∉ names (!true))) →
        ∀ c, c ∈ names true → c ∉ names false → ¬ Spec.Excluded c → c ∈ n) := by
  unfold checkCongruency at h
  split at h
  · simp at h
  simp only [Except.ok.injEq] at h
  subst h
  have hex : ∀ c, excluded c = false ↔ ¬ Spec.Excluded c := by
    intro c
    rw [← excluded_iff]; simp
  obtain ⟨a1, a2, a3, a4⟩ := congruencyLoop_sound (fun c => ! (names true).contains c) 0 (names false) []
  have a5 : (names false).Nodup → _ := fun hn hadj =>
    congruencyLoop_filter (fun c => ! (names true).contains c) (names false).length [] (names false) [] (Nat.le_refl _) hn hadj
  simp only [List.length_nil, List.nil_append] at a5
  generalize congruencyLoop (fun c => ! (names true).contains c) 0 (names false) [] = a at a1 a2 a3 a4 a5 ⊢
  obtain ⟨b1, b2, b3, b4⟩ := congruencyLoop_sound (fun c => ! a.1.contains c) 0 (names true) []
  have b5 : (names true).Nodup → _ := fun hn hadj =>
    congruencyLoop_filter (fun c => ! a.1.contains c) (names true).length [] (names true) [] (Nat.le_refl _) hn hadj
  refine ⟨a.2, (congruencyLoop (fun c => ! a.1.contains c) 0 (names true) []).2, rfl, ?_, ?_, ?_, ?_, ?_, ?_, ?_⟩
  · intro c hc
    rcases a1 c hc with h | ⟨h1, h2, h3⟩
    · simp at h
    · exact ⟨h1, by simpa using h3, (hex c).1 h2⟩
  · intro c hc
    rcases b1 c hc with h | ⟨h1, h2, h3⟩
    · simp at h
    · refine ⟨h1, fun hm => ?_, (hex c).1 h2⟩
      have := a4 c hm h2 (by simpa using h1)
      simp [this] at h3
  · intro c
    rw [List.mem_filter, unixLines_eq, unixLines_eq]
    simp
  · intro c hc
    exact a3 c hc
  · intro c h1 h2 h3
    exact a4 c h1 ((hex c).2 h3) (by simpa using h2)
  · intro hn hadj
    have e := a5 hn (by
      intro x y hxy hb
      have := hadj x y hxy
      simp only [excluded_iff, Bool.not_eq_true', List.contains_eq_mem, decide_eq_false_iff_not] at hb
      exact this hb.1 hb.2)
    subst e
    refine ⟨?_, ?_⟩
    · intro c h1 h2 h3
      exact List.mem_filter.2 ⟨h1, by simp [(hex c).2 h3, h2]⟩
    · intro c hc
      obtain ⟨h1, h2⟩ := List.mem_filter.1 hc
      simp only [Bool.not_or, Bool.not_not, Bool.and_eq_true, Bool.not_eq_true', List.contains_iff_mem] at h2
      exact ⟨h1, h2.2, (hex c).1 h2.1⟩
  · intro hn hadj
    have hmiss : ∀ c, c ∈ names true → excluded c = false → (c ∉ a.1 ↔ c ∉ names false) := by
      intro c h1 h2
      exact ⟨fun h hm => h (a4 c hm h2 (by simpa using h1)), fun h hm => h (a3 c hm)⟩
    have e := b5 hn (by
      intro x y hxy hb
      have hx : x ∈ names true := hxy.subset (by simp)
      have hy : y ∈ names true := hxy.subset (by simp)
      have := hadj x y hxy
      simp only [Bool.not_eq_true', List.contains_eq_mem, decide_eq_false_iff_not] at hb
      refine this ?_ ?_
      · rcases hb.1 with h | h
        · exact Or.inl ((excluded_iff x).1 h)
        · by_cases he : excluded x = true
          · exact Or.inl ((excluded_iff x).1 he)
          · exact Or.inr ((hmiss x hx (by simpa using he)).1 h)
      · rcases hb.2 with h | h
        · exact Or.inl ((excluded_iff y).1 h)
        · by_cases he : excluded y = true
          · exact Or.inl ((excluded_iff y).1 he)
          · exact Or.inr ((hmiss y hy (by simpa using he)).1 h))
    simp only [List.length_nil, List.nil_append] at e
    intro c h1 h2 h3
    rw [e]
    refine List.mem_filter.2 ⟨h1, ?_⟩
    have := (hmiss c h1 ((hex c).2 h3)).2 h2
    simp [(hex c).2 h3, this]

/-! ## Files that are kept, compiled files -/

theorem copyUpdates_other {temp : Dict Str} {cs : List Str} {d : Folder} {k : Str} (hk : k ∉ cs) :
    Dict.get? (copyUpdates temp cs d).2.csv k = Dict.get? d.csv k := by
  induction cs generalizing d with
  | nil => rfl
  | cons c cs ih =>
    simp only [List.mem_cons, not_or] at hk
    unfold copyUpdates
    cases Dict.get? temp c with
    | none => rfl
    | some x =>
      simp only
      rw [ih hk.2, Dict.get?_put, if_neg hk.1]

theorem moveDeprecated_other {temp : Dict Str} {cs : List Str} {d : Folder} {k : Str}
    (hk : ∀ c ∈ cs, k ≠ c ∧ k ≠ deprecatedPath c) :
    Dict.get? (moveDeprecated temp cs d).2.csv k = Dict.get? d.csv k := by
  induction cs generalizing d with
  | nil => rfl
  | cons c cs ih =>
    have hc := hk c (by simp)
    have hk' : ∀ c ∈ cs, k ≠ c ∧ k ≠ deprecatedPath c := fun a ha => hk a (by simp [ha])
    unfold moveDeprecated
    split
    · rfl
    · simp only
      split
      · simp only
        rw [Dict.get?_del, if_neg hc.1]
      · cases Dict.get? temp (deprecatedPath c) with
        | none =>
          simp only
          rw [Dict.get?_del, if_neg hc.1]
        | some x =>
          simp only
          rw [ih hk', Dict.get?_put, if_neg hc.2, Dict.get?_del, if_neg hc.1]

theorem applyPlan_other {lang : Lang} {p : Plan} {d : Folder} {k : Str} (h1 : k ∉ p.update)
    (h2 : ∀ c ∈ p.outdated, k ≠ c ∧ k ≠ deprecatedPath c) :
    Dict.get? (applyPlan lang p d).2.csv k = Dict.get? d.csv k := by
  unfold applyPlan
  have e1 := copyUpdates_other (temp := p.temp) (d := d) h1
  split
  · rename_i e d1 he
    rw [he] at e1
    exact e1
  · rename_i u d1 he
    rw [he] at e1
    have e2 := moveDeprecated_other (temp := p.temp) (d := d1) h2
    split
    · rename_i e d2 he2
      rw [he2] at e2
      exact e2.trans e1
    · rename_i u d2 he2
      rw [he2] at e2
      refine Eq.trans ?_ (e2.trans e1)
      unfold compileConventions
      split
      · rfl
      · rw [(compileFiles_csv lang (csvFiles d2) d2).1]

theorem finishUpdate_other (lang : Lang) (p : Plan) (d : Folder) (assumeYes : Bool) (answer : Except Exc Str) (k : Str)
    (h1 : k ∉ p.update) (h2 : ∀ c ∈ p.outdated, k ≠ c ∧ k ≠ deprecatedPath c) :
    Dict.get? (finishUpdate lang p d assumeYes answer).folder.csv k = Dict.get? d.csv k := by
  have h := applyPlan_other (lang := lang) (d := d) h1 h2
  unfold finishUpdate
  split
  · rfl
  · split
    · split
      · rename_i e d' he; rw [he] at h; exact h
      · rename_i e d' he; rw [he] at h; exact h
    · simp only
      split
      · rfl
      · split
        · rfl
        · split
          · rename_i e d' he; rw [he] at h; exact h
          · rename_i e d' he; rw [he] at h; exact h

theorem applyPlan_compiled {lang : Lang} {p : Plan} {d d' : Folder} (h : applyPlan lang p d = (.ok (), d'))
    {dir name x : Str} (hdir : dir = [] ∨ dir = py% "deprecated/") (hname : '/' ∉ name ∧ name ≠ [] ∧ name.head? ≠ some '.')
    (hx : Spec.Holds d' (dir ++ name ++ py% ".csv") x) :
    ∃ t, csv2dict lang x = .ok t ∧ Dict.get? d'.json (dir ++ name ++ py% ".json") = some t := by
  unfold applyPlan at h
  split at h
  · simp at h
  · split at h
    · simp at h
    · rename_i u2 d2 h2
      unfold compileConventions at h
      split at h
      · simp at h
      · have e := (compileFiles_csv lang (csvFiles d2) d2).1
        rw [h] at e
        simp only at e
        obtain ⟨h3, -⟩ := compileFiles_json h (fun c hc => csvFiles_csv hc)
        unfold Spec.Holds at hx
        rw [e] at hx
        have hglob : globFile (name ++ py% ".csv") = true := by
          obtain ⟨n1, n2, n3⟩ := hname
          cases name with
          | nil => simp at n2
          | cons a name =>
            have : a ≠ '.' := by simpa using n3
            simp only [globFile, Bool.and_eq_true, Bool.not_eq_true', List.contains_eq_mem, decide_eq_false_iff_not, Str.endsWith,
              List.isSuffixOf_iff_suffix, Str.startsWith]
            refine ⟨⟨?_, List.suffix_append _ _⟩, ?_⟩
            · simp only [List.mem_append, not_or]
              exact ⟨n1, by decide⟩
            · simp [List.isPrefixOf, Ne.symm this]
        have hmem : dir ++ name ++ py% ".csv" ∈ csvFiles d2 := by
          have hk : dir ++ name ++ py% ".csv" ∈ Dict.keys d2.csv := by
            have := (Dict.get?_eq_none_iff d2.csv (dir ++ name ++ py% ".csv")).not
            rw [hx] at this
            simpa using this
          unfold csvFiles
          rcases hdir with rfl | rfl
          · exact List.mem_append_left _ (List.mem_filter.2 ⟨hk, by simpa using hglob⟩)
          · refine List.mem_append_right _ (List.mem_filter.2 ⟨hk, ?_⟩)
            rw [Bool.and_eq_true]
            refine ⟨by simp [Str.startsWith], ?_⟩
            simpa using hglob
        obtain ⟨t, h4, h5⟩ := h3 _ hmem
        rw [hx] at h4
        refine ⟨t, h4, ?_⟩
        have hj : jsonName (dir ++ name ++ py% ".csv") = dir ++ name ++ py% ".json" := by
          unfold jsonName
          rw [show dir ++ name ++ py% ".csv" = (dir ++ name ++ py% ".") ++ py% "csv" by simp,
            dropEnd_of_append _ (py% "csv") 3 rfl]
          simp
        rw [← hj]
        exact h5

theorem update_again {lang : Lang} {server : Server} {d d' : Folder} {std dep : List Str} {p : Plan} {assumeYes : Bool}
    {answer : Except Exc Str} (hp : Planned server d std dep p) (hd : ({ d' with root := true, sub := true } : Folder) = d')
    (h : ∀ {p}, planAll server d' std (std ++ dep) p = (.ok (), p)) :
    updateConventions lang server d' assumeYes answer = ⟨.ok (), d',
      [.print (py% "Reading SOFA conventions from https://www.sofaconventions.org/conventions/ ..."),
       .print (py% "... conventions already up to date.")]⟩ := by
  obtain ⟨l0, h1, h2⟩ := hp.std_links
  obtain ⟨l1, h3, h4⟩ := hp.dep_links
  unfold updateConventions
  simp only [h1, h2, h3, h4, hd, h]
  rfl

/-! ## csv files -/

theorem nodup_eraseDups (l : List Str) : l.eraseDups.Nodup := by
  induction hn : l.length using Nat.strongRecOn generalizing l with
  | ind n ih =>
    cases l with
    | nil => simp
    | cons a l =>
      rw [List.eraseDups_cons, List.nodup_cons]
      refine ⟨by simp, ih _ ?_ _ rfl⟩
      subst hn
      exact Nat.lt_of_le_of_lt (List.length_filter_le _ _) (by simp)

theorem nodup_groups {l : List Str} (h : l.Nodup) (g q : Str → Bool) :
    (l.filter (fun k => g k && ! q k) ++ l.filter (fun k => ! g k && ! q k) ++ l.filter q).Nodup := by
  rw [List.nodup_append, List.nodup_append]
  refine ⟨⟨h.filter _, h.filter _, ?_⟩, h.filter _, ?_⟩
  · intro a ha b hb
    rintro rfl
    simp only [List.mem_filter, Bool.and_eq_true, Bool.not_eq_true'] at ha hb
    rw [ha.2.1] at hb
    simp at hb
  · intro a ha b hb
    rintro rfl
    simp only [List.mem_append, List.mem_filter, Bool.and_eq_true, Bool.not_eq_true'] at ha hb
    rcases ha with ha | ha <;> rw [ha.2.2] at hb <;> simp at hb

theorem csv2dict_keys {lang : Lang} {content : Str} {d : Dict (Dict Cell)} (h : csv2dict lang content = .ok d) :
    ∃ t ls names, lang.decode content = .ok t ∧ Spec.Lines (Spec.unixBreaks t) ls ∧
      List.Forall₂ Spec.RowName (ls.drop 1) names ∧
      Dict.keys d =
        names.eraseDups.filter (fun k => Str.hasSub k (py% "GLOBAL") && ! Str.startsWith k (py% "Data")) ++
        names.eraseDups.filter (fun k => ! Str.hasSub k (py% "GLOBAL") && ! Str.startsWith k (py% "Data")) ++
        names.eraseDups.filter (fun k => Str.startsWith k (py% "Data")) := by
  unfold csv2dict at h
  cases ht : lang.decode content with
  | error e => simp [ht] at h
  | ok t =>
    simp only [ht] at h
    split at h
    · simp at h
    · rename_i d0 h0
      simp only [Except.ok.injEq] at h
      subst h
      have hu : universalNewlines false t = Spec.unixBreaks t := by
        rw [universalNewlines_eq]; simp
      have hl := readlines_lines (Spec.unixBreaks t)
      rw [hu] at h0
      refine ⟨t, readlines (Spec.unixBreaks t), ?_⟩
      generalize readlines (Spec.unixBreaks t) = ls at hl h0 ⊢
      obtain ⟨names, h1, h2⟩ : ∃ names, List.Forall₂ Spec.RowName (ls.drop 1) names ∧ Dict.keys d0 = names.eraseDups := by
        cases ls with
        | nil =>
          simp only [csvTable, Option.some.injEq] at h0
          subst h0
          exact ⟨[], by simp, rfl⟩
        | cons l ls =>
          simp only [csvTable] at h0
          cases hr : parseRow lang l with
          | none => simp [hr] at h0
          | some row =>
            simp only [hr] at h0
            obtain ⟨names, h1, h2⟩ := keys_csvRows (done := []) (by rfl) h0
            exact ⟨names, h1, h2⟩
      refine ⟨names, rfl, hl, h1, ?_⟩
      rw [(keys_reorder d0 (by rw [h2]; exact nodup_eraseDups names)).1, h2]

end Sofar
