import Verif.Props.Free
import Verif.Props.Equals
/-!
# C90: Objects created at different times are equal up to their dates
-/
namespace Sofar

/-- dictionaries with the same names in the same order and the same values, except for some names, have the same other items -/
theorem filter_of_same {V : Type} (p : Str → Bool) : ∀ {d d' : Dict V}, (d.map Prod.fst).Nodup →
    d'.map Prod.fst = d.map Prod.fst → (∀ k, p k = true → Dict.get? d' k = Dict.get? d k) →
    d'.filter (fun e => p e.1) = d.filter (fun e => p e.1) := by
  intro d
  induction d with
  | nil =>
    intro d' _ hk _
    cases d' with
    | nil => rfl
    | cons e d' => simp at hk
  | cons e d ih =>
    intro d' hn hk hs
    cases d' with
    | nil => simp at hk
    | cons e' d' =>
      simp only [List.map_cons, List.cons.injEq] at hk
      simp only [List.map_cons, List.nodup_cons] at hn
      obtain ⟨k, v⟩ := e
      obtain ⟨k', v'⟩ := e'
      obtain ⟨hk1, hk2⟩ := hk
      simp only at hk1 hn
      subst hk1
      have hrest : ∀ q, p q = true → Dict.get? d' q = Dict.get? d q := by
        intro q hq
        by_cases he : q = k'
        · subst he
          have h1 : ∀ x : Dict V, q ∉ x.map Prod.fst → Dict.get? x q = none := by
            intro x hx
            cases hg : Dict.get? x q with
            | none => rfl
            | some w => exact absurd (List.mem_map.mpr ⟨_, Dict.mem_of_get? hg, rfl⟩) hx
          rw [h1 d hn.1, h1 d' (by rw [hk2]; exact hn.1)]
        · have := hs q hq
          have he' : ¬ k' = q := fun h => he h.symm
          simpa [Dict.get?, he'] using this
      have hr := ih hn.2 hk2 hrest
      cases hp : p k' with
      | true =>
        have := hs k' hp
        simp only [Dict.get?, if_true, Option.some.injEq] at this
        subst this
        simp only [List.filter_cons, hp, if_true, hr]
      | false => simpa [List.filter_cons, hp] using hr

/-- C90: Objects of the same convention that are created at different times are equal if the dates are excluded from the
comparison. -/
theorem C90_equal (env : Env) (t : Str) (hd : ∀ k ∈ Spec.dateNames, Spec.FreeText env k) (c : Str) (m : Bool)
    (ver : VersionArg) (a : VerifyArg) (o o' : Obj) (ho : (initSofa env c m ver a).out = .ok o)
    (ho' : (initSofa { env with now := t } c m ver a).out = .ok o') (ht : Spec.Typed o) (verbose : Bool) (x : Str)
    (hx : Str.upper x = py% "DATE") : (equals o o' verbose (some x)).out = .ok true := by
  obtain ⟨_, ⟨y, h1, _⟩ | ⟨p, p', h1, h2, h3⟩⟩ := C90_time env t hd c m ver a
  · rw [ho] at h1; simp at h1
  · rw [ho] at h1; rw [ho'] at h2
    simp only [Except.ok.injEq] at h1 h2
    subst h1; subst h2
    have hn : (o.attrs.map Prod.fst).Nodup := initSofa_nodup ho
    rw [C47_date o o' verbose x hx]
    have hw : Spec.without (fun k => py% "Date" <:+: k) o' = Spec.without (fun k => py% "Date" <:+: k) o := by
      obtain ⟨h4, h5, h6, h7, h8, h9⟩ := h3.hidden
      cases o; cases o'
      simp only at h4 h5 h6 h7 h8 h9
      subst h4; subst h5; subst h6; subst h7; subst h8; subst h9
      unfold Spec.without
      simp only [Obj.mk.injEq, and_self, and_true]
      classical
      refine filter_of_same (fun k => @decide (¬ py% "Date" <:+: k) (@instDecidableNot _ (Classical.propDecidable _))) hn
        h3.names ?_
      intro k hk
      apply h3.values
      intro hm
      simp only [decide_eq_true_eq] at hk
      apply hk
      simp only [Spec.dateNames, List.mem_cons, List.not_mem_nil, or_false] at hm
      rcases hm with rfl | rfl <;> decide +kernel
    rw [hw]
    apply C45_reflexive_partial
    · unfold Spec.without
      exact (List.Nodup.sublist (List.Sublist.map _ List.filter_sublist) hn)
    · intro k v hv
      apply ht k v
      apply Dict.get?_of_mem hn
      exact (List.mem_filter.mp (Dict.mem_of_get? hv)).1

/-- checker for `Spec.Rectangular` -/
def rectangularB : Val → Bool
  | .arr b => b.data.length == b.shape.foldr (· * ·) 1
  | _ => true

/-- checker for `Spec.ComparableType` -/
def comparableB (typ : Str) (v : Val) : Bool :=
  (typ == py% "attribute" && (Spec.text v).isSome) ||
  (typ == py% "double" && rectangularB v && (Spec.kindOf v == .i || Spec.kindOf v == .f) &&
    (Spec.elems v).all (fun e => match e with | .num _ => true | _ => false)) ||
  (typ == py% "string" && rectangularB v && (Spec.kindOf v == .U || Spec.kindOf v == .S) &&
    (Spec.elems v).all (fun e => match e with | .str s => s.all (fun c => c.toNat < 128) | _ => false))

theorem rectangularB_sound {v : Val} (h : rectangularB v = true) : Spec.Rectangular v := by
  cases v <;> simp_all [Spec.Rectangular, rectangularB]

theorem comparableB_sound {typ : Str} {v : Val} (h : comparableB typ v = true) : Spec.ComparableType typ v := by
  unfold comparableB at h
  rw [Bool.or_eq_true, Bool.or_eq_true] at h
  rcases h with (h | h) | h
  · rw [Bool.and_eq_true, beq_iff_eq] at h
    exact Or.inl ⟨h.1, Option.isSome_iff_exists.mp h.2⟩
  · simp only [Bool.and_eq_true, beq_iff_eq, Bool.or_eq_true] at h
    obtain ⟨⟨⟨h1, h2⟩, h3⟩, h4⟩ := h
    refine Or.inr (Or.inl ⟨h1, ⟨rectangularB_sound h2, ?_, ?_⟩, ?_⟩)
    · intro _ e he
      have := List.all_eq_true.mp h4 e he
      cases e <;> simp_all
    · intro hk; rcases h3 with h3 | h3 <;> rw [h3] at hk <;> simp at hk
    · rcases h3 with h3 | h3 <;> simp [h3]
  · simp only [Bool.and_eq_true, beq_iff_eq, Bool.or_eq_true] at h
    obtain ⟨⟨⟨h1, h2⟩, h3⟩, h4⟩ := h
    refine Or.inr (Or.inr ⟨h1, ⟨rectangularB_sound h2, ?_, ?_⟩, ?_, ?_⟩)
    · intro hk; rcases h3 with h3 | h3 <;> rw [h3] at hk <;> simp at hk
    · intro _ e he
      have := List.all_eq_true.mp h4 e he
      cases e <;> simp_all
    · exact h3
    · intro s hs c hc
      have := List.all_eq_true.mp h4 _ hs
      simpa using List.all_eq_true.mp this c hc

/-- checker for `Spec.Typed` -/
def typedB (o : Obj) : Bool :=
  o.attrs.all (fun p => match Dict.get? o.conv p.1 with | some e => comparableB e.typ p.2 | none => false)

theorem typedB_sound {o : Obj} (h : typedB o = true) : Spec.Typed o := by
  intro k v hv
  have := List.all_eq_true.mp h _ (Dict.mem_of_get? hv)
  simp only at this
  split at this
  · rename_i e he
    exact ⟨e, he, comparableB_sound this⟩
  · simp at this

/-- the object of the next day -/
def exSofaNext : Obj :=
  let next := Val.str (py% "2026-01-02 00:00:00")
  { exSofa with
    attrs := Dict.put (Dict.put exSofa.attrs (py% "GLOBAL_DateCreated") next) (py% "GLOBAL_DateModified") next }

/-- the object of the next day is another one, and equal up to the dates -/
example : (∀ k ∈ Spec.dateNames, Spec.FreeText exEnv k) ∧ (initSofa exEnv (py% "FIR") false .latest .auto).out = .ok exSofa ∧
    Spec.Typed exSofa ∧ Str.upper (py% "date") = py% "DATE" ∧
    ∃ o', (initSofa { exEnv with now := py% "2026-01-02 00:00:00" } (py% "FIR") false .latest .auto).out = .ok o' ∧
      o' ≠ exSofa ∧ (equals exSofa o' false none).out = .ok false := by
  refine ⟨?_, by decide +kernel, typedB_sound (by decide +kernel), by decide +kernel, ?_⟩
  · intro k hk
    simp only [Spec.dateNames, List.mem_cons, List.not_mem_nil, or_false] at hk
    rcases hk with rfl | rfl <;> exact freeTextB_sound (by decide +kernel)
  · refine ⟨exSofaNext, ?_, ?_, ?_⟩ <;> decide +kernel

end Sofar
