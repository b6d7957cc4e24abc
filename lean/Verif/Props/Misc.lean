import Verif.Model.Misc
import Verif.Spec.Misc
import Verif.Props.Lookup
import Verif.Props.Rules
import Verif.Lemmas.Text
import Mathlib.Data.List.Forall2
/-!
# C66, C67: reference units, list of conventions
-/
namespace Sofar

/-! ## C66 -/

theorem reSplit_prefix {u : Str} (h1 : ',' ∉ u) (h2 : ' ' ∉ u) (t : Str) (us : List Str)
    (h : Str.reSplitCommaOrSpace t = [] :: us) : Str.reSplitCommaOrSpace (u ++ t) = u :: us := by
  induction u with
  | nil => exact h
  | cons c u ih =>
    simp only [List.mem_cons, not_or] at h1 h2
    have h3 := ih h1.2 h2.2
    rw [List.cons_append, Str.reSplitCommaOrSpace.eq_5 _ _ (by grind) (by grind) (by grind), h3]
    rfl

theorem separatedUnits_split {t : Str} {us : List Str} (h : Spec.SeparatedUnits t us) :
    Str.reSplitCommaOrSpace t = us := by
  induction h with
  | one u h1 h2 => have := reSplit_prefix h1 h2 [] [] rfl; simpa using this
  | comma u t us h1 h2 hs _ ih =>
    exact reSplit_prefix h1 h2 _ _ (by rw [Str.reSplitCommaOrSpace.eq_3 _ (by grind), ih])
  | commaSpace u t us h1 h2 _ ih => exact reSplit_prefix h1 h2 _ _ (by rw [Str.reSplitCommaOrSpace, ih])
  | space u t us h1 h2 _ ih => exact reSplit_prefix h1 h2 _ _ (by rw [Str.reSplitCommaOrSpace, ih])

theorem separatedUnits_cons {t : Str} {us : List Str} (h : Spec.SeparatedUnits t us) {c : Char} (h1 : c ≠ ',')
    (h2 : c ≠ ' ') : Spec.SeparatedUnits (c :: t) (Str.consHead c us) := by
  cases h with
  | one u hu hv => exact .one _ (by simp [Ne.symm h1, hu]) (by simp [Ne.symm h2, hv])
  | comma u t us hu hv hs h => exact .comma (c :: u) t us (by simp [Ne.symm h1, hu]) (by simp [Ne.symm h2, hv]) hs h
  | commaSpace u t us hu hv h =>
    exact .commaSpace (c :: u) t us (by simp [Ne.symm h1, hu]) (by simp [Ne.symm h2, hv]) h
  | space u t us hu hv h => exact .space (c :: u) t us (by simp [Ne.symm h1, hu]) (by simp [Ne.symm h2, hv]) h

theorem split_separatedUnits (t : Str) : Spec.SeparatedUnits t (Str.reSplitCommaOrSpace t) := by
  fun_induction Str.reSplitCommaOrSpace t with
  | case1 => exact .one [] (by simp) (by simp)
  | case2 t ih => exact .commaSpace [] t _ (by simp) (by simp) ih
  | case3 t hn ih => exact .comma [] t _ (by simp) (by simp) (by grind) ih
  | case4 t ih => exact .space [] t _ (by simp) (by simp) ih
  | case5 c t hn1 hn2 hn3 ih => exact separatedUnits_cons ih (by grind) (by grind)

theorem referenceUnits_ok {aliases : Dict Str} {us rs : List Str} :
    referenceUnits aliases us = .ok rs ↔ Spec.AliasOf aliases us rs := by
  constructor
  · intro h
    induction us generalizing rs with
    | nil => simp only [referenceUnits, Except.ok.injEq] at h; subst h; exact .nil
    | cons u us ih =>
      simp only [referenceUnits] at h
      cases h1 : Dict.get? aliases u with
      | none => simp [h1] at h
      | some r =>
        simp only [h1] at h
        cases h2 : referenceUnits aliases us with
        | error x => simp [h2] at h
        | ok l =>
          simp only [h2, Except.ok.injEq] at h
          subst h
          exact .cons _ _ _ _ h1 (ih h2)
  · intro h
    induction h with
    | nil => rfl
    | cons t r ts rs h1 _ ih => simp [referenceUnits, h1, ih]

theorem referenceUnits_error {aliases : Dict Str} {us : List Str} {x : Exc} (h : referenceUnits aliases us = .error x) :
    ∃ u ∈ us, Dict.get? aliases u = none ∧ x = .keyError u := by
  induction us with
  | nil => simp [referenceUnits] at h
  | cons u us ih =>
    simp only [referenceUnits] at h
    cases h1 : Dict.get? aliases u with
    | none => simp only [h1, Except.error.injEq] at h; exact ⟨u, by simp, h1, h.symm⟩
    | some r =>
      simp only [h1] at h
      cases h2 : referenceUnits aliases us with
      | error y =>
        simp only [h2, Except.error.injEq] at h
        obtain ⟨u', h3, h4, h5⟩ := ih (h2.trans (by rw [h]))
        exact ⟨u', by simp [h3], h4, h5⟩
      | ok l => simp [h2] at h

/-- C66: for a unit string with any of the separators of the standard, in upper or lower case, the result consists of
the reference units, separated by `', '` (by `' '` if the first one is `'cubic'`). -/
theorem C66_reference (aliases : Dict Str) (t : Str) (us rs : List Str) (hu : Spec.SeparatedUnits (Str.lower t) us)
    (hr : Spec.AliasOf aliases us rs) :
    (rs.head? ≠ some (py% "cubic") → getReferenceUnit aliases t = .ok (Str.join (py% ", ") rs)) ∧
    (rs.head? = some (py% "cubic") → getReferenceUnit aliases t = .ok (Str.join (py% " ") rs)) := by
  unfold getReferenceUnit
  rw [separatedUnits_split hu, referenceUnits_ok.2 hr]
  constructor
  · intro h; simp [h]
  · intro h; simp [h]

example : getReferenceUnit exEnv.aliases (py% "Degrees degrees,meter") = .ok (py% "degree, degree, metre") ∧
    Spec.SeparatedUnits (Str.lower (py% "Degrees degrees,meter")) [py% "degrees", py% "degrees", py% "meter"] ∧
    Spec.AliasOf exEnv.aliases [py% "degrees", py% "degrees", py% "meter"] [py% "degree", py% "degree", py% "metre"] := by
  refine ⟨by decide, ?_, ?_⟩
  · have := split_separatedUnits (Str.lower (py% "Degrees degrees,meter"))
    have e : Str.reSplitCommaOrSpace (Str.lower (py% "Degrees degrees,meter")) =
        [py% "degrees", py% "degrees", py% "meter"] := by decide
    rwa [e] at this
  · exact .cons _ _ _ _ (by decide) (.cons _ _ _ _ (by decide) (.cons _ _ _ _ (by decide) .nil))

/-- C66: every unit string is a sequence of separated units in exactly one way, and the only other outcome is a KeyError
for a unit that is not in the table of aliases. -/
theorem C66_unknown (aliases : Dict Str) (t : Str) :
    ∃ us, Spec.SeparatedUnits (Str.lower t) us ∧ (∀ us', Spec.SeparatedUnits (Str.lower t) us' → us' = us) ∧
      ∀ x, getReferenceUnit aliases t = .error x → ∃ u ∈ us, u ∉ aliases.map Prod.fst ∧ x = .keyError u := by
  refine ⟨_, split_separatedUnits _, fun us' h => (separatedUnits_split h).symm, ?_⟩
  intro x h
  unfold getReferenceUnit at h
  cases h1 : referenceUnits aliases (Str.reSplitCommaOrSpace (Str.lower t)) with
  | ok rs => simp [h1] at h
  | error y =>
    simp only [h1, Except.error.injEq] at h
    subst h
    obtain ⟨u, hu, hn, hx⟩ := referenceUnits_error h1
    exact ⟨u, hu, (Dict.get?_eq_none_iff _ _).1 hn, hx⟩

example : getReferenceUnit exEnv.aliases (py% "degree, inch") = .error (.keyError (py% "inch")) := by decide

theorem units_separated {t : Str} {us : List Str} (h : Spec.Units t us) (hs : ∀ u ∈ us, ' ' ∉ u) :
    Spec.SeparatedUnits t us := by
  induction h with
  | one u hu => exact .one u hu (hs u (by simp))
  | comma u t us hu ht _ ih => exact .comma u t us hu (hs u (by simp)) ht (ih (fun x hx => hs x (by simp [hx])))
  | commaSpace u t us hu _ ih => exact .commaSpace u t us hu (hs u (by simp)) (ih (fun x hx => hs x (by simp [hx])))

/-- C66 for valid unit strings: the unit string is accepted by `_verify_unit` for the reference `r`, which is written
with `', '` as in the standard, and no unit contains a space: the result is the reference. Missing: units that contain
a space, see `C66_refuted`. -/
theorem C66_valid_partial (aliases : Dict Str) (t : Str) (rs : List Str) (hne : rs ≠ [])
    (hr : ∀ r ∈ rs, ',' ∉ r) (hc : rs.head? ≠ some (py% "cubic"))
    (hs : ∀ us, Spec.Units (Str.lower t) us → ∀ u ∈ us, ' ' ∉ u)
    (hv : verifyUnit aliases (Str.lower t) [Str.join (py% ", ") rs] = .ok true) :
    getReferenceUnit aliases t = .ok (Str.join (py% ", ") rs) := by
  obtain ⟨ut, ur, h1, h2, h3⟩ := (verifyUnit_iff _ _ _).1 hv
  have : ur = rs := by
    rw [← units_split h2, units_split (units_join_commaSpace rs hne hr)]
  subst this
  exact (C66_reference aliases t ut ur (units_separated h1 (hs ut h1)) h3).1 hc

example : verifyUnit exEnv.aliases (Str.lower (py% "Degrees,degree, meter"))
    [Str.join (py% ", ") [py% "degree", py% "degree", py% "metre"]] = .ok true := by decide

/-- C66 is false: with a table that contains the unit `'cubic metre'`, this unit is accepted by `_verify_unit`, but
`_get_reference_unit` raises KeyError. -/
theorem C66_refuted : ∃ (aliases : Dict Str) (t r : Str), verifyUnit aliases (Str.lower t) [r] = .ok true ∧
    getReferenceUnit aliases t = .error (.keyError (py% "cubic")) :=
  ⟨[(py% "cubic metre", py% "cubic metre")], py% "cubic metre", py% "cubic metre", by decide, by decide⟩

/-! ## C67 -/

theorem nameVersion_of {b n v : Str} (h : Spec.FileOf b n v) : nameVersion b = .ok (n, v) := by
  obtain ⟨rfl, h1, h2⟩ := h
  unfold nameVersion
  rw [splitChar_append h1, splitChar_not_mem (by simp [h2])]
  simp only [Except.ok.injEq, Prod.mk.injEq, true_and]
  exact dropEnd_append v (py% ".json")

theorem mapM_names {l : List ConvFile} (hf : ∀ f ∈ l, ∃ n w, Spec.FileOf f.base n w) :
    ∃ r, l.mapM (fun f => nameVersion f.base) = .ok r ∧
      List.Forall₂ (fun f p => Spec.FileOf f.base p.1 p.2) l r := by
  induction l with
  | nil => exact ⟨[], rfl, .nil⟩
  | cons f l ih =>
    obtain ⟨n, w, h⟩ := hf f (by simp)
    obtain ⟨r, h1, h2⟩ := ih (fun g hg => hf g (by simp [hg]))
    refine ⟨(n, w) :: r, ?_, .cons h h2⟩
    rw [List.mapM_cons, nameVersion_of h]
    simp only [bind, Except.bind, h1]
    rfl

/-- C67: if all files are named after their convention and version, `list_conventions` prints one line for every file. -/
theorem C67_lists (env : Env) (hf : ∀ f ∈ env.files, ∃ n w, Spec.FileOf f.base n w) :
    ∃ lines : List (Str × Str), List.Forall₂ (fun f p => Spec.FileOf f.base p.1 p.2) env.files lines ∧
      listConventions env = .ok [.print (py% "Available SOFA conventions:\n" ++
        (lines.map (fun p => p.1 ++ py% " (Version " ++ p.2 ++ py% ")\n")).flatten)] := by
  obtain ⟨r, h1, h2⟩ := mapM_names hf
  refine ⟨r, h2, ?_⟩
  unfold listConventions conventionsText getConventions
  rw [h1]
  rfl

example : listConventions exEnv =
    .ok [.print (py% "Available SOFA conventions:\nFIR (Version 1.0)\nFIR (Version 0.9)\n")] ∧
    ∀ f ∈ exEnv.files, ∃ n w, Spec.FileOf f.base n w := by
  refine ⟨by decide +kernel, ?_⟩
  intro f hf
  simp only [exEnv, List.mem_cons, List.not_mem_nil, or_false] at hf
  rcases hf with rfl | rfl
  · exact ⟨py% "FIR", py% "1.0", by unfold Spec.FileOf; decide⟩
  · exact ⟨py% "FIR", py% "0.9", by unfold Spec.FileOf; decide⟩

/-- C67: the listed conventions are those that can be loaded with this name and version. -/
theorem C67_loadable (env : Env) (hf : ∀ f ∈ env.files, ∃ n w, Spec.FileOf f.base n w) (n w : Str) (hn : '_' ∉ n) :
    (∃ f ∈ env.files, Spec.FileOf f.base n w) ↔ ∃ conv, loadConvention env n (.exact w) = .ok conv :=
  (exact_lookup env n w hn hf).1.symm

example : (∃ f ∈ exEnv.files, Spec.FileOf f.base (py% "FIR") (py% "0.9")) ∧
    (∃ conv, loadConvention exEnv (py% "FIR") (.exact (py% "0.9")) = .ok conv) ∧
    ¬ ∃ conv, loadConvention exEnv (py% "FIR") (.exact (py% "1.1")) = .ok conv := by
  have hf : ∀ f ∈ exEnv.files, ∃ n w, Spec.FileOf f.base n w := by
    intro f hf
    simp only [exEnv, List.mem_cons, List.not_mem_nil, or_false] at hf
    rcases hf with rfl | rfl
    · exact ⟨py% "FIR", py% "1.0", by unfold Spec.FileOf; decide⟩
    · exact ⟨py% "FIR", py% "0.9", by unfold Spec.FileOf; decide⟩
  have h1 : ∃ f ∈ exEnv.files, Spec.FileOf f.base (py% "FIR") (py% "0.9") :=
    ⟨_, List.mem_cons_of_mem _ List.mem_cons_self, by unfold Spec.FileOf; decide⟩
  refine ⟨h1, (C67_loadable exEnv hf _ _ (by decide)).1 h1, ?_⟩
  rw [← C67_loadable exEnv hf _ _ (by decide)]
  rintro ⟨f, hf, hx⟩
  simp only [exEnv, List.mem_cons, List.not_mem_nil, or_false] at hf
  unfold Spec.FileOf at hx
  rcases hf with rfl | rfl <;> exact absurd hx (by decide)

theorem digit_ne_dot {c : Char} {d : Nat} (h : Str.digit? c = some d) : c ≠ '.' := by
  rintro rfl
  simp [Str.digit?] at h

theorem strFloat_plain {v : Str} (h : Spec.PlainVersion v) : strFloat v = some v := by
  obtain ⟨⟨m, d, hv⟩, h0⟩ := h
  have hf := (pyFloat_simple hv).1
  obtain ⟨a, c, rfl, h1, h2⟩ := hv
  have ha : a ≠ [] := by rintro rfl; simp [Str.digits?] at h1
  unfold Str.digits? at h1
  rw [if_neg (by simpa using ha)] at h1
  have hc : c ≠ '.' := digit_ne_dot h2
  have h3 : Str.splitChar '.' (a ++ ['.', c]) = [a, [c]] := by
    rw [splitChar_append (digitsGo_dot 0 a m h1), splitChar_not_mem (by simpa using Ne.symm hc)]
  unfold strFloat
  rw [hf, h3]
  simp only [Option.isNone_some, Bool.false_eq_true, if_false, Option.some.injEq]
  have hl : stripZerosLeft a = a := by
    unfold stripZerosLeft
    cases a with
    | nil => exact absurd rfl ha
    | cons x a =>
      by_cases hx : x = '0'
      · subst hx
        cases a with
        | nil => rfl
        | cons y a =>
          have := h0 y (a ++ ['.', c]) (by simp)
          subst this
          exact absurd (List.mem_cons_of_mem _ List.mem_cons_self) (digitsGo_dot 0 _ m h1)
      · simp [hx]
  have hr : stripZerosRight [c] = [c] := by
    unfold stripZerosRight
    by_cases hx : c = '0'
    · subst hx; rfl
    · simp [hx]
  rw [hl, hr]
  simp

theorem versionExists_plain {v n : Str} {l : List (Str × Str)} (hp : ∀ p ∈ l, p.1 = n → Spec.PlainVersion p.2) :
    ∃ b, versionExists v n l = .ok b ∧ (b = true ↔ (n, v) ∈ l) := by
  induction l with
  | nil => exact ⟨false, rfl, by simp⟩
  | cons p l ih =>
    obtain ⟨n', w⟩ := p
    obtain ⟨b, h1, h2⟩ := ih (fun q hq => hp q (by simp [hq]))
    simp only [versionExists]
    by_cases hn : n' = n
    · subst hn
      rw [if_pos rfl, strFloat_plain (hp (n', w) (by simp) rfl)]
      simp only [h1]
      refine ⟨_, rfl, ?_⟩
      simp only [Bool.or_eq_true, decide_eq_true_eq, h2, List.mem_cons, Prod.mk.injEq, true_and]
      constructor
      · rintro (rfl | h)
        · exact Or.inl rfl
        · exact Or.inr h
      · rintro (h | h)
        · exact Or.inl h.symm
        · exact Or.inr h
    · rw [if_neg hn]
      refine ⟨b, h1, ?_⟩
      rw [h2, List.mem_cons]
      simp [Ne.symm hn]

theorem forall2_mem_left {α β : Type} {R : α → β → Prop} {l : List α} {r : List β} (h : List.Forall₂ R l r) {b : β}
    (hb : b ∈ r) : ∃ a ∈ l, R a b := by
  induction h with
  | nil => simp at hb
  | cons h _ ih =>
    rcases List.mem_cons.1 hb with rfl | hb
    · exact ⟨_, by simp, h⟩
    · obtain ⟨a, ha, hr⟩ := ih hb
      exact ⟨a, by simp [ha], hr⟩

theorem forall2_mem_right {α β : Type} {R : α → β → Prop} {l : List α} {r : List β} (h : List.Forall₂ R l r) {a : α}
    (ha : a ∈ l) : ∃ b ∈ r, R a b := by
  induction h with
  | nil => simp at ha
  | cons h _ ih =>
    rcases List.mem_cons.1 ha with rfl | ha
    · exact ⟨_, by simp, h⟩
    · obtain ⟨b, hb, hr⟩ := ih ha
      exact ⟨b, by simp [hb], hr⟩

theorem fileOf_unique {b n v n' v' : Str} (h : Spec.FileOf b n v) (h' : Spec.FileOf b n' v') : n = n' ∧ v = v' := by
  have h1 := nameVersion_of h
  rw [nameVersion_of h'] at h1
  cases h1
  exact ⟨rfl, rfl⟩

/-- C67: the listed conventions are those that `_verify_convention_and_version` accepts, if all versions of the
convention are written like `1.0`, i.e. with one digit after the dot. Missing: other versions, see `C67_refuted`. -/
theorem C67_valid_partial (env : Env) (hf : ∀ f ∈ env.files, ∃ n w, Spec.FileOf f.base n w) (n w : Str)
    (hv : ∀ f ∈ env.files, ∀ w', Spec.FileOf f.base n w' → Spec.PlainVersion w') :
    (∃ f ∈ env.files, Spec.FileOf f.base n w) ↔ verifyConvention env w n = .ok () := by
  obtain ⟨r, h1, h2⟩ := mapM_names hf
  obtain ⟨b, h3, h4⟩ := versionExists_plain (v := w) (n := n) (l := r) (by
    intro p hp hn
    obtain ⟨f, hf', hr⟩ := forall2_mem_left h2 hp
    exact hv f hf' p.2 (hn ▸ hr))
  have hmem : (n, w) ∈ r ↔ ∃ f ∈ env.files, Spec.FileOf f.base n w := by
    constructor
    · intro h
      exact forall2_mem_left h2 h
    · rintro ⟨f, hf', hr⟩
      obtain ⟨p, hp, hr'⟩ := forall2_mem_right h2 hf'
      obtain ⟨e1, e2⟩ := fileOf_unique hr hr'
      subst e1 e2
      exact hp
  rw [← hmem, ← h4]
  unfold verifyConvention getConventions
  rw [h1]
  simp only [h3]
  cases b with
  | true =>
    have hm := h4.1 rfl
    have : (r.map Prod.fst).contains n = true := by
      simp only [List.contains_iff_mem, List.mem_map]
      exact ⟨_, hm, rfl⟩
    rw [this]
    simp
  | false => split <;> simp

example : ∀ f ∈ exEnv.files, ∀ w', Spec.FileOf f.base (py% "FIR") w' → Spec.PlainVersion w' := by
  intro f hf w' h
  simp only [exEnv, List.mem_cons, List.not_mem_nil, or_false] at hf
  rcases hf with rfl | rfl
  · obtain ⟨_, rfl⟩ := fileOf_unique h (n' := py% "FIR") (v' := py% "1.0") (by unfold Spec.FileOf; decide)
    exact ⟨⟨1, 0, py% "1", '0', by decide, by decide, by decide⟩, by simp⟩
  · obtain ⟨_, rfl⟩ := fileOf_unique h (n' := py% "FIR") (v' := py% "0.9") (by unfold Spec.FileOf; decide)
    exact ⟨⟨0, 9, py% "0", '9', by decide, by decide, by decide⟩, by simp⟩

/-- C67 is false for versions with two digits after the dot: version 1.10 is listed and can be loaded, but an object of
this version can not be verified. -/
theorem C67_refuted : ∃ (env : Env) (n w : Str) (t : Str), (∃ f ∈ env.files, Spec.FileOf f.base n w) ∧
    listConventions env = .ok [.print t] ∧ (n ++ py% " (Version " ++ w ++ py% ")\n") <:+: t ∧
    (∃ o, (initSofa env n false (.exact w) .no).out = .ok o) ∧
    ∀ o, (initSofa env n false (.exact w) .yes).out ≠ .ok o := by
  refine ⟨{ exEnv with files := [⟨py% "FIR_1.10.json", exConvention (py% "1.10")⟩] }, py% "FIR", py% "1.10",
    py% "Available SOFA conventions:\nFIR (Version 1.10)\n", ⟨⟨py% "FIR_1.10.json", exConvention (py% "1.10")⟩, by simp, by unfold Spec.FileOf; decide⟩,
    by decide +kernel, (hasSub_iff _ _).1 (by decide +kernel), ?_, ?_⟩
  · have h1 : (match (initSofa { exEnv with files := [⟨py% "FIR_1.10.json", exConvention (py% "1.10")⟩] } (py% "FIR") false
        (.exact (py% "1.10")) .no).out with | .ok _ => true | .error _ => false) = true := by decide +kernel
    generalize (initSofa { exEnv with files := [⟨py% "FIR_1.10.json", exConvention (py% "1.10")⟩] } (py% "FIR") false
        (.exact (py% "1.10")) .no).out = x at h1
    match x, h1 with
    | .ok o, _ => exact ⟨o, rfl⟩
  · intro o ho
    have h1 : (match (initSofa { exEnv with files := [⟨py% "FIR_1.10.json", exConvention (py% "1.10")⟩] } (py% "FIR") false
        (.exact (py% "1.10")) .yes).out with | .ok _ => true | .error _ => false) = false := by decide +kernel
    rw [ho] at h1
    cases h1

end Sofar
