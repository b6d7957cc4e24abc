import Verif.Props.Report
import Verif.Props.Dims
import Verif.Lemmas.Upgrade
/-!
# C79: dimensions are known if and only if types and shapes are in order
-/
namespace Sofar

/-! ## Phrases in the report -/

theorem infix_pieces {w a b : Str} (hb : ∀ c t, b = c :: t → c ∉ w) (h : w <:+: a ++ b) : w <:+: a ∨ w <:+: b := by
  obtain ⟨x, y, hxy⟩ := h
  rw [List.append_assoc] at hxy
  rcases List.append_eq_append_iff.1 hxy with ⟨u, h1, h2⟩ | ⟨u, h1, h2⟩
  · -- the phrase begins in `a`
    rcases List.append_eq_append_iff.1 h2 with ⟨z, h3, h4⟩ | ⟨z, h3, h4⟩
    · exact Or.inl ⟨x, z, by rw [h1, h3, List.append_assoc]⟩
    · cases z with
      | nil =>
        simp only [List.append_nil] at h3
        exact Or.inl ⟨x, [], by simp [h1, h3]⟩
      | cons c z =>
        exfalso
        exact hb c (z ++ y) (by rw [h4]; rfl) (by rw [h3]; simp)
  · exact Or.inr ⟨u, y, by rw [h2, List.append_assoc]⟩

theorem infix_flatten {w : Str} (hw : w ≠ []) {l : List Str} (hl : ∀ a ∈ l, ∀ c t, a = c :: t → c ∉ w)
    (h : w <:+: l.flatten) : ∃ a ∈ l, w <:+: a := by
  induction l with
  | nil => exact absurd (List.eq_nil_of_infix_nil h) hw
  | cons a l ih =>
    rw [List.flatten_cons] at h
    have hb : ∀ c t, l.flatten = c :: t → c ∉ w := by
      clear h ih
      induction l with
      | nil => simp
      | cons b l ih =>
        intro c t hct
        cases b with
        | nil =>
          exact ih (fun x hx => hl x (by
            rcases List.mem_cons.1 hx with rfl | hx
            · simp
            · simp [hx])) c t (by simpa using hct)
        | cons d b =>
          simp only [List.flatten_cons, List.cons_append, List.cons.injEq] at hct
          rw [← hct.1]
          exact hl (d :: b) (by simp) d b rfl
    rcases infix_pieces hb h with h | h
    · exact ⟨a, by simp, h⟩
    · obtain ⟨x, hx, hxw⟩ := ih (fun x hx => hl x (by simp [hx])) h
      exact ⟨x, by simp [hx], hxw⟩

theorem digitsGo_chars {s : Str} {acc n : Nat} (h : Str.digitsGo acc s = some n) : ∀ c ∈ s, 46 ≤ c.toNat ∧ c.toNat < 58 := by
  induction s generalizing acc with
  | nil => simp
  | cons d s ih =>
    simp only [Str.digitsGo] at h
    cases hd : Str.digit? d with
    | none => simp [hd] at h
    | some m =>
      simp only [hd] at h
      intro c hc
      rcases List.mem_cons.1 hc with rfl | hc
      · unfold Str.digit? at hd
        split at hd
        · rename_i hr
          simp at hr
          omega
        · simp at hd
      · exact ih h c hc

theorem pyFloat_chars {s : Str} {q : Rat} (h : pyFloat s = some q) : ∀ c ∈ s, 46 ≤ c.toNat ∧ c.toNat < 58 := by
  have hdot : ('.' : Char).toNat = 46 := by decide
  unfold pyFloat at h
  split at h
  · rename_i a ha
    have hs : s = a := by
      by_cases hm : '.' ∈ s
      · obtain ⟨x, y, hxy, hx⟩ := List.eq_append_cons_of_mem hm
        rw [hxy, splitChar_append hx] at ha
        simp only [List.cons.injEq] at ha
        exact absurd ha.2 (splitChar_ne _ _)
      · rw [splitChar_not_mem hm] at ha
        simpa using ha
    subst hs
    cases hd : Str.digits? s with
    | none => simp [hd] at h
    | some n =>
      unfold Str.digits? at hd
      split at hd
      · simp at hd
      · exact digitsGo_chars hd
  · rename_i a b hab
    obtain ⟨hs, _⟩ := splitChar_two hab
    split at h
    · simp at h
    · cases h1 : Str.digitsGo 0 a with
      | none => simp [h1] at h
      | some m =>
        cases h2 : Str.digitsGo 0 b with
        | none => simp [h1, h2] at h
        | some n =>
          rw [hs]
          intro c hc
          rcases List.mem_append.1 hc with hc | hc
          · exact digitsGo_chars h1 c hc
          · rcases List.mem_cons.1 hc with rfl | hc
            · omega
            · exact digitsGo_chars h2 c hc
  · simp at h

/-- the two phrases that `_update_dimensions` looks for -/
def IsPhrase (w : Str) : Prop := w = py% "data of wrong type" ∨ w = py% "variables of wrong shape"

theorem phrase_chars {w : Str} (h : IsPhrase w) : w ≠ [] ∧ 'D' ∉ w ∧ '-' ∉ w ∧ '\n' ∉ w ∧ ':' ∉ w ∧
    (∀ c ∈ w, ¬ (46 ≤ c.toNat ∧ c.toNat < 58)) := by
  rcases h with rfl | rfl <;> decide

theorem heading_start (p : Spec.Problem) : ∃ t, p.heading = 'D' :: t := by
  cases p <;> exact ⟨_, rfl⟩

/-- the report contains a phrase only in the heading of its section or in lines -/
theorem phrase_report {w : Str} (hw : IsPhrase w) {ps : Spec.Problem → Prop} {report : Str} (hr : Spec.Reports ps report)
    (h : w <:+: report) : ∃ p, ps p ∧ (w <:+: p.heading ∨ w <:+: p.line) := by
  obtain ⟨h0, h1, h2, _⟩ := phrase_chars hw
  obtain ⟨secs, rfl, hs, _⟩ := hr
  have hh : ∀ p : Spec.Problem, ∀ c t, p.heading = c :: t → c ∉ w := by
    intro p c t hct
    cases p <;> (simp only [Spec.Problem.heading, List.cons.injEq] at hct; rw [← hct.1]; exact h1)
  have hl : ∀ p : Spec.Problem, ∀ c t, p.line = c :: t → c ∉ w := by
    intro p c t hct
    cases p <;> (simp only [Spec.Problem.line, List.cons_append, List.cons.injEq] at hct; rw [← hct.1]; exact h2)
  obtain ⟨a, ha, haw⟩ := infix_flatten h0 (by
    intro a ha c t hct
    obtain ⟨s, hsm, rfl⟩ := List.mem_map.1 ha
    obtain ⟨hne, hs2⟩ := hs s hsm
    obtain ⟨l, hl'⟩ := List.exists_mem_of_ne_nil _ hne
    obtain ⟨p, _, hp, _⟩ := hs2 l hl'
    cases hd : s.1 with
    | nil =>
      rw [← hp] at hd
      cases p <;> simp [Spec.Problem.heading] at hd
    | cons d u =>
      rw [hd] at hct
      simp only [List.cons_append, List.cons.injEq] at hct
      rw [← hct.1]
      exact hh p d u (by rw [hp, hd])) h
  obtain ⟨s, hsm, rfl⟩ := List.mem_map.1 ha
  obtain ⟨hne, hs2⟩ := hs s hsm
  have haw' : w <:+: (s.1 :: s.2).flatten := by simpa using haw
  obtain ⟨x, hx, hxw⟩ := infix_flatten h0 (by
    intro x hx c t hct
    rcases List.mem_cons.1 hx with rfl | hx
    · obtain ⟨l, hl'⟩ := List.exists_mem_of_ne_nil _ hne
      obtain ⟨p, _, hp, _⟩ := hs2 l hl'
      exact hh p c t (hp.trans hct)
    · obtain ⟨p, _, _, hp⟩ := hs2 x hx
      exact hl p c t (hp ▸ hct)) haw'
  rcases List.mem_cons.1 hx with rfl | hx
  · obtain ⟨l, hl'⟩ := List.exists_mem_of_ne_nil _ hne
    obtain ⟨p, hp1, hp2, _⟩ := hs2 l hl'
    exact ⟨p, hp1, Or.inl (hp2 ▸ hxw)⟩
  · obtain ⟨p, hp1, _, hp2⟩ := hs2 x hx
    exact ⟨p, hp1, Or.inr (hp2 ▸ hxw)⟩

/-- warnings that accompany the report for writing do not contain the phrases -/
theorem phrase_warning {w : Str} (hw : IsPhrase w) {env : Env} {o : Obj} {t : Str} (ht : Spec.Warning env o true t) :
    ¬ w <:+: (if t = [] then [] else py% "\n\nWARNINGS\n--------\n" ++ t) := by
  obtain ⟨h0, h1, h2, h3, h4, h5⟩ := phrase_chars hw
  obtain ⟨c, v, u, q, _, _, _, hq, rfl⟩ := ht
  simp only [if_true, List.nil_append]
  by_cases hlt : q < 1
  · simp only [hlt, if_true]
    rw [if_neg (by simp)]
    intro h
    have hp : (py% "\n\nWARNINGS\n--------\n") ++ (py% "\n\nDetected preliminary conventions version " ++ u ++
        py% ":\n - Upgrade data to version >= 1.0 if possible. Preliminary conventions might change in the future, which could invalidate data that was written before the changes.")
        = (py% "\n\nWARNINGS\n--------\n\n\nDetected preliminary conventions version ") ++ u ++
        py% ":\n - Upgrade data to version >= 1.0 if possible. Preliminary conventions might change in the future, which could invalidate data that was written before the changes." := by
      simp
    rw [hp] at h
    rcases infix_pieces (by rintro c t hct; cases hct; exact h4) h with h | h
    · rcases infix_pieces (by
        rintro c t rfl
        intro hc
        exact h5 c hc (pyFloat_chars hq c (by simp))) h with h | h
      · revert h
        rw [← hasSub_iff]
        rcases hw with rfl | rfl <;> decide +kernel
      · obtain ⟨x, hx⟩ := List.exists_mem_of_ne_nil _ h0
        exact h5 x hx (pyFloat_chars hq x (h.subset hx))
    · revert h
      rw [← hasSub_iff]
      rcases hw with rfl | rfl <;> decide +kernel
  · simp only [hlt, if_false, if_true]
    intro h
    exact h0 (List.eq_nil_of_infix_nil h)

/-! ## C79 -/

/-- The error of `get_dimension` for objects whose dimensions are not known. -/
def Spec.dimensionsUnknown : Str :=
  py% "Dimensions can not be shown because variables of wrong type or shape were detected."

/-- C79: `get_dimension` refuses every object with data of wrong type or shape. -/
theorem C79_refused_partial (env : Env) (o o1 n : Obj) (hr : resetConvention env o = .ok o1)
    (hc : Spec.Checkable o1) (hrules : Spec.RegularRules env o1) (hnew : o1.custom ≠ none → Spec.CanCreate env o1 n)
    (hm : Spec.HasMandatory o1) (sizes : Dict Nat) (hs : sizes = (verify env o .ret .write).obj.api.getD [])
    (present : Spec.Problem → Prop) (hp : present = Spec.Problem.Present env o1 (n.conv.map Prod.fst) sizes true)
    (hbad : (∃ k t, present (.wrongType k t)) ∨ ∃ k s r, present (.shape k s r)) (d : Str) :
    (getDimension env o d).out = .error (.valueError Spec.dimensionsUnknown) := by
  have key : ∃ t, (verify env o .ret .write).out = .ok (some t) ∧ ((py% "data of wrong type") <:+: t ∨
      (py% "variables of wrong shape") <:+: t) := by
    rcases C70_returned_partial env o o1 n .write hr hc hrules hnew hm sizes hs present hp with ⟨_, h2⟩ |
      ⟨report, rest, h1, h2, _⟩
    · exfalso
      rcases hbad with ⟨k, t, h⟩ | ⟨k, s, r, h⟩ <;> exact h2 _ h
    · refine ⟨_, h1, ?_⟩
      have hin : ∀ w : Str, w <:+: report → w <:+: (py% "\nERRORS\n------\n") ++ report ++ rest := by
        rintro w ⟨x, y, rfl⟩
        exact ⟨py% "\nERRORS\n------\n" ++ x, y ++ rest, by simp⟩
      have hsec : ∀ p : Spec.Problem, (present p ∧ (p.First ∨ ∀ q : Spec.Problem, q.First → ¬ present q)) →
          p.heading <:+: report := by
        intro p hpp
        obtain ⟨secs, rfl, _, h4⟩ := h2
        obtain ⟨s, hsm, hs1, _⟩ := h4 p hpp
        obtain ⟨l, r, rfl⟩ := List.append_of_mem hsm
        refine ⟨(l.map (fun s => s.1 ++ s.2.flatten)).flatten, s.2.flatten ++ (r.map (fun s => s.1 ++ s.2.flatten)).flatten, ?_⟩
        simp [hs1]
      by_cases hw : ∃ k t, present (.wrongType k t)
      · obtain ⟨k, t, h⟩ := hw
        left
        refine hin _ (List.IsInfix.trans ((hasSub_iff _ _).1 (by simp only [Spec.Problem.heading]; decide +kernel)) (hsec _ ⟨h, Or.inl trivial⟩))
      · right
        rcases hbad with h | ⟨k, s, r, h⟩
        · exact absurd h hw
        · refine hin _ (List.IsInfix.trans ((hasSub_iff _ _).1 (by simp only [Spec.Problem.heading]; decide +kernel)) (hsec _ ⟨h, Or.inr ?_⟩))
          intro q hq1 hq2
          cases q <;> try exact False.elim hq1
          · subst hp
            obtain ⟨e, f, g1, g2, g3, g4⟩ := hq2
            exact absurd (hm _ e f g1 g2 g3) g4
          · exact hw ⟨_, _, hq2⟩
  obtain ⟨t, h1, h2⟩ := key
  have hu : (updateDimensions env o).out = .error (.valueError Spec.dimensionsUnknown) := by
    unfold updateDimensions
    simp only [h1]
    rw [if_pos]
    · rfl
    · rcases h2 with h2 | h2
      · simp [(hasSub_iff _ _).2 h2]
      · simp [(hasSub_iff _ _).2 h2]
  unfold getDimension
  simp only [hu]

/-- C79: if there is no data of wrong type or shape, `get_dimension` gives all sizes, whatever else is wrong with the
object. Missing for the full claim: problems whose report contains one of the phrases that `_update_dimensions` looks
for (`C79_refuted`), and data that can not be checked (see C57). -/
theorem C79_known_partial (env : Env) (o o1 n : Obj) (hr : resetConvention env o = .ok o1)
    (hc : Spec.Checkable o1) (hrules : Spec.RegularRules env o1) (hnew : o1.custom ≠ none → Spec.CanCreate env o1 n)
    (hm : Spec.HasMandatory o1) (sizes : Dict Nat) (hs : sizes = (verify env o .ret .write).obj.api.getD [])
    (present : Spec.Problem → Prop) (hp : present = Spec.Problem.Present env o1 (n.conv.map Prod.fst) sizes true)
    (htypes : ∀ k t, ¬ present (.wrongType k t)) (hshapes : ∀ k s r, ¬ present (.shape k s r))
    (hlines : ∀ p : Spec.Problem, present p → ¬ (py% "data of wrong type") <:+: p.line ∧
      ¬ (py% "variables of wrong shape") <:+: p.line) :
    (∀ c, Spec.Sized o1 c → ∃ size, (getDimension env o [c]).out = .ok size) ∧
    ∀ d, (∃ size, (getDimension env o d).out = .ok size) ∨
      (getDimension env o d).out = .error (.valueError (d ++ py% " is not a valid dimension.")) := by
  have hready := ready_of hr hc hrules (fun h => ⟨n, hnew h⟩)
  subst hp
  have key : (updateDimensions env o).out = .ok () ∧ ∃ api, (updateDimensions env o).obj.api = some api ∧
      ∀ c, Spec.Sized o1 c → ∃ n, Dict.get? api [c] = some n := by
    rcases verifyG_split (inner := referenceNames) (mode := .write) (names := n.conv.map Prod.fst) hr hready
      (fun h => reference_of_create hc (hnew h)) hm with ⟨report, h1, h2, h3⟩ | ⟨body, w8, o3, ev, api, h1, h2, h3, h4, h5, _, h7⟩
    · exfalso
      refine h1 ((Reports.empty (h3 sizes)).2 ?_)
      rintro p ⟨hp, hpp⟩
      cases p <;> try exact False.elim hp
      · obtain ⟨e, f, g1, g2, g3, g4⟩ := hpp
        exact absurd (hm _ e f g1 g2 g3) g4
      · exact htypes _ _ hpp
    · have hv : verify env o .ret .write = handled w8 body .ret o3 ev := h7 .ret (by simp)
      have hapi : (verify env o .ret .write).obj.api = some api := by rw [hv, handled_obj, h4]
      rw [hapi] at hs
      simp only [Option.getD_some] at hs
      subst hs
      have hno : ∀ w, IsPhrase w → ¬ w <:+: body := by
        intro w hw h
        obtain ⟨p, hp, hin⟩ := phrase_report hw h1 h
        simp only [decide_true] at hp
        rcases hin with hin | hin
        · revert hin
          rw [← hasSub_iff]
          cases p
          case wrongType => exact fun _ => htypes _ _ hp
          case shape => exact fun _ => hshapes _ _ _ hp
          all_goals (simp only [Spec.Problem.heading]; rcases hw with rfl | rfl <;> decide +kernel)
        · rcases hw with rfl | rfl
          · exact (hlines p hp).1 hin
          · exact (hlines p hp).2 hin
      have hobj : (updateDimensions env o).obj.api = some sizes := by
        unfold updateDimensions
        simp only
        split
        · exact hapi
        · exact hapi
        · split <;> exact hapi
      refine ⟨?_, sizes, hobj, h5⟩
      by_cases he : body = []
      · unfold updateDimensions
        have : (verify env o .ret .write).out = .ok none := by rw [hv, he]; exact handled_nil _ _ _ _
        simp only [this]
      · have hout : (verify env o .ret .write).out = .ok (some (py% "\nERRORS\n------\n" ++ body ++
            (if w8 = [] then [] else py% "\n\nWARNINGS\n--------\n" ++ w8))) := by
          rw [hv, handled_ret _ _ _ _ he]
          by_cases hw : w8 = []
          · rw [if_pos hw, if_pos hw]; rfl
          · rw [if_neg hw, if_neg hw]; simp [errorHeader, warningHeader]
        have hnone : ∀ w, IsPhrase w → ¬ w <:+: py% "\nERRORS\n------\n" ++ body ++
            (if w8 = [] then [] else py% "\n\nWARNINGS\n--------\n" ++ w8) := by
          intro w hw h
          obtain ⟨g0, g1, g2, g3, _⟩ := phrase_chars hw
          rcases infix_pieces (by
            intro c t hct
            by_cases hw8 : w8 = []
            · rw [if_pos hw8] at hct; cases hct
            · rw [if_neg hw8] at hct
              simp only [List.cons_append, List.cons.injEq] at hct
              rw [← hct.1]; exact g3) h with h | h
          · rcases infix_pieces (by
              intro c t hct
              obtain ⟨secs, hb, hs, _⟩ := h1
              cases secs with
              | nil => rw [hb] at hct; cases hct
              | cons s secs =>
                obtain ⟨hne, hs2⟩ := hs s (by simp)
                obtain ⟨l, hl'⟩ := List.exists_mem_of_ne_nil _ hne
                obtain ⟨p, _, hp, _⟩ := hs2 l hl'
                rw [hb] at hct
                simp only [List.map_cons, List.flatten_cons, ← hp] at hct
                obtain ⟨u, hu⟩ := heading_start p
                rw [hu] at hct
                simp only [List.cons_append, List.cons.injEq] at hct
                rw [← hct.1]
                exact g1) h with h | h
            · revert h
              rw [← hasSub_iff]
              rcases hw with rfl | rfl <;> decide +kernel
            · exact hno w hw h
          · exact phrase_warning hw h3 h
        unfold updateDimensions
        simp only [hout]
        rw [if_neg]
        simp only [Bool.or_eq_true, not_or]
        refine ⟨⟨?_, ?_⟩, ?_⟩
        · rw [hasSub_iff]; exact hnone _ (Or.inl rfl)
        · rw [hasSub_iff]; exact hnone _ (Or.inr rfl)
        · rw [hapi]; simp
  obtain ⟨hu, api, ha, hsz⟩ := key
  constructor
  · intro c hcs
    obtain ⟨m, hm'⟩ := hsz c hcs
    refine ⟨m, ?_⟩
    unfold getDimension
    simp only [hu, ha, hm']
  · intro d
    unfold getDimension
    simp only [hu, ha]
    cases hg : Dict.get? api d with
    | none => exact Or.inr rfl
    | some m => exact Or.inl ⟨m, rfl⟩

/-- an object with a wrong shape -/
example : resetConvention exEnv exProblems = .ok (exReset exProblems) ∧ Spec.Checkable (exReset exProblems) ∧
    Spec.RegularRules exEnv (exReset exProblems) ∧ (exReset exProblems).custom = none ∧
    Spec.HasMandatory (exReset exProblems) ∧
    (getDimension exEnv exProblems (py% "M")).out = .error (.valueError Spec.dimensionsUnknown) :=
  ⟨by decide +kernel, checkableB_sound (by decide +kernel), regularRulesB_sound (by decide +kernel), by decide +kernel,
    (isMandatory_iff _).1 (by decide +kernel), by decide +kernel⟩

/-- everything that is named in the report is found in the text -/
theorem named {ps : Spec.Problem → Prop} {report : Str} (h : Spec.Reports ps report) (p : Spec.Problem) (hp : ps p) :
    p.heading <:+: report ∧ p.line <:+: report := by
  obtain ⟨secs, rfl, _, h4⟩ := h
  obtain ⟨s, hsm, hs1, hs2⟩ := h4 p hp
  obtain ⟨l, r, rfl⟩ := List.append_of_mem hsm
  obtain ⟨x, y, hxy⟩ := List.append_of_mem hs2
  refine ⟨⟨(l.map (fun s => s.1 ++ s.2.flatten)).flatten, s.2.flatten ++ (r.map (fun s => s.1 ++ s.2.flatten)).flatten, ?_⟩,
    ⟨(l.map (fun s => s.1 ++ s.2.flatten)).flatten ++ (s.1 ++ x.flatten),
      y.flatten ++ (r.map (fun s => s.1 ++ s.2.flatten)).flatten, ?_⟩⟩
  · simp [hs1]
  · simp [hxy]

/-- an object with a wrong unit, upper case letters and a missing variable meets the hypotheses of
`C79_known_partial` -/
example (sizes : Dict Nat) (hs : sizes = (verify exEnvLax exManifold .ret .write).obj.api.getD [])
    (present : Spec.Problem → Prop) (hp : present = Spec.Problem.Present exEnvLax exManifoldReset [] sizes true) :
    (∀ k t, ¬ present (.wrongType k t)) ∧ (∀ k s r, ¬ present (.shape k s r)) ∧
    (∀ p : Spec.Problem, present p → ¬ (py% "data of wrong type") <:+: p.line ∧
      ¬ (py% "variables of wrong shape") <:+: p.line) ∧
    (getDimension exEnvLax exManifold (py% "M")).out = .ok 1 := by
  have hr : resetConvention exEnvLax exManifold = .ok exManifoldReset := by decide +kernel
  have hcustom : exManifoldReset.custom = none := by decide +kernel
  have hm : Spec.HasMandatory exManifoldReset := (isMandatory_iff _).1 (by decide +kernel)
  have h := C70_returned_partial exEnvLax exManifold exManifoldReset { exManifold with conv := [] } .write hr
    (checkableB_sound (by decide +kernel)) (regularRulesB_sound (by decide +kernel)) (fun h => absurd hcustom h) hm
    sizes hs present hp
  have hout : ∀ t, (verify exEnvLax exManifold .ret .write).out = .ok (some t) → ¬ (py% "data of wrong type") <:+: t ∧
      ¬ (py% "variables of wrong shape") <:+: t := by
    intro t ht
    have hk : (verify exEnvLax exManifold .ret .write).out = .ok (some (py% "\nERRORS\n------\nDetected violations of the SOFA convention:\n- SourcePosition_Units is Yard but must be degree, degree, metre\n- SourcePosition must be given if SourcePosition_Units is in SOFA object\n- SourcePosition_Units is Yard but must contain only lower case letters when writing SOFA files to disk.\n")) := by
      decide +kernel
    rw [hk] at ht
    cases ht
    rw [← hasSub_iff, ← hasSub_iff]
    decide +kernel
  rcases h with ⟨h1, h2⟩ | ⟨report, rest, h1, h2, _⟩
  · exact ⟨fun k t => h2 _, fun k s r => h2 _, fun p hpp => absurd hpp (h2 p), by decide +kernel⟩
  · obtain ⟨g1, g2⟩ := hout _ h1
    have hin : ∀ w : Str, w <:+: report → w <:+: (py% "\nERRORS\n------\n") ++ report ++ rest := by
      rintro w ⟨x, y, rfl⟩
      exact ⟨py% "\nERRORS\n------\n" ++ x, y ++ rest, by simp⟩
    have hw : ∀ k t, ¬ present (.wrongType k t) := by
      intro k t hpp
      refine g1 ((List.IsInfix.trans ((hasSub_iff _ _).1 ?_) (hin _ (named h2 _ ⟨hpp, Or.inl trivial⟩).1)))
      simp only [Spec.Problem.heading]
      decide +kernel
    have hfirst : ∀ q : Spec.Problem, q.First → ¬ present q := by
      intro q hq1 hq2
      cases q <;> try exact False.elim hq1
      · subst hp
        obtain ⟨e, f, k1, k2, k3, k4⟩ := hq2
        exact absurd (hm _ e f k1 k2 k3) k4
      · exact hw _ _ hq2
    refine ⟨hw, ?_, ?_, by decide +kernel⟩
    · intro k s r hpp
      refine g2 ((List.IsInfix.trans ((hasSub_iff _ _).1 ?_) (hin _ (named h2 _ ⟨hpp, Or.inr hfirst⟩).1)))
      simp only [Spec.Problem.heading]
      decide +kernel
    · intro p hpp
      have := hin _ (named h2 p ⟨hpp, Or.inr hfirst⟩).2
      exact ⟨fun hh => g1 (hh.trans this), fun hh => g2 (hh.trans this)⟩

/-- C79 does not hold literally: `get_dimension` looks for phrases in the whole report, so that an object whose only
problem is a unit with such a text is refused as well. -/
theorem C79_refuted : ∃ (env : Env) (o o1 : Obj), resetConvention env o = .ok o1 ∧ Spec.Checkable o1 ∧
    Spec.RegularRules env o1 ∧ o1.custom = none ∧ Spec.HasMandatory o1 ∧
    (verify env o .ret .write).out = .ok (some (py% "\nERRORS\n------\nDetected violations of the SOFA convention:\n- SourcePosition_Units is data of wrong type but must be degree, degree, metre\n")) ∧
    ∀ d, (getDimension env o d).out = .error (.valueError Spec.dimensionsUnknown) := by
  refine ⟨exEnv, exPut exSofa (py% "SourcePosition_Units") (.str (py% "data of wrong type")),
    exReset (exPut exSofa (py% "SourcePosition_Units") (.str (py% "data of wrong type"))), by decide +kernel,
    checkableB_sound (by decide +kernel), regularRulesB_sound (by decide +kernel), by decide +kernel,
    (isMandatory_iff _).1 (by decide +kernel), by decide +kernel, ?_⟩
  intro d
  have hu : (updateDimensions exEnv (exPut exSofa (py% "SourcePosition_Units") (.str (py% "data of wrong type")))).out =
    .error (.valueError Spec.dimensionsUnknown) := by decide +kernel
  unfold getDimension
  simp only [hu]

end Sofar
