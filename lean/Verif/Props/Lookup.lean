import Verif.Lemmas.Paths
import Verif.Lemmas.Shapes
import Verif.Props.Example
/-!
# C14, C15: selecting the convention file
-/
namespace Sofar

theorem dropEnd_append (v w : Str) : Str.dropEnd (v ++ w) w.length = v := by
  unfold Str.dropEnd
  rw [List.length_append, Nat.add_sub_cancel, List.take_left']
  rfl

theorem fileVersion_of {b n v : Str} (h : Spec.FileOf b n v) : fileVersion b = v := by
  obtain ⟨rfl, h1, h2⟩ := h
  unfold fileVersion
  rw [splitChar_append h1, splitChar_not_mem (by simp [h2])]
  exact dropEnd_append v (py% ".json")

theorem startsWith_of {b n v c : Str} (h : Spec.FileOf b n v) (hc : '_' ∉ c) :
    Str.startsWith b (c ++ py% "_") = true ↔ c = n := by
  obtain ⟨rfl, h1, _⟩ := h
  unfold Str.startsWith
  rw [List.isPrefixOf_iff_prefix]
  constructor
  · rintro ⟨t, ht⟩
    simp only [List.append_assoc, List.cons_append, List.nil_append] at ht
    have key : ∀ (a b s t : Str), '_' ∉ a → '_' ∉ b → a ++ '_' :: s = b ++ '_' :: t → a = b := by
      intro a
      induction a with
      | nil =>
        intro b s t _ hb h
        cases b with
        | nil => rfl
        | cons x b =>
          simp only [List.nil_append, List.cons_append, List.cons.injEq] at h
          exact absurd (h.1 ▸ List.mem_cons_self) hb
      | cons y a ih =>
        intro b s t ha hb h
        cases b with
        | nil =>
          simp only [List.nil_append, List.cons_append, List.cons.injEq] at h
          exact absurd (h.1 ▸ List.mem_cons_self) ha
        | cons x b =>
          simp only [List.cons_append, List.cons.injEq] at h
          rw [h.1, ih b s t (by simp at ha; exact ha.2) (by simp at hb; exact hb.2) h.2]
    exact key _ _ _ _ hc h1 ht
  · rintro rfl
    exact ⟨v ++ py% ".json", by simp⟩

/-! ## C15 -/

/-- C15: unknown names and versions raise ValueError (nothing else can go wrong). -/
theorem C15_value_error (env : Env) (c : Str) (ver : VersionArg) (x : Exc)
    (h : loadConvention env c ver = .error x) : ∃ m, x = .valueError m := by
  unfold loadConvention at h
  cases hs : selectFile env c ver with
  | ok f => simp [hs] at h
  | error y =>
    simp only [hs, Except.error.injEq] at h
    subst h
    unfold selectFile at hs
    simp only at hs
    repeat' split at hs
    all_goals first | (cases hs; exact ⟨_, rfl⟩) | cases hs

/-- see `C15_exact_lookup_partial` -/
theorem exact_lookup (env : Env) (c v : Str) (hc : '_' ∉ c)
    (hf : ∀ f ∈ env.files, ∃ n w, Spec.FileOf f.base n w) :
    ((∃ conv, loadConvention env c (.exact v) = .ok conv) ↔ ∃ f ∈ env.files, Spec.FileOf f.base c v) ∧
    ∀ conv, loadConvention env c (.exact v) = .ok conv →
      ∃ f ∈ env.files, Spec.FileOf f.base c v ∧ conv = convertKeys f.content := by
  have fwd : ∀ conv, loadConvention env c (.exact v) = .ok conv →
      ∃ f ∈ env.files, Spec.FileOf f.base c v ∧ conv = convertKeys f.content := by
    intro conv h
    unfold loadConvention at h
    cases hs : selectFile env c (.exact v) with
    | error x => simp [hs] at h
    | ok f =>
      simp only [hs, Except.ok.injEq] at h
      unfold selectFile at hs
      simp only at hs
      split at hs
      · cases hs
      · rename_i g gs hg
        split at hs
        · rename_i y hy
          cases hs
          have h1 := List.mem_of_find?_eq_some hy
          have h2 := List.find?_some hy
          rw [← hg] at h1
          obtain ⟨h3, h4⟩ := List.mem_filter.1 h1
          obtain ⟨n, w, hfo⟩ := hf _ h3
          simp only [decide_eq_true_eq] at h2
          have hw := fileVersion_of hfo
          rw [h2] at hw
          have hn := (startsWith_of hfo hc).1 h4
          exact ⟨_, h3, by rw [hn, hw]; exact hfo, h.symm⟩
        · cases hs
  refine ⟨⟨?_, ?_⟩, fwd⟩
  · rintro ⟨conv, h⟩
    obtain ⟨f, h1, h2, _⟩ := fwd conv h
    exact ⟨f, h1, h2⟩
  · rintro ⟨f, h1, h2⟩
    have hmem : f ∈ env.files.filter (fun f => Str.startsWith f.base (c ++ py% "_")) :=
      List.mem_filter.2 ⟨h1, (startsWith_of h2 hc).2 rfl⟩
    unfold loadConvention selectFile
    simp only
    cases hg : env.files.filter (fun f => Str.startsWith f.base (c ++ py% "_")) with
    | nil => rw [hg] at hmem; cases hmem
    | cons g gs =>
      simp only
      rw [hg] at hmem
      cases hy : (g :: gs).find? (fun g => decide (fileVersion g.base = v)) with
      | none =>
        have := List.find?_eq_none.1 hy f hmem
        simp [fileVersion_of h2] at this
      | some y => exact ⟨_, rfl⟩

/-- C15: if all files are named after their convention and version, a convention and version is accepted exactly
if there is a file of this name and version, and what is loaded is the content of such a file. Missing: file names
with further underscores, see `C15_refuted`. -/
theorem C15_exact_lookup_partial (env : Env) (c v : Str) (hc : '_' ∉ c)
    (hf : ∀ f ∈ env.files, ∃ n w, Spec.FileOf f.base n w) :
    ((∃ conv, loadConvention env c (.exact v) = .ok conv) ↔ ∃ f ∈ env.files, Spec.FileOf f.base c v) ∧
    ∀ conv, loadConvention env c (.exact v) = .ok conv →
      ∃ f ∈ env.files, Spec.FileOf f.base c v ∧ Spec.TableOf f.content conv := by
  refine ⟨(exact_lookup env c v hc hf).1, fun conv h => ?_⟩
  obtain ⟨f, h1, h2, rfl⟩ := (exact_lookup env c v hc hf).2 conv h
  exact ⟨f, h1, h2, tableOf_convertKeys _⟩

theorem exEnv_files : ∀ f ∈ exEnv.files, ∃ n w, Spec.FileOf f.base n w := by
  intro f hf
  simp only [exEnv, List.mem_cons, List.not_mem_nil, or_false] at hf
  rcases hf with rfl | rfl
  · exact ⟨py% "FIR", py% "1.0", by decide, by decide, by decide⟩
  · exact ⟨py% "FIR", py% "0.9", by decide, by decide, by decide⟩

example : loadConvention exEnv (py% "FIR") (.exact (py% "0.9")) = .ok (convertKeys (exConvention (py% "0.9"))) ∧
    (loadConvention exEnv (py% "FI") (.exact (py% "0.9"))) =
      .error (.valueError (py% "Convention 'FI' not found.")) ∧
    (loadConvention exEnv (py% "FIR") (.exact (py% "0.8"))) =
      .error (.valueError (py% "Version 0.8 not found.")) := by decide +kernel

/-- C15 is false for file names with more than one underscore: the name `A` loads the convention `A_B`. -/
theorem C15_refuted : ∃ (env : Env) (c v : Str) (conv : Dict Entry),
    loadConvention env c (.exact v) = .ok conv ∧ ¬ ∃ f ∈ env.files, Spec.FileOf f.base c v := by
  refine ⟨{ exEnv with files := [⟨py% "A_B_1.0.json", exConvention (py% "1.0")⟩] }, py% "A", py% "1.0",
    convertKeys (exConvention (py% "1.0")), by decide +kernel, ?_⟩
  rintro ⟨f, hf, h, _⟩
  simp only [List.mem_singleton] at hf
  subst hf
  revert h
  decide

/-! ## C14 -/

theorem digitsGo_dot (acc : Nat) (s : Str) (n : Nat) (h : Str.digitsGo acc s = some n) : '.' ∉ s := by
  induction s generalizing acc with
  | nil => simp
  | cons c s ih =>
    simp only [Str.digitsGo] at h
    cases hd : Str.digit? c with
    | none => simp [hd] at h
    | some d =>
      simp only [hd] at h
      intro hm
      rcases List.mem_cons.1 hm with rfl | hm
      · simp [Str.digit?] at hd
      · exact ih _ h hm

theorem pyFloat_simple {v : Str} {m d : Nat} (h : Spec.SimpleVersion v m d) :
    pyFloat v = some (((m * 10 + d : Nat) : Rat) / 10) ∧ d < 10 := by
  obtain ⟨a, c, rfl, h1, h2⟩ := h
  have ha : a ≠ [] := by rintro rfl; simp [Str.digits?] at h1
  unfold Str.digits? at h1
  rw [if_neg (by simpa using ha)] at h1
  have hc : c ≠ '.' := by rintro rfl; simp [Str.digit?] at h2
  unfold pyFloat
  have h3 : Str.splitChar '.' (a ++ ['.', c]) = [a, [c]] := by
    rw [splitChar_append (digitsGo_dot 0 a m h1), splitChar_not_mem (by simpa using Ne.symm hc)]
  rw [h3]
  simp only [List.isEmpty_cons, Bool.and_false, Bool.false_eq_true, if_false, h1, Str.digitsGo, h2]
  refine ⟨by simp, ?_⟩
  unfold Str.digit? at h2
  split at h2
  · rename_i hr
    have h9 : '9'.toNat = 57 := rfl
    have h0 : '0'.toNat = 48 := rfl
    simp only [Option.some.injEq] at h2
    omega
  · cases h2

theorem argmaxFile_max (l : List (ConvFile × Rat)) (p : ConvFile × Rat) :
    ∃ q ∈ p :: l, q.1 = argmaxFile p l ∧ ∀ r ∈ p :: l, r.2 ≤ q.2 := by
  induction l generalizing p with
  | nil => exact ⟨p, by simp, rfl, by simp⟩
  | cons x l ih =>
    rw [argmaxFile]
    obtain ⟨q, h1, h2, h3⟩ := ih (if p.2 < x.2 then x else p)
    refine ⟨q, ?_, h2, ?_⟩
    · split at h1 <;> grind
    · intro r hr
      split at h3
      · rename_i hlt
        have := h3 x (by simp)
        rcases List.mem_cons.1 hr with rfl | hr
        · exact Rat.le_trans (Rat.le_of_lt hlt) this
        · exact h3 r hr
      · rename_i hlt
        have h4 := h3 p (by simp)
        rcases List.mem_cons.1 hr with rfl | hr
        · exact h4
        · rcases List.mem_cons.1 hr with rfl | hr
          · exact Rat.le_trans (Rat.not_lt.1 hlt) h4
          · exact h3 r (by simp [hr])

theorem mapM_pairs (l : List ConvFile) (r : List (ConvFile × Rat))
    (h : l.mapM (fun g => (pyFloat (fileVersion g.base)).map (fun q => (g, q))) = some r) :
    (∀ p ∈ r, p.1 ∈ l ∧ pyFloat (fileVersion p.1.base) = some p.2) ∧
    ∀ g ∈ l, ∃ q, (g, q) ∈ r := by
  induction l generalizing r with
  | nil => simp at h; subst h; simp
  | cons x l ih =>
    simp only [List.mapM_cons, Option.bind_eq_bind, Option.bind_eq_some_iff, Option.map_eq_some_iff,
      Option.pure_def, Option.some.injEq] at h
    obtain ⟨y, ⟨q, hq, rfl⟩, r', hr', rfl⟩ := h
    obtain ⟨h1, h2⟩ := ih r' hr'
    refine ⟨?_, ?_⟩
    · intro p hp
      rcases List.mem_cons.1 hp with rfl | hp
      · exact ⟨by simp, hq⟩
      · exact ⟨by simp [(h1 p hp).1], (h1 p hp).2⟩
    · intro g hg
      rcases List.mem_cons.1 hg with rfl | hg
      · exact ⟨q, by simp⟩
      · obtain ⟨q', hq'⟩ := h2 g hg
        exact ⟨q', by simp [hq']⟩

theorem pyFloat_decimal {v : Str} {q : Rat} (h : Spec.DecimalVersion v q) : pyFloat v = some q := by
  obtain ⟨a, b, m, n, rfl, h1, h2, rfl⟩ := h
  have ha : a ≠ [] := by rintro rfl; simp [Str.digits?] at h1
  have hb : b ≠ [] := by rintro rfl; simp [Str.digits?] at h2
  unfold Str.digits? at h1 h2
  rw [if_neg (by simpa using ha)] at h1
  rw [if_neg (by simpa using hb)] at h2
  unfold pyFloat
  have h3 : Str.splitChar '.' (a ++ '.' :: b) = [a, b] := by
    rw [splitChar_append (digitsGo_dot 0 a m h1), splitChar_not_mem (digitsGo_dot 0 b n h2)]
  rw [h3]
  have h4 : (a.isEmpty && b.isEmpty) = false := by simp [ha]
  simp only [h4, Bool.false_eq_true, if_false, h1, h2, Option.some.injEq]
  have h5 : (10 : Rat) ^ b.length ≠ 0 := by
    have : ∀ k : Nat, (10 : Rat) ^ k ≠ 0 := by
      intro k
      induction k with
      | zero => simp
      | succ k ih => rw [Rat.pow_succ]; grind
    exact this _
  push_cast
  grind

theorem argmaxFile_first (l : List (ConvFile × Rat)) (p : ConvFile × Rat) :
    ∃ before q after, p :: l = before ++ q :: after ∧ q.1 = argmaxFile p l ∧
      (∀ r ∈ before, r.2 < q.2) ∧ ∀ r ∈ after, r.2 ≤ q.2 := by
  induction l generalizing p with
  | nil => exact ⟨[], p, [], rfl, rfl, by simp, by simp⟩
  | cons x l ih =>
    rw [argmaxFile]
    split
    · rename_i hlt
      obtain ⟨b, q, a, h1, h2, h3, h4⟩ := ih x
      refine ⟨p :: b, q, a, by rw [h1]; rfl, h2, ?_, h4⟩
      intro r hr
      rcases List.mem_cons.1 hr with rfl | hr
      · cases b with
        | nil => cases h1; exact hlt
        | cons y b => cases h1; exact Std.lt_trans hlt (h3 _ (by simp))
      · exact h3 r hr
    · rename_i hlt
      obtain ⟨b, q, a, h1, h2, h3, h4⟩ := ih p
      cases b with
      | nil =>
        cases h1
        refine ⟨[], p, x :: l, rfl, h2, by simp, ?_⟩
        intro r hr
        rcases List.mem_cons.1 hr with rfl | hr
        · exact Rat.not_lt.1 hlt
        · exact h4 r hr
      | cons y b =>
        cases h1
        refine ⟨p :: x :: b, q, a, rfl, h2, ?_, h4⟩
        intro r hr
        rcases List.mem_cons.1 hr with rfl | hr
        · exact h3 _ (by simp)
        rcases List.mem_cons.1 hr with rfl | hr
        · exact Std.lt_of_le_of_lt (Rat.not_lt.1 hlt) (h3 p (by simp))
        · exact h3 r (by simp [hr])

theorem mapM_pairs_total (l : List ConvFile) (h : ∀ g ∈ l, ∃ q, pyFloat (fileVersion g.base) = some q) :
    ∃ r, l.mapM (fun g => (pyFloat (fileVersion g.base)).map (fun q => (g, q))) = some r := by
  induction l with
  | nil => exact ⟨[], rfl⟩
  | cons x l ih =>
    obtain ⟨q, hq⟩ := h x (by simp)
    obtain ⟨r, hr⟩ := ih (fun g hg => h g (by simp [hg]))
    exact ⟨(x, q) :: r, by simp [List.mapM_cons, hq, hr]⟩

theorem mapM_pairs_fst (l : List ConvFile) (r : List (ConvFile × Rat))
    (h : l.mapM (fun g => (pyFloat (fileVersion g.base)).map (fun q => (g, q))) = some r) : r.map Prod.fst = l := by
  induction l generalizing r with
  | nil => simp at h; subst h; rfl
  | cons x l ih =>
    simp only [List.mapM_cons, Option.bind_eq_bind, Option.bind_eq_some_iff, Option.map_eq_some_iff,
      Option.pure_def, Option.some.injEq] at h
    obtain ⟨y, ⟨q, _, rfl⟩, r', hr', rfl⟩ := h
    rw [List.map_cons, ih r' hr']

theorem versionLt_float {m d m' d' : Nat} (h : d < 10) (h' : d' < 10)
    (hle : (((m' * 10 + d' : Nat) : Rat) / 10) ≤ (((m * 10 + d : Nat) : Rat) / 10)) :
    ¬ Spec.VersionLt [m, d] [m', d'] := by
  have h1 : m' * 10 + d' ≤ m * 10 + d := by
    have h2 : ((m' * 10 + d' : Nat) : Rat) ≤ ((m * 10 + d : Nat) : Rat) := by grind
    exact Rat.natCast_le_natCast.1 h2
  rintro ⟨i, hj, hi⟩
  match i with
  | 0 => simp at hi; omega
  | 1 =>
    have := hj 0 (by omega)
    simp at this hi
    omega
  | i + 2 => simp at hi

/-- see `C14_latest_partial` -/
theorem latest_lookup (env : Env) (c : Str) (hc : '_' ∉ c)
    (hf : ∀ f ∈ env.files, ∃ n w, Spec.FileOf f.base n w)
    (hv : ∀ f ∈ env.files, ∀ w, Spec.FileOf f.base c w → ∃ m d, Spec.SimpleVersion w m d)
    (conv : Dict Entry) (h : loadConvention env c .latest = .ok conv) :
    ∃ f ∈ env.files, ∃ w m d, Spec.FileOf f.base c w ∧ Spec.SimpleVersion w m d ∧ conv = convertKeys f.content ∧
      ∀ g ∈ env.files, ∀ w' m' d', Spec.FileOf g.base c w' → Spec.SimpleVersion w' m' d' →
        ¬ Spec.VersionLt [m, d] [m', d'] := by
  unfold loadConvention at h
  cases hs : selectFile env c .latest with
  | error x => simp [hs] at h
  | ok f =>
    simp only [hs, Except.ok.injEq] at h
    unfold selectFile at hs
    simp only at hs
    split at hs
    · cases hs
    · rename_i g gs hg
      split at hs
      · rename_i p l hm
        simp only [Except.ok.injEq] at hs
        obtain ⟨h1, h2⟩ := mapM_pairs _ _ hm
        obtain ⟨q, hq, hq1, hq2⟩ := argmaxFile_max l p
        obtain ⟨h3, h4⟩ := h1 q hq
        rw [hq1, hs] at h3 h4
        rw [← hg] at h3
        obtain ⟨h5, h6⟩ := List.mem_filter.1 h3
        obtain ⟨n, w, hfo⟩ := hf f h5
        have hn := (startsWith_of hfo hc).1 h6
        subst hn
        obtain ⟨m, d, hmd⟩ := hv f h5 w hfo
        refine ⟨f, h5, w, m, d, hfo, hmd, h.symm, ?_⟩
        intro g' hg' w' m' d' hfo' hmd'
        have h7 : g' ∈ g :: gs := by
          rw [← hg]
          exact List.mem_filter.2 ⟨hg', (startsWith_of hfo' hc).2 rfl⟩
        obtain ⟨q', hq'⟩ := h2 g' h7
        obtain ⟨_, h8⟩ := h1 _ hq'
        simp only at h8
        have h9 := hq2 _ hq'
        simp only at h9
        rw [fileVersion_of hfo', (pyFloat_simple hmd').1] at h8
        rw [fileVersion_of hfo, (pyFloat_simple hmd).1] at h4
        simp only [Option.some.injEq] at h8 h4
        rw [← h8, ← h4] at h9
        exact versionLt_float (pyFloat_simple hmd).2 (pyFloat_simple hmd').2 h9
      · cases hs

/-- C14: without a version, the content of a file of the convention is loaded such that no other file of the
convention has a higher version. Missing: versions that are not of the form `major.minor` with a single digit
after the dot, see `C14_refuted`. -/
theorem C14_latest_partial (env : Env) (c : Str) (hc : '_' ∉ c)
    (hf : ∀ f ∈ env.files, ∃ n w, Spec.FileOf f.base n w)
    (hv : ∀ f ∈ env.files, ∀ w, Spec.FileOf f.base c w → ∃ m d, Spec.SimpleVersion w m d)
    (conv : Dict Entry) (h : loadConvention env c .latest = .ok conv) :
    ∃ f ∈ env.files, ∃ w m d, Spec.FileOf f.base c w ∧ Spec.SimpleVersion w m d ∧ Spec.TableOf f.content conv ∧
      ∀ g ∈ env.files, ∀ w' m' d', Spec.FileOf g.base c w' → Spec.SimpleVersion w' m' d' →
        ¬ Spec.VersionLt [m, d] [m', d'] := by
  obtain ⟨f, h1, w, m, d, h2, h3, rfl, h4⟩ := latest_lookup env c hc hf hv conv h
  exact ⟨f, h1, w, m, d, h2, h3, tableOf_convertKeys _, h4⟩

example : loadConvention exEnv (py% "FIR") .latest = .ok (convertKeys (exConvention (py% "1.0"))) ∧
    '_' ∉ py% "FIR" := by decide +kernel

example : ∀ f ∈ exEnv.files, ∀ w, Spec.FileOf f.base (py% "FIR") w → ∃ m d, Spec.SimpleVersion w m d := by
  intro f hf w h
  have hw := fileVersion_of h
  simp only [exEnv, List.mem_cons, List.not_mem_nil, or_false] at hf
  rcases hf with rfl | rfl
  · refine ⟨1, 0, py% "1", '0', ?_, by decide, by decide⟩
    rw [← hw]; decide
  · refine ⟨0, 9, py% "0", '9', ?_, by decide, by decide⟩
    rw [← hw]; decide

/-- see `C14_decimal` -/
theorem latest_decimal (env : Env) (c : Str) (hc : '_' ∉ c)
    (hf : ∀ f ∈ env.files, ∃ n w, Spec.FileOf f.base n w)
    (hv : ∀ f ∈ env.files, ∀ w, Spec.FileOf f.base c w → ∃ q, Spec.DecimalVersion w q) :
    ((∃ conv, loadConvention env c .latest = .ok conv) ↔ ∃ f ∈ env.files, ∃ w, Spec.FileOf f.base c w) ∧
    ∀ conv, loadConvention env c .latest = .ok conv →
      ∃ before f after w q, env.files = before ++ f :: after ∧ Spec.FileOf f.base c w ∧ Spec.DecimalVersion w q ∧
        conv = convertKeys f.content ∧
        (∀ g ∈ before, ∀ w' q', Spec.FileOf g.base c w' → Spec.DecimalVersion w' q' → q' < q) ∧
        (∀ g ∈ after, ∀ w' q', Spec.FileOf g.base c w' → Spec.DecimalVersion w' q' → q' ≤ q) := by
  have hmem : ∀ f, f ∈ env.files.filter (fun f => Str.startsWith f.base (c ++ py% "_")) ↔
      f ∈ env.files ∧ ∃ w, Spec.FileOf f.base c w := by
    intro f
    rw [List.mem_filter]
    refine and_congr_right fun h1 => ?_
    obtain ⟨n, w, hfo⟩ := hf f h1
    rw [startsWith_of hfo hc]
    constructor
    · rintro rfl; exact ⟨w, hfo⟩
    · rintro ⟨w', hfo'⟩; exact (startsWith_of hfo hc).1 ((startsWith_of hfo' hc).2 rfl)
  have hval : ∀ f ∈ env.files, ∀ w q, Spec.FileOf f.base c w → Spec.DecimalVersion w q →
      pyFloat (fileVersion f.base) = some q := by
    intro f _ w q hfo hd
    rw [fileVersion_of hfo]
    exact pyFloat_decimal hd
  have hall : ∀ f ∈ env.files.filter (fun f => Str.startsWith f.base (c ++ py% "_")),
      ∃ q, pyFloat (fileVersion f.base) = some q := by
    intro f h
    obtain ⟨h1, w, hfo⟩ := (hmem f).1 h
    obtain ⟨q, hd⟩ := hv f h1 w hfo
    exact ⟨q, hval f h1 w q hfo hd⟩
  obtain ⟨r, hr⟩ := mapM_pairs_total _ hall
  obtain ⟨hr1, _⟩ := mapM_pairs _ _ hr
  have hr2 := mapM_pairs_fst _ _ hr
  constructor
  · constructor
    · rintro ⟨conv, h⟩
      unfold loadConvention selectFile at h
      simp only at h
      split at h
      · cases h
      · rename_i g hs
        split at hs
        · cases hs
        · rename_i f fs hfs
          have : f ∈ env.files.filter (fun f => Str.startsWith f.base (c ++ py% "_")) := by rw [hfs]; simp
          obtain ⟨h1, h2⟩ := (hmem f).1 this
          exact ⟨f, h1, h2⟩
    · rintro ⟨f, h1, h2⟩
      have hm := (hmem f).2 ⟨h1, h2⟩
      unfold loadConvention selectFile
      simp only
      cases hfs : env.files.filter (fun f => Str.startsWith f.base (c ++ py% "_")) with
      | nil => rw [hfs] at hm; cases hm
      | cons g gs =>
        rw [hfs] at hr hr2
        simp only [hr]
        cases r with
        | nil => cases hr2
        | cons p l => exact ⟨_, rfl⟩
  · intro conv h
    unfold loadConvention selectFile at h
    simp only at h
    cases hfs : env.files.filter (fun f => Str.startsWith f.base (c ++ py% "_")) with
    | nil => simp [hfs] at h
    | cons g gs =>
      rw [hfs] at hr hr2
      simp only [hfs, hr] at h
      cases r with
      | nil => cases hr2
      | cons p l =>
        simp only [Except.ok.injEq] at h
        obtain ⟨b, x, a, h1, h2, h3, h4⟩ := argmaxFile_first l p
        rw [h1, List.map_append, List.map_cons, ← hfs, eq_comm, List.filter_eq_append_iff] at hr2
        obtain ⟨b', c', h5, h6, h7⟩ := hr2
        rw [List.filter_eq_cons_iff] at h7
        obtain ⟨b'', a', h8, h9, h10, h11⟩ := h7
        have hx := hr1 x (by rw [h1]; simp)
        obtain ⟨hx1, w, hfo⟩ := (hmem x.1).1 hx.1
        obtain ⟨q, hd⟩ := hv x.1 hx1 w hfo
        have hq : x.2 = q := by
          have := hval _ hx1 w q hfo hd
          rw [hx.2] at this
          exact Option.some.inj this
        have key : ∀ (l : List (ConvFile × Rat)) (l' : List ConvFile), (∀ y ∈ l', y ∈ env.files) →
            l'.filter (fun f => Str.startsWith f.base (c ++ py% "_")) = l.map Prod.fst →
            (∀ y ∈ l, y ∈ b ++ x :: a) →
            ∀ y ∈ l', ∀ w' q', Spec.FileOf y.base c w' → Spec.DecimalVersion w' q' → ∃ z ∈ l, z.2 = q' := by
          intro l l' h12 h13 h14 y hy w' q' hfo' hd'
          have h15 : y ∈ l'.filter (fun f => Str.startsWith f.base (c ++ py% "_")) :=
            List.mem_filter.2 ⟨hy, (startsWith_of hfo' hc).2 rfl⟩
          rw [h13] at h15
          obtain ⟨z, hz, rfl⟩ := List.mem_map.1 h15
          refine ⟨z, hz, ?_⟩
          have h16 := hr1 z (by rw [h1]; exact h14 z hz)
          rw [hval _ (h12 _ hy) w' q' hfo' hd'] at h16
          exact (Option.some.inj h16.2).symm
        refine ⟨b' ++ b'', x.1, a', w, q, by rw [h5, h8, List.append_assoc], hfo, hd, by rw [h2, h], ?_, ?_⟩
        · intro y hy w' q' hfo' hd'
          rcases List.mem_append.1 hy with hy | hy
          · obtain ⟨z, hz, rfl⟩ := key b b' (fun y hy => by rw [h5]; simp [hy]) h6 (fun y hy => by simp [hy])
              y hy w' q' hfo' hd'
            rw [← hq]
            exact h3 z hz
          · exact absurd ((startsWith_of hfo' hc).2 rfl) (h9 y hy)
        · intro y hy w' q' hfo' hd'
          obtain ⟨z, hz, rfl⟩ := key a a' (fun y hy => by rw [h5, h8]; simp [hy]) h11 (fun y hy => by simp [hy])
            y hy w' q' hfo' hd'
          rw [← hq]
          exact h4 z hz

/-- C14: for versions with one dot, a convention without a version is loaded exactly if there is a file of this name, and
what is loaded is the first of the files whose version is the largest decimal number. -/
theorem C14_decimal (env : Env) (c : Str) (hc : '_' ∉ c)
    (hf : ∀ f ∈ env.files, ∃ n w, Spec.FileOf f.base n w)
    (hv : ∀ f ∈ env.files, ∀ w, Spec.FileOf f.base c w → ∃ q, Spec.DecimalVersion w q) :
    ((∃ conv, loadConvention env c .latest = .ok conv) ↔ ∃ f ∈ env.files, ∃ w, Spec.FileOf f.base c w) ∧
    ∀ conv, loadConvention env c .latest = .ok conv →
      ∃ before f after w q, env.files = before ++ f :: after ∧ Spec.FileOf f.base c w ∧ Spec.DecimalVersion w q ∧
        Spec.TableOf f.content conv ∧
        (∀ g ∈ before, ∀ w' q', Spec.FileOf g.base c w' → Spec.DecimalVersion w' q' → q' < q) ∧
        (∀ g ∈ after, ∀ w' q', Spec.FileOf g.base c w' → Spec.DecimalVersion w' q' → q' ≤ q) := by
  refine ⟨(latest_decimal env c hc hf hv).1, fun conv h => ?_⟩
  obtain ⟨b, f, a, w, q, h1, h2, h3, rfl, h4⟩ := (latest_decimal env c hc hf hv).2 conv h
  exact ⟨b, f, a, w, q, h1, h2, h3, tableOf_convertKeys _, h4⟩

/-- A folder with the versions 1.9 and 1.10; as decimal number, 1.10 is smaller. -/
def exTenFolder : Env := { exEnv with files := [⟨py% "FIR_1.10.json", exConvention (py% "1.10")⟩,
  ⟨py% "FIR_1.9.json", exConvention (py% "1.9")⟩] }

example : Spec.DecimalVersion (py% "1.10") (11 / 10) ∧ Spec.DecimalVersion (py% "1.9") (19 / 10) ∧
    loadConvention exTenFolder (py% "FIR") .latest = .ok (convertKeys (exConvention (py% "1.9"))) := by
  refine ⟨⟨py% "1", py% "10", 1, 10, by decide, by decide, by decide, by decide +kernel⟩,
    ⟨py% "1", py% "9", 1, 9, by decide, by decide, by decide, by decide +kernel⟩, by decide +kernel⟩

/-- the versions are compared as floats to find the latest one and as versions everywhere else -/
theorem versionLt_iff (a b : List Nat) : versionLt a b = true ↔ Spec.VersionLt a b := by
  unfold Spec.VersionLt
  induction a generalizing b with
  | nil =>
    induction b with
    | nil => simp [versionLt]
    | cons b bs ih =>
      simp only [versionLt, Bool.or_eq_true, decide_eq_true_eq, ih]
      constructor
      · rintro (h | ⟨i, h1, h2⟩)
        · exact ⟨0, by simp, by simpa using h⟩
        · by_cases hb : 0 < b
          · exact ⟨0, by simp, by simpa using hb⟩
          · refine ⟨i + 1, ?_, by simpa using h2⟩
            intro j hj
            cases j with
            | zero => simp; omega
            | succ j => simpa using h1 j (by omega)
      · rintro ⟨i, h1, h2⟩
        cases i with
        | zero => left; simpa using h2
        | succ i =>
          right
          exact ⟨i, fun j hj => by simpa using h1 (j + 1) (by omega), by simpa using h2⟩
  | cons a as ih =>
    cases b with
    | nil => simp [versionLt]
    | cons b bs =>
      simp only [versionLt, Bool.or_eq_true, Bool.and_eq_true, decide_eq_true_eq, ih]
      constructor
      · rintro (h | ⟨h, i, h1, h2⟩)
        · exact ⟨0, by simp, by simpa using h⟩
        · refine ⟨i + 1, ?_, by simpa using h2⟩
          intro j hj
          cases j with
          | zero => simpa using h
          | succ j => simpa using h1 j (by omega)
      · rintro ⟨i, h1, h2⟩
        cases i with
        | zero => left; simpa using h2
        | succ i =>
          right
          exact ⟨by simpa using h1 0 (by omega), i, fun j hj => by simpa using h1 (j + 1) (by omega), by simpa using h2⟩

/-- C14 is false: of the versions 1.9 and 1.10, version 1.9 is loaded. -/
theorem C14_refuted : ∃ (env : Env) (c : Str) (conv : Dict Entry) (f : ConvFile) (w : Str) (a b : List Nat),
    loadConvention env c .latest = .ok conv ∧ (∃ e, Dict.get? conv (py% "GLOBAL_SOFAConventionsVersion") = some e ∧ e.default = .val (.str (py% "1.9"))) ∧
    Spec.VersionNumbers (py% "1.9") a ∧ f ∈ env.files ∧ Spec.FileOf f.base c w ∧ Spec.VersionNumbers w b ∧
    Spec.VersionLt a b := by
  refine ⟨{ exEnv with files := [⟨py% "FIR_1.10.json", exConvention (py% "1.10")⟩,
    ⟨py% "FIR_1.9.json", exConvention (py% "1.9")⟩] }, py% "FIR", convertKeys (exConvention (py% "1.9")),
    ⟨py% "FIR_1.10.json", exConvention (py% "1.10")⟩, py% "1.10", [1, 9], [1, 10], by decide +kernel,
    ⟨_, rfl, rfl⟩, parseVersion_iff.1 (by decide +kernel), by simp, ⟨by decide, by decide, by decide⟩,
    parseVersion_iff.1 (by decide +kernel), ?_⟩
  rw [← versionLt_iff]
  decide

end Sofar
