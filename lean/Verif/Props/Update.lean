import Verif.Lemmas.Update
import Mathlib.Data.List.Chain
/-!
# Properties of updating the conventions (C52 to C56)
-/
namespace Sofar

/-! ## Examples -/

/-- only `1` is a number -/
def exLang : Lang :=
  { decode := .ok, int := fun s => if s = py% "1" then some 1 else none, float := fun _ => none,
    strFloat := fun _ => some (py% "1.0") }

def exCsv : Str := py% "Name\tDefault\tFlags\tDimensions\tType\tComment\nData.IR\t1\tm\tM\tdouble\tx\nGLOBAL_Title\t \t \t \tattribute\ty\nRoom\t1\tm\tM\tdouble\tz\n"

/-- a server with one standardized convention, one deprecated convention, and a file that is excluded -/
def exServer (content : Str) : Server :=
  { links := fun dep => .ok (if dep then [some (py% "B_1.0.csv"), some (py% "?C=N;O=D")]
      else [some (py% "/conventions/A_1.0.csv"), some (py% "General_1.0.csv")])
    file := fun dep c => if c = py% "A_1.0.csv" || (dep && c = py% "B_1.0.csv") then .ok content
      else .error (.osError (py% "no connection")) }

/-- the second convention is not deprecated on the disk -/
def exFolder : Folder := ⟨true, false, [(py% "B_1.0.csv", py% "old"), (py% "own.csv", exCsv)], [(py% "B_1.0.json", [])]⟩

/-! ## C52 Declining an update changes no convention -/

/-- Without confirmation, the files with conventions are the same as before. This includes all exceptions. -/
theorem C52_declined (lang : Lang) (server : Server) (d : Folder) (answer : Except Exc Str) (h : answer ≠ .ok (py% "y")) :
    (updateConventions lang server d false answer).folder.csv = d.csv ∧
    (updateConventions lang server d false answer).folder.json = d.json := by
  rcases updateConventions_cases lang server d false answer with ⟨e, -, h1⟩ | ⟨std, dep, p, -, he⟩
  · exact h1
  · rw [he]
    unfold finishUpdate
    split
    · exact ⟨rfl, rfl⟩
    · simp only [Bool.false_eq_true, if_false]
      cases answer with
      | error e => exact ⟨rfl, rfl⟩
      | ok a =>
        have ha : a ≠ py% "y" := fun he => h (by rw [he])
        simp only [if_pos ha]
        trivial

example : (updateConventions exLang (exServer exCsv) exFolder false (.ok (py% "Y"))).folder.csv = exFolder.csv ∧
    (updateConventions exLang (exServer exCsv) exFolder true (.ok (py% "Y"))).folder.csv ≠ exFolder.csv := by
  refine ⟨(C52_declined _ _ _ _ (by decide)).1, ?_⟩
  decide +kernel

/-- If a convention of the server can not be read, nothing is changed, even if the update was confirmed in advance. -/
theorem C52_download_fails (lang : Lang) (server : Server) (d : Folder) (assumeYes : Bool) (answer : Except Exc Str) (c : Str)
    (he : ¬ Spec.Excluded c)
    (hc : (Spec.Listed server false c ∧ ∃ e, server.file false c = .error e) ∨
      (Spec.Listed server true c ∧ ¬ Spec.Listed server false c ∧ ∃ e, server.file true c = .error e)) :
    (∃ e, (updateConventions lang server d assumeYes answer).out = .error e) ∧
    (updateConventions lang server d assumeYes answer).folder.csv = d.csv ∧
    (updateConventions lang server d assumeYes answer).folder.json = d.json := by
  rcases updateConventions_cases lang server d assumeYes answer with ⟨e, h0, h1⟩ | ⟨std, dep, p, hp, -⟩
  · exact ⟨⟨e, h0⟩, h1⟩
  · exfalso
    have hex : excluded c = false := by
      rw [← Bool.not_eq_true, excluded_iff]; exact he
    rcases hc with ⟨h1, e, h2⟩ | ⟨h1, h3, e, h2⟩
    · have hm : c ∈ std := (hp.std_mem c).2 h1
      obtain ⟨y, hy, -⟩ := hp.ok.all c (by simp [hm]) hex
      simp only [List.contains_iff_mem.2 hm, Bool.not_true, h2] at hy
      cases hy
    · have hm : c ∈ dep := (hp.dep_mem c).2 h1
      have hn : std.contains c = false := by
        rw [← Bool.not_eq_true, List.contains_iff_mem]
        exact fun hm => h3 ((hp.std_mem c).1 hm)
      obtain ⟨y, hy, -⟩ := hp.ok.all c (by simp [hm]) hex
      simp only [hn, Bool.not_false, h2] at hy
      cases hy

/-- the second convention can not be downloaded -/
def exServerOffline : Server :=
  { links := (exServer exCsv).links
    file := fun _ c => if c = py% "A_1.0.csv" then .ok exCsv else .error (.osError (py% "no connection")) }

example : (updateConventions exLang exServerOffline exFolder true (.ok [])).folder.csv = exFolder.csv :=
  (C52_download_fails _ _ _ _ _ (py% "B_1.0.csv") (by simp [Spec.Excluded]) (Or.inr ⟨
    ⟨_, _, rfl, List.mem_cons_self, ⟨py% "B_1.0.", by simp⟩, by simp, Or.inl rfl⟩, by
      rintro ⟨l, u, h1, h2, -, -, h3⟩
      simp only [exServerOffline, exServer, Except.ok.injEq] at h1
      subst h1
      simp only [Bool.false_eq_true, if_false, List.mem_cons, Option.some.injEq, List.not_mem_nil, or_false] at h2
      rcases h2 with rfl | rfl
      · rcases h3 with h3 | ⟨p, h3⟩
        · simp at h3
        · have := congrArg (fun l => l.reverse.take 9) h3
          simp at this
      · rcases h3 with h3 | ⟨p, h3⟩
        · simp at h3
        · have := congrArg (fun l => l.reverse.take 9) h3
          simp at this, ⟨_, rfl⟩⟩)).2.1

/-! ## C54 After an update the local conventions mirror the server -/

/-- After a confirmed update without exception, all conventions from the server are stored: standardized conventions in the
folder itself, and other conventions only in the folder `deprecated`. Missing: updates that stop with an exception, see
`C54_refuted` and `C54_refuted_twice`. -/
theorem C54_mirror_partial (lang : Lang) (server : Server) (d : Folder) (assumeYes : Bool) (answer : Except Exc Str)
    (hy : assumeYes = true ∨ answer = .ok (py% "y"))
    (h : (updateConventions lang server d assumeYes answer).out = .ok ()) (c : Str) (he : ¬ Spec.Excluded c) :
    (Spec.Listed server false c → ∃ y, server.file false c = .ok y ∧
      Spec.Mirrors (updateConventions lang server d assumeYes answer).folder true c (Spec.unix y)) ∧
    (Spec.Listed server true c → ¬ Spec.Listed server false c → ∃ y, server.file true c = .ok y ∧
      Spec.Mirrors (updateConventions lang server d assumeYes answer).folder false c (Spec.unix y)) := by
  obtain ⟨std, dep, p, hp, hm, -⟩ := update_mirrored hy h
  have hex : excluded c = false := by
    rw [← Bool.not_eq_true, excluded_iff]; exact he
  constructor
  · intro h1
    have h2 : c ∈ std := (hp.std_mem c).2 h1
    obtain ⟨y, x, h3, h4, h5, -⟩ := hm.mirror c (by simp [h2]) hex
    simp only [List.contains_iff_mem.2 h2, Bool.not_true, target, if_true] at h3 h4
    rw [unixLines_eq, unixLines_eq] at h5
    exact ⟨y, h3, x, h4, h5⟩
  · intro h1 h0
    have h2 : c ∈ dep := (hp.dep_mem c).2 h1
    have hn : std.contains c = false := by
      rw [← Bool.not_eq_true, List.contains_iff_mem]
      exact fun hm => h0 ((hp.std_mem c).1 hm)
    obtain ⟨y, x, h3, h4, h5, h6⟩ := hm.mirror c (by simp [h2]) hex
    simp only [hn, Bool.not_false, target, Bool.false_eq_true, if_false, deprecatedPath] at h3 h4 h6
    rw [unixLines_eq, unixLines_eq] at h5
    refine ⟨y, h3, ⟨x, h4, h5⟩, ?_⟩
    rintro ⟨x', h7⟩
    rw [Spec.Holds, h6 trivial] at h7
    cases h7

example : (updateConventions exLang (exServer exCsv) exFolder true (.ok [])).out = .ok () ∧
    (updateConventions exLang (exServer exCsv) exFolder true (.ok [])).folder.csv =
      [(py% "own.csv", exCsv), (py% "A_1.0.csv", exCsv), (py% "deprecated/B_1.0.csv", exCsv)] := by
  decide +kernel

/-- All files that do not belong to the server are kept, whatever happens during the update. -/
theorem C54_others (lang : Lang) (server : Server) (d : Folder) (assumeYes : Bool) (answer : Except Exc Str) (path : Str)
    (hpath : ∀ dep c, Spec.Listed server dep c → path ≠ c ∧ path ≠ py% "deprecated/" ++ c) :
    Dict.get? (updateConventions lang server d assumeYes answer).folder.csv path = Dict.get? d.csv path := by
  rcases updateConventions_cases lang server d assumeYes answer with ⟨e, -, h1, -⟩ | ⟨std, dep, p, hp, he⟩
  · rw [h1]
  · have hof : ∀ c ∈ std ++ dep, path ≠ c ∧ path ≠ py% "deprecated/" ++ c := by
      intro c hc
      rcases List.mem_append.1 hc with hc | hc
      · exact hpath false c ((hp.std_mem c).1 hc)
      · exact hpath true c ((hp.dep_mem c).1 hc)
    have h1 : path ∉ p.update := by
      intro hm
      obtain ⟨c, hc, -, hx, -⟩ := hp.ok.update path hm
      unfold target at hx
      split at hx
      · exact (hof c hc).1 hx
      · exact (hof c hc).2 hx
    have h2 : ∀ c ∈ p.outdated, path ≠ c ∧ path ≠ deprecatedPath c := fun c hc => hof c (hp.ok.outdated c hc).1
    rw [he]
    exact finishUpdate_other lang p _ assumeYes answer path h1 h2

example : Dict.get? (updateConventions exLang (exServer exCsv) exFolder true (.ok [])).folder.csv (py% "own.csv") = some exCsv := by
  rw [C54_others]
  · decide
  · intro dep c h
    obtain ⟨l, u, h1, h2, -, -, h3⟩ := h
    simp only [exServer, Except.ok.injEq] at h1
    have hu : u = py% "B_1.0.csv" ∨ u = py% "?C=N;O=D" ∨ u = py% "/conventions/A_1.0.csv" ∨ u = py% "General_1.0.csv" := by
      subst h1
      cases dep
      · simp only [Bool.false_eq_true, if_false, List.mem_cons, Option.some.injEq, List.not_mem_nil, or_false] at h2
        rcases h2 with h2 | h2 <;> simp only [h2, true_or, or_true]
      · simp only [if_true, List.mem_cons, Option.some.injEq, List.not_mem_nil, or_false] at h2
        rcases h2 with h2 | h2 <;> simp only [h2, true_or, or_true]
    constructor
    · rintro rfl
      rcases hu with rfl | rfl | rfl | rfl <;> rcases h3 with h3 | ⟨p, h3⟩ <;> try (simp at h3)
      all_goals
        have := congrArg (fun l => l.reverse.take 5) h3
        simp at this
    · intro h4
      exact absurd (congrArg List.head? h4) (by simp)

/-- When files were changed, all csv files in both folders are compiled. -/
theorem C54_compiled (lang : Lang) (server : Server) (d : Folder) (assumeYes : Bool) (answer : Except Exc Str)
    (hy : assumeYes = true ∨ answer = .ok (py% "y"))
    (h : (updateConventions lang server d assumeYes answer).out = .ok ())
    (hchanged : (updateConventions lang server d assumeYes answer).folder.csv ≠ d.csv)
    (dir name x : Str) (hdir : dir = [] ∨ dir = py% "deprecated/") (hname : '/' ∉ name ∧ name ≠ [] ∧ name.head? ≠ some '.')
    (hx : Spec.Holds (updateConventions lang server d assumeYes answer).folder (dir ++ name ++ py% ".csv") x) :
    ∃ t, csv2dict lang x = .ok t ∧
      Dict.get? (updateConventions lang server d assumeYes answer).folder.json (dir ++ name ++ py% ".json") = some t := by
  rcases updateConventions_cases lang server d assumeYes answer with ⟨e, he, -⟩ | ⟨std, dep, p, hp, he⟩
  · rw [he] at h; simp at h
  · rw [he] at h hchanged hx ⊢
    rcases finishUpdate_ok hy h with ⟨-, -, h3⟩ | h1
    · rw [h3] at hchanged
      exact absurd rfl hchanged
    · exact applyPlan_compiled h1 hdir hname hx

example : (Dict.get? (updateConventions exLang (exServer exCsv) exFolder true (.ok [])).folder.json (py% "deprecated/B_1.0.json")).map
    Dict.keys = some [py% "GLOBAL_Title", py% "Room", py% "Data.IR"] := by decide +kernel

/-- A convention that becomes deprecated is lost, if its csv file was not compiled before: the csv file is removed, and then
the update stops because there is no json file. -/
theorem C54_refuted : ∃ (lang : Lang) (server : Server) (d : Folder) (c : Str) (e : Exc),
    Spec.Listed server true c ∧ ¬ Spec.Excluded c ∧ (∃ x, Spec.Holds d c x) ∧
    (updateConventions lang server d true (.ok [])).out = .error e ∧
    (¬ ∃ x, Spec.Holds (updateConventions lang server d true (.ok [])).folder c x) ∧
    ¬ ∃ x, Spec.Holds (updateConventions lang server d true (.ok [])).folder (py% "deprecated/" ++ c) x := by
  refine ⟨exLang, exServer exCsv, { exFolder with json := [] }, py% "B_1.0.csv", .osError (py% "No such file or directory"),
    ⟨_, _, rfl, List.mem_cons_self, ⟨py% "B_1.0.", by simp⟩, by simp, Or.inl rfl⟩, by simp [Spec.Excluded],
    ⟨py% "old", by unfold Spec.Holds; decide +kernel⟩, by decide +kernel, ?_, ?_⟩
  · rintro ⟨x, hx⟩
    unfold Spec.Holds at hx
    have : Dict.get? (updateConventions exLang (exServer exCsv) { exFolder with json := [] } true (.ok [])).folder.csv
      (py% "B_1.0.csv") = none := by decide +kernel
    rw [this] at hx
    cases hx
  · rintro ⟨x, hx⟩
    unfold Spec.Holds at hx
    have : Dict.get? (updateConventions exLang (exServer exCsv) { exFolder with json := [] } true (.ok [])).folder.csv
      (py% "deprecated/" ++ py% "B_1.0.csv") = none := by decide +kernel
    rw [this] at hx
    cases hx

/-- If the page of the server links a newly deprecated convention twice, then the update fails, and the new conventions are
not compiled. -/
theorem C54_refuted_twice : ∃ (lang : Lang) (server : Server) (d : Folder) (e : Exc),
    (∀ dep c, ∀ e, Spec.Listed server dep c → server.file dep c ≠ .error e) ∧
    (updateConventions lang server d true (.ok [])).out = .error e ∧
    Dict.has (updateConventions lang server d true (.ok [])).folder.csv (py% "A_1.0.csv") = true ∧
    Dict.has (updateConventions lang server d true (.ok [])).folder.json (py% "A_1.0.json") = false := by
  refine ⟨exLang, ⟨fun dep => .ok (if dep then [some (py% "B_1.0.csv"), some (py% "B_1.0.csv")] else [some (py% "A_1.0.csv")]),
    fun _ _ => .ok exCsv⟩, exFolder, .osError (py% "No such file or directory"), ?_, by decide +kernel, by decide +kernel,
    by decide +kernel⟩
  intro dep c e _
  simp

/-! ## C53 Updating twice is a no-op -/

/-- If the normalisation of line breaks does not change the normalised content of the files on the server, then a second
update finds nothing to do. Missing: other contents, see `C53_refuted`. -/
theorem C53_twice_partial (lang : Lang) (server : Server) (d : Folder) (assumeYes assumeYes' : Bool) (answer answer' : Except Exc Str)
    (hy : assumeYes = true ∨ answer = .ok (py% "y"))
    (h : (updateConventions lang server d assumeYes answer).out = .ok ())
    (hunix : ∀ dep c y, Spec.Listed server dep c → ¬ Spec.Excluded c → server.file dep c = .ok y →
      Spec.unix (Spec.unix y) = Spec.unix y) :
    updateConventions lang server (updateConventions lang server d assumeYes answer).folder assumeYes' answer' =
      ⟨.ok (), (updateConventions lang server d assumeYes answer).folder,
        [.print (py% "Reading SOFA conventions from https://www.sofaconventions.org/conventions/ ..."),
         .print (py% "... conventions already up to date.")]⟩ := by
  obtain ⟨std, dep, p, hp, hm, hr, hs⟩ := update_mirrored hy h
  generalize (updateConventions lang server d assumeYes answer).folder = d' at hm hr hs ⊢
  have hd : ({ d' with root := true, sub := true } : Folder) = d' := by
    cases d'
    simp only at hr hs
    subst hr hs
    rfl
  refine update_again hp hd (planAll_mirrored hm ?_)
  intro c hc hex y hfile
  have hne : ¬ Spec.Excluded c := by rw [← excluded_iff, hex]; simp
  rw [unixLines_eq, unixLines_eq]
  rcases List.mem_append.1 hc with hc | hc
  · rw [List.contains_iff_mem.2 hc] at hfile
    exact hunix false c y ((hp.std_mem c).1 hc) hne hfile
  · cases hstd : std.contains c with
    | true =>
      rw [hstd] at hfile
      exact hunix false c y ((hp.std_mem c).1 (List.contains_iff_mem.1 hstd)) hne hfile
    | false =>
      rw [hstd] at hfile
      exact hunix true c y ((hp.dep_mem c).1 hc) hne hfile

example : (updateConventions exLang (exServer exCsv)
      (updateConventions exLang (exServer exCsv) exFolder false (.ok (py% "y"))).folder true (.ok [])).ev.getLast? =
    some (.print (py% "... conventions already up to date.")) := by
  rw [C53_twice_partial _ _ _ _ _ _ _ (Or.inr rfl) (by decide +kernel) (by
    intro dep c y _ _ hf
    have : y = exCsv := by
      simp only [exServer] at hf
      split at hf
      · cases hf; rfl
      · cases hf
    subst this
    decide +kernel)]
  rfl

/-- Contents with no carriage return and at most one tab at the end of lines meet the condition of `C53_twice_partial`. -/
theorem C53_condition (y : Str) (h1 : '\r' ∉ y) (h2 : ¬ (py% "\t\t\n") <:+: y) : Spec.unix (Spec.unix y) = Spec.unix y := by
  have e1 : ∀ z : Str, '\r' ∉ z → Spec.dropBeforeBreak '\r' z = z := by
    intro z hz
    induction z with
    | nil => rfl
    | cons x z ih =>
      simp only [List.mem_cons, not_or] at hz
      unfold Spec.dropBeforeBreak
      rw [if_neg (by rintro ⟨rfl, -⟩; exact hz.1 rfl), ih hz.2]
  have e2 : ∀ z : Str, '\r' ∉ z → '\r' ∉ Spec.dropBeforeBreak '\t' z := by
    intro z hz
    induction z with
    | nil => exact hz
    | cons x z ih =>
      simp only [List.mem_cons, not_or] at hz
      unfold Spec.dropBeforeBreak
      split
      · exact ih hz.2
      · simp [hz.1, ih hz.2]
  have e3 : ∀ z : Str, ¬ (py% "\t\t\n") <:+: z → Spec.dropBeforeBreak '\t' (Spec.dropBeforeBreak '\t' z) = Spec.dropBeforeBreak '\t' z := by
    intro z hz
    induction z with
    | nil => rfl
    | cons x z ih =>
      have hz' : ¬ (py% "\t\t\n") <:+: z := fun h => hz (h.trans ⟨[x], [], by simp⟩)
      by_cases hx : x = '\t' ∧ z.head? = some '\n'
      · rw [Spec.dropBeforeBreak, if_pos hx]
        exact ih hz'
      · have e : Spec.dropBeforeBreak '\t' (x :: z) = x :: Spec.dropBeforeBreak '\t' z := by
          rw [Spec.dropBeforeBreak, if_neg hx]
        rw [e, Spec.dropBeforeBreak, ih hz', if_neg]
        rintro ⟨rfl, h⟩
        cases z with
        | nil => simp [Spec.dropBeforeBreak] at h
        | cons u z =>
          unfold Spec.dropBeforeBreak at h
          split at h
          · rename_i hu
            obtain ⟨rfl, hu⟩ := hu
            cases z with
            | nil => simp at hu
            | cons w z =>
              simp only [List.head?_cons, Option.some.injEq] at hu
              subst hu
              exact hz ⟨[], z, rfl⟩
          · simp only [List.head?_cons, Option.some.injEq] at h
            exact hx ⟨rfl, by simp [h]⟩
  unfold Spec.unix
  rw [e1 y h1, e1 _ (e2 y h1), e3 y h2]

example : Spec.unix (Spec.unix exCsv) = Spec.unix exCsv :=
  C53_condition _ (by decide) (by rw [← hasSub_iff]; decide +kernel)

/-- A line with two tabs at its end is updated again and again. -/
theorem C53_refuted : ∃ (lang : Lang) (server : Server) (d : Folder),
    (updateConventions lang server d true (.ok [])).out = .ok () ∧
    (updateConventions lang server (updateConventions lang server d true (.ok [])).folder true (.ok [])).ev.getLast? =
      some (.print (py% "... done.")) ∧
    (updateConventions lang server (updateConventions lang server d true (.ok [])).folder true (.ok [])).folder =
      (updateConventions lang server d true (.ok [])).folder := by
  refine ⟨exLang, exServer (py% "Name\tDefault\t\t\n"), ⟨true, true, [], []⟩, ?_, ?_, ?_⟩ <;> decide +kernel

/-! ## C55 Reordering of a convention table is a stable partition -/

/-- The entries of a convention in their order: first the global attributes, then the others, and then the data. Each group
has the order in which the names occur for the first time in the file. -/
theorem C55_order (lang : Lang) (content : Str) (d : Dict (Dict Cell)) (h : csv2dict lang content = .ok d) :
    ∃ t ls names, lang.decode content = .ok t ∧ Spec.Lines (Spec.unixBreaks t) ls ∧
      List.Forall₂ Spec.RowName (ls.drop 1) names ∧ (Dict.keys d).Nodup ∧
      Dict.keys d =
        names.eraseDups.filter (fun n => decide ((py% "GLOBAL") <:+: n ∧ ¬ (py% "Data") <+: n)) ++
        names.eraseDups.filter (fun n => decide (¬ (py% "GLOBAL") <:+: n ∧ ¬ (py% "Data") <+: n)) ++
        names.eraseDups.filter (fun n => decide ((py% "Data") <+: n)) := by
  obtain ⟨t, ls, names, h1, h2, h3, h4⟩ := csv2dict_keys h
  have hn : names.eraseDups.Nodup := nodup_eraseDups names
  refine ⟨t, ls, names, h1, h2, h3, ?_, ?_⟩
  · rw [h4]
    exact nodup_groups hn _ _
  · rw [h4]
    have e1 : ∀ n : Str, Str.hasSub n (py% "GLOBAL") = decide ((py% "GLOBAL") <:+: n) := by
      intro n
      rw [Bool.eq_iff_iff, hasSub_iff]; simp
    have e2 : ∀ n : Str, Str.startsWith n (py% "Data") = decide ((py% "Data") <+: n) := by
      intro n
      rw [Bool.eq_iff_iff]; simp [Str.startsWith]
    simp only [e1, e2]
    congr 2
    · apply List.filter_congr
      intro n _
      by_cases a : (py% "GLOBAL") <:+: n <;> by_cases b : (py% "Data") <+: n <;> simp [a, b]
    · apply List.filter_congr
      intro n _
      by_cases a : (py% "GLOBAL") <:+: n <;> by_cases b : (py% "Data") <+: n <;> simp [a, b]

example : (csv2dict exLang exCsv).map Dict.keys = .ok [py% "GLOBAL_Title", py% "Room", py% "Data.IR"] := by decide +kernel

/-! ## C56 Congruency check looks at every convention -/

/-- Only conventions that are missing on one of the platforms are reported as missing, and only conventions with different
content on both platforms are reported as different. -/
theorem C56_sound (names : Bool → List Str) (file : Bool → Str → Str) (r : Congruency) (h : checkCongruency names file = .ok r)
    (c : Str) :
    (py% "- " ++ c ++ py% " is missing in SOFAtoolbox\n" ∈ r.report → c ∈ names false ∧ c ∉ names true ∧ ¬ Spec.Excluded c) ∧
    (py% "- " ++ c ++ py% " is missing on sofaconventions.org\n" ∈ r.report → c ∈ names true ∧ c ∉ names false ∧ ¬ Spec.Excluded c) ∧
    (py% "- " ++ c ++ py% " differs across platforms\n" ∈ r.report → c ∈ r.compared ∧ Spec.unix (file false c) ≠ Spec.unix (file true c)) ∧
    (c ∈ r.compared → c ∈ names false) ∧
    (c ∈ names false → c ∈ names true → ¬ Spec.Excluded c → c ∈ r.compared) := by
  obtain ⟨m, n, h1, h2, h3, h4, h5, h6, -, -⟩ := checkCongruency_parts h
  refine ⟨?_, ?_, ?_, h5, h6⟩
  · intro hl
    rw [h1] at hl
    rcases mem_report hl with ⟨c', hc', e⟩ | ⟨c', hc', e⟩ | ⟨c', hc', e⟩
    · rw [report_inj e]; exact h2 c' hc'
    · have := congrArg (fun l => l.reverse.take 3) e
      simp at this
    · have := congrArg (fun l => l.reverse.take 3) e
      simp at this
  · intro hl
    rw [h1] at hl
    rcases mem_report hl with ⟨c', hc', e⟩ | ⟨c', hc', e⟩ | ⟨c', hc', e⟩
    · have := congrArg (fun l => l.reverse.take 3) e
      simp at this
    · rw [report_inj e]; exact h3 c' hc'
    · have := congrArg (fun l => l.reverse.take 3) e
      simp at this
  · intro hl
    rw [h1] at hl
    rcases mem_report hl with ⟨c', hc', e⟩ | ⟨c', hc', e⟩ | ⟨c', hc', e⟩
    · have := congrArg (fun l => l.reverse.take 3) e
      simp at this
    · have := congrArg (fun l => l.reverse.take 3) e
      simp at this
    · rw [report_inj e]; exact (h4 c').1 hc'

/-- the lists of an example; `B.csv` and `General_1.csv` are only available on the first platform -/
def exNames (second : Bool) : List Str :=
  if second then [py% "A.csv", py% "D.csv", py% "E.csv"] else [py% "General_1.csv", py% "A.csv", py% "B.csv", py% "D.csv"]

example : checkCongruency exNames (fun p c => if p then c ++ py% "\r\n" else c ++ py% "\n") =
    .ok ⟨[py% "- B.csv is missing in SOFAtoolbox\n", py% "- E.csv is missing on sofaconventions.org\n"],
      [py% "A.csv", py% "D.csv"]⟩ := by decide +kernel

/-- All conventions are checked, if the lists contain no two neighbours that are excluded or missing on the other
platform, and no duplicates. Missing: other lists, see `C56_refuted`. -/
theorem C56_complete_partial (names : Bool → List Str) (file : Bool → Str → Str) (r : Congruency)
    (h : checkCongruency names file = .ok r) (hn : ∀ p, (names p).Nodup)
    (hadj : ∀ p a b, [a, b] <:+: names p → (Spec.Excluded a ∨ a ∉ names (!p)) → ¬ (Spec.Excluded b ∨ b ∉ names (!p))) (c : Str) :
    (c ∈ names false → c ∉ names true → ¬ Spec.Excluded c → py% "- " ++ c ++ py% " is missing in SOFAtoolbox\n" ∈ r.report) ∧
    (c ∈ names true → c ∉ names false → ¬ Spec.Excluded c → py% "- " ++ c ++ py% " is missing on sofaconventions.org\n" ∈ r.report) ∧
    (c ∈ r.compared ↔ c ∈ names false ∧ c ∈ names true ∧ ¬ Spec.Excluded c) ∧
    (c ∈ names false → c ∈ names true → ¬ Spec.Excluded c → Spec.unix (file false c) ≠ Spec.unix (file true c) →
      py% "- " ++ c ++ py% " differs across platforms\n" ∈ r.report) := by
  obtain ⟨m, n, h1, h2, h3, h4, h5, h6, h7, h8⟩ := checkCongruency_parts h
  obtain ⟨h7, h9⟩ := h7 (hn false) (hadj false)
  have h8 := h8 (hn true) (hadj true)
  refine ⟨?_, ?_, ?_, ?_⟩
  · intro a b e
    rw [h1]
    exact List.mem_append_left _ (List.mem_append_left _ (List.mem_map.2 ⟨c, h7 c a b e, rfl⟩))
  · intro a b e
    rw [h1]
    exact List.mem_append_left _ (List.mem_append_right _ (List.mem_map.2 ⟨c, h8 c a b e, rfl⟩))
  · exact ⟨fun hc => h9 c hc, fun hc => h6 hc.1 hc.2.1 hc.2.2⟩
  · intro a b e hne
    rw [h1]
    exact List.mem_append_right _ (List.mem_map.2 ⟨c, (h4 c).2 ⟨h6 a b e, hne⟩, rfl⟩)

example : py% "- E.csv is missing on sofaconventions.org\n" ∈
    (match checkCongruency exNames (fun _ c => c) with | .ok r => r.report | .error _ => []) := by
  cases h : checkCongruency exNames (fun _ c => c) with
  | error e =>
    have : checkCongruency exNames (fun _ c => c) ≠ .error e := by
      intro he
      simp [checkCongruency, exNames] at he
    exact absurd h this
  | ok r =>
    have := (C56_complete_partial exNames (fun _ c => c) r h (by intro p; cases p <;> decide) (by
      have hx : ∀ p, (exNames p).IsChain (fun a b => (Spec.Excluded a ∨ a ∉ exNames (!p)) → ¬ (Spec.Excluded b ∨ b ∉ exNames (!p))) := by
        intro p
        cases p <;> simp [exNames, Spec.Excluded]
      intro p a b hab
      have := (hx p).infix hab
      simp only [List.isChain_cons_cons] at this
      exact this.1) (py% "E.csv")).2.1 (by decide) (by decide) (by simp [Spec.Excluded])
    exact this

/-- The second of two neighbouring conventions that are missing on the other platform is not reported, and an excluded
convention after a missing one is compared. -/
theorem C56_refuted : ∃ (names : Bool → List Str) (file : Bool → Str → Str) (r : Congruency) (c g : Str),
    checkCongruency names file = .ok r ∧ (∀ p, (names p).Nodup) ∧
    (c ∈ names false ∧ c ∉ names true ∧ ¬ Spec.Excluded c ∧ py% "- " ++ c ++ py% " is missing in SOFAtoolbox\n" ∉ r.report) ∧
    Spec.Excluded g ∧ g ∈ r.compared := by
  refine ⟨fun p => if p then [py% "A"] else [py% "B", py% "C", py% "D", py% "General_", py% "A"], fun _ _ => [],
    ⟨[py% "- B is missing in SOFAtoolbox\n", py% "- D is missing in SOFAtoolbox\n"], [py% "C", py% "General_", py% "A"]⟩,
    py% "C", py% "General_", by decide +kernel, by intro p; cases p <;> decide, ⟨by decide, by decide, by simp [Spec.Excluded], by decide⟩,
    by simp [Spec.Excluded], by decide⟩

end Sofar
