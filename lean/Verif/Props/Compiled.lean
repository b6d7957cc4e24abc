import Verif.Lemmas.Compiled
/-!
# C77: objects contain what the csv file of their convention describes
-/
namespace Sofar

/-- C77: compile the conventions, then create an object: it has the names, default values, flags, dimensions and types
of the csv file. The file is in the folder of the conventions or in its sub folder `deprecated`, but not in both. -/
theorem C77_compiled_partial (lang : Lang) (env env' : Env) (d d' : Folder) (dir c v x : Str) (es : List (Str × Dict Cell))
    (arg : VerifyArg) (o : Obj) (hcmp : compileConventions lang d = (.ok (), d'))
    (hdir : dir = [] ∨ dir = py% "deprecated/") (hname : '_' ∉ c ∧ '/' ∉ c ∧ '/' ∉ v ∧ c ≠ [] ∧ c.head? ≠ some '.')
    (hx : Spec.Holds d (dir ++ (c ++ '_' :: v) ++ py% ".csv") x) (ht : Spec.Table lang x es)
    (hu : ∀ dir', dir' = [] ∨ dir' = py% "deprecated/" → dir' ++ (c ++ '_' :: (v ++ py% ".json")) ∈ d'.json.map Prod.fst →
      dir' = dir)
    (he : folderEnv env d' = some env') (hr : ∀ f ∈ env'.files, ∃ n w, Spec.FileOf f.base n w)
    (hp : ∀ n e, Spec.LastEntry es n e → Spec.sofarName n ≠ py% "protected")
    (h : (initSofa env' c false (.exact v) arg).out = .ok o) : Spec.Describes es c v o := by
  obtain ⟨n1, n2, n3, n4, n5⟩ := hname
  obtain ⟨t, h1, h2⟩ := compile_json hcmp (name := c ++ '_' :: v) hdir (by
    refine ⟨?_, ?_, ?_⟩
    · simp only [List.mem_append, List.mem_cons, not_or]
      exact ⟨n2, by decide, n3⟩
    · simp
    · cases c with
      | nil => exact absurd rfl n4
      | cons a b => simpa using n5) hx
  exact compiled_new ht h1 (by simpa using h2) hu he hr n1 hp h

/-- C77: the same after a confirmed update that changed some csv file. -/
theorem C77_updated_partial (lang : Lang) (server : Server) (env env' : Env) (d d' : Folder) (assumeYes : Bool)
    (answer : Except Exc Str) (dir c v x : Str) (es : List (Str × Dict Cell)) (arg : VerifyArg) (o : Obj)
    (hy : assumeYes = true ∨ answer = .ok (py% "y"))
    (hup : (updateConventions lang server d assumeYes answer).out = .ok ())
    (hd : d' = (updateConventions lang server d assumeYes answer).folder) (hch : d'.csv ≠ d.csv)
    (hdir : dir = [] ∨ dir = py% "deprecated/") (hname : '_' ∉ c ∧ '/' ∉ c ∧ '/' ∉ v ∧ c ≠ [] ∧ c.head? ≠ some '.')
    (hx : Spec.Holds d' (dir ++ (c ++ '_' :: v) ++ py% ".csv") x) (ht : Spec.Table lang x es)
    (hu : ∀ dir', dir' = [] ∨ dir' = py% "deprecated/" → dir' ++ (c ++ '_' :: (v ++ py% ".json")) ∈ d'.json.map Prod.fst →
      dir' = dir)
    (he : folderEnv env d' = some env') (hr : ∀ f ∈ env'.files, ∃ n w, Spec.FileOf f.base n w)
    (hp : ∀ n e, Spec.LastEntry es n e → Spec.sofarName n ≠ py% "protected")
    (h : (initSofa env' c false (.exact v) arg).out = .ok o) : Spec.Describes es c v o := by
  obtain ⟨n1, n2, n3, n4, n5⟩ := hname
  subst hd
  obtain ⟨t, h1, h2⟩ := C54_compiled lang server d assumeYes answer hy hup hch dir (c ++ '_' :: v) x hdir (by
    refine ⟨?_, ?_, ?_⟩
    · simp only [List.mem_append, List.mem_cons, not_or]
      exact ⟨n2, by decide, n3⟩
    · simp
    · cases c with
      | nil => exact absurd rfl n4
      | cons a b => simpa using n5) hx
  exact compiled_new ht h1 (by simpa using h2) hu he hr n1 hp h

/-- C77: objects can be created from every compiled table with rectangular lists, dimensions for all lists, and a row
for its own version. -/
theorem C77_creates (lang : Lang) (env env' : Env) (d d' : Folder) (dir c v x : Str) (es : List (Str × Dict Cell))
    (hcmp : compileConventions lang d = (.ok (), d')) (hdir : dir = [] ∨ dir = py% "deprecated/")
    (hname : '_' ∉ c ∧ '/' ∉ c ∧ c ≠ [] ∧ c.head? ≠ some '.') (hver : Spec.Release v)
    (hx : Spec.Holds d (dir ++ (c ++ '_' :: v) ++ py% ".csv") x) (ht : Spec.Table lang x es) (hus : Spec.Usable es)
    (hself : ∃ f, Spec.LastEntry es (py% "GLOBAL:SOFAConventionsVersion") f ∧
      Spec.OnlyRow es (py% "GLOBAL:SOFAConventionsVersion") ∧ Dict.get? f (py% "default") = some (.text v))
    (hu : ∀ dir', dir' = [] ∨ dir' = py% "deprecated/" → dir' ++ (c ++ '_' :: (v ++ py% ".json")) ∈ d'.json.map Prod.fst →
      dir' = dir)
    (he : folderEnv env d' = some env') (hr : ∀ f ∈ env'.files, ∃ n w, Spec.FileOf f.base n w) :
    ∃ o, (initSofa env' c false (.exact v) .no).out = .ok o ∧ Spec.Describes es c v o := by
  obtain ⟨n1, n2, n4, n5⟩ := hname
  have n3 : '/' ∉ v := by
    obtain ⟨a, b, rfl, -, -, h3⟩ := hver
    intro hm
    rcases List.mem_append.1 hm with hm | hm
    · exact absurd (h3 _ (List.mem_append_left _ hm)) (by decide)
    · rcases List.mem_cons.1 hm with hm | hm
      · exact absurd hm (by decide)
      · exact absurd (h3 _ (List.mem_append_right _ hm)) (by decide)
  obtain ⟨t, h1, h2⟩ := compile_json hcmp (name := c ++ '_' :: v) hdir (by
    refine ⟨?_, ?_, ?_⟩
    · simp only [List.mem_append, List.mem_cons, not_or]
      exact ⟨n2, by decide, n3⟩
    · simp
    · cases c with
      | nil => exact absurd rfl n4
      | cons a b => simpa using n5) hx
  have h2' : Dict.get? d'.json (dir ++ (c ++ '_' :: (v ++ py% ".json"))) = some t := by simpa using h2
  obtain ⟨o, ho⟩ := compiled_creates ht h1 hdir h2' hu he hr n1 ⟨n2, n4, n5⟩ hver hus hself
  exact ⟨o, ho, compiled_new ht h1 h2' hu he hr n1 (fun n e hl => (hus.name n e hl).1) ho⟩

/-! ## Example and refutation -/

/-- a convention with text, a version, a number, a list and a nested list -/
def exSmall : Str := exHeader ++ py% "GLOBAL:SOFAConventions\tSmall\trm\t\tattribute\tname\nGLOBAL:SOFAConventionsVersion\t1.0\trm\t\tattribute\tversion\nA\t[1 2.5 3]\tm\tIC\tdouble\tlist\nA:Units\tmetre\tm\t\tattribute\nData.X\t[1,0;0 1]\t\tRCM\tdouble\tmatrix\nB\t7\tm\tI\tdouble\n"

/-- the folder with this convention -/
def exSmallFolder : Folder := ⟨true, true, [(py% "Small_1.0.csv", exSmall)], []⟩

/-- the files of the compiled folder -/
def exSmallEnv : Env := ((folderEnv exEnv (compileConventions exPython exSmallFolder).2).getD exEnv)

/-- an object of the compiled convention -/
def exSmallSofa : Obj :=
  match (initSofa exSmallEnv (py% "Small") false (.exact (py% "1.0")) .no).out with
  | .ok o => o
  | .error _ => emptyObj []

theorem exSmallEnv_some : folderEnv exEnv (compileConventions exPython exSmallFolder).2 = some exSmallEnv := by
  have h : (folderEnv exEnv (compileConventions exPython exSmallFolder).2).isSome = true := by decide +kernel
  unfold exSmallEnv
  cases hf : folderEnv exEnv (compileConventions exPython exSmallFolder).2 with
  | none => rw [hf] at h; cases h
  | some e => rfl

/-- the names of the fields in `exHeader` -/
theorem exHeader_means : Spec.LineMeans exPython exHeader [.text (py% "Name"), .text (py% "Default"), .text (py% "Flags"),
    .text (py% "Dimensions"), .text (py% "Type"), .text (py% "Comment")] := (line_iff _ _ _).2 (by decide +kernel)

/-- The hypotheses of `C77_compiled_partial` hold for the example, and the object contains its values. -/
example : (compileConventions exPython exSmallFolder).1 = .ok () ∧
    (initSofa exSmallEnv (py% "Small") false (.exact (py% "1.0")) .no).out = .ok exSmallSofa ∧
    (compileConventions exPython exSmallFolder).2.json.map Prod.fst = [py% "Small_1.0.json"] ∧
    Dict.get? exSmallSofa.attrs (py% "A") = some (.arr ⟨.f, [1, 3], [.num (.fin 1), .num (.fin (5 / 2)), .num (.fin 3)]⟩) ∧
    Dict.get? exSmallSofa.attrs (py% "Data_X") = some (.arr (exNums .i [2, 2, 1] [1, 0, 0, 1])) ∧
    Dict.get? exSmallSofa.attrs (py% "A_Units") = some (.str (py% "metre")) ∧
    Dict.get? exSmallSofa.attrs (py% "B") = some (.num .i (.num (.fin 7))) := by decide +kernel

/-- a compiled row -/
def exRow (default : Cell) (flags dims : Cell) (typ comment : Str) : Dict Cell :=
  [(py% "default", default), (py% "flags", flags), (py% "dimensions", dims), (py% "type", .text typ),
    (py% "comment", .text comment)]

/-- the compiled csv file -/
def exSmallData : Dict (Dict Cell) :=
  [(py% "GLOBAL:SOFAConventions", exRow (.text (py% "Small")) (.text (py% "rm")) .empty (py% "attribute") (py% "name")),
   (py% "GLOBAL:SOFAConventionsVersion", exRow (.text (py% "1.0")) (.text (py% "rm")) .empty (py% "attribute") (py% "version")),
   (py% "A", exRow (.list [.int 1, .float (.fin (5 / 2)), .int 3]) (.text (py% "m")) (.text (py% "IC")) (py% "double")
     (py% "list")),
   (py% "A:Units", exRow (.text (py% "metre")) (.text (py% "m")) .empty (py% "attribute") []),
   (py% "B", exRow (.num (.int 7)) (.text (py% "m")) (.text (py% "I")) (py% "double") []),
   (py% "Data.X", exRow (.nested [[.int 1, .int 0], [.int 0, .int 1]]) .empty (.text (py% "RCM")) (py% "double")
     (py% "matrix"))]

theorem exSmall_table : ∃ es, Spec.Table exPython exSmall es ∧ ∀ n e, Spec.LastEntry es n e ↔
    Dict.get? exSmallData n = some e := by
  have h : csv2dict exPython exSmall = .ok exSmallData := by decide +kernel
  have hl := readlines_lines (Spec.unixBreaks exSmall)
  rw [show readlines (Spec.unixBreaks exSmall) = exHeader :: (readlines (Spec.unixBreaks exSmall)).tail by decide +kernel] at hl
  obtain ⟨es, h1, h2⟩ := table_of_compiled
    (fields := [py% "Default", py% "Flags", py% "Dimensions", py% "Type", py% "Comment"]) h rfl hl exHeader_means rfl
    (by decide +kernel)
  exact ⟨es, h1, fun n e => (h2 n e).symm⟩

theorem exSmallEnv_names : ∀ f ∈ exSmallEnv.files, ∃ n w, Spec.FileOf f.base n w := by
  have hf : exSmallEnv.files.map ConvFile.base = [py% "Small_1.0.json"] := by decide +kernel
  intro f hm
  have : f.base ∈ exSmallEnv.files.map ConvFile.base := List.mem_map.2 ⟨f, hm, rfl⟩
  rw [hf, List.mem_singleton] at this
  exact ⟨py% "Small", py% "1.0", by rw [this]; rfl, by decide, by decide⟩

theorem exSmall_path (dir' : Str) (h : dir' = [] ∨ dir' = py% "deprecated/")
    (hm : dir' ++ (py% "Small" ++ '_' :: (py% "1.0" ++ py% ".json")) ∈
      (compileConventions exPython exSmallFolder).2.json.map Prod.fst) : dir' = [] := by
  have hk : (compileConventions exPython exSmallFolder).2.json.map Prod.fst = [py% "Small_1.0.json"] := by decide +kernel
  rw [hk] at hm
  rcases h with rfl | rfl
  · rfl
  · exact absurd hm (by decide)

/-- The object of the example is described by the rows of the csv file. -/
example : ∃ es, Spec.Table exPython exSmall es ∧ Spec.Describes es (py% "Small") (py% "1.0") exSmallSofa := by
  obtain ⟨es, h1, h2⟩ := exSmall_table
  refine ⟨es, h1, C77_compiled_partial exPython exEnv exSmallEnv exSmallFolder
    (compileConventions exPython exSmallFolder).2 [] (py% "Small") (py% "1.0") exSmall es .no exSmallSofa ?_ (Or.inl rfl)
    (by decide) (by unfold Spec.Holds; decide +kernel) h1 exSmall_path exSmallEnv_some
    exSmallEnv_names ?_ (by decide +kernel)⟩
  · rw [← show (compileConventions exPython exSmallFolder).1 = .ok () by decide +kernel]
  · intro n e hn hs
    have hk := Dict.mem_of_get? ((h2 n e).1 hn)
    have hall : ∀ k ∈ exSmallData.map Prod.fst,
      Spec.sofarName k ≠ py% "protected" := by decide +kernel
    exact hall n (List.mem_map.2 ⟨_, hk, rfl⟩) hs

/-- `C77_creates` applies to the example. -/
example : ∃ es, Spec.Table exPython exSmall es ∧
    ∃ o, (initSofa exSmallEnv (py% "Small") false (.exact (py% "1.0")) .no).out = .ok o ∧
      Spec.Describes es (py% "Small") (py% "1.0") o := by
  obtain ⟨es, h1, h2⟩ := exSmall_table
  have hall : ∀ p ∈ exSmallData, Spec.sofarName p.1 ≠ py% "protected" ∧ Spec.sofarName p.1 ≠ py% "list_dimensions" ∧
      (Spec.sofarName p.1).head? ≠ some '_' := by decide +kernel
  have hrow : ∀ n e, Spec.LastEntry es n e → (n, e) ∈ exSmallData := fun n e h => Dict.mem_of_get? ((h2 n e).1 h)
  refine ⟨es, h1, C77_creates exPython exEnv exSmallEnv exSmallFolder (compileConventions exPython exSmallFolder).2 []
    (py% "Small") (py% "1.0") exSmall es ?_ (Or.inl rfl) (by decide) ⟨py% "1", py% "0", rfl, by decide, by decide, by decide⟩
    (by unfold Spec.Holds; decide +kernel) h1 ⟨?_, fun n e h => hall _ (hrow n e h)⟩ ?_ exSmall_path exSmallEnv_some
    exSmallEnv_names⟩
  · rw [← show (compileConventions exPython exSmallFolder).1 = .ok () by decide +kernel]
  · intro n e h
    have hm := hrow n e h
    simp only [exSmallData, List.mem_cons, List.not_mem_nil, or_false, Prod.mk.injEq] at hm
    rcases hm with ⟨-, rfl⟩ | ⟨-, rfl⟩ | ⟨-, rfl⟩ | ⟨-, rfl⟩ | ⟨-, rfl⟩ | ⟨-, rfl⟩
    · exact ⟨_, rfl, Or.inl (Or.inl ⟨_, rfl⟩)⟩
    · exact ⟨_, rfl, Or.inl (Or.inl ⟨_, rfl⟩)⟩
    · exact ⟨_, rfl, Or.inr ⟨Or.inl ⟨_, rfl⟩, 2, Or.inr ⟨_, py% "IC", rfl, isFirst_firstAlt _, rfl⟩, by decide⟩⟩
    · exact ⟨_, rfl, Or.inl (Or.inl ⟨_, rfl⟩)⟩
    · exact ⟨_, rfl, Or.inl (Or.inr ⟨_, rfl⟩)⟩
    · exact ⟨_, rfl, Or.inr ⟨Or.inr (Or.inr (Or.inl ⟨_, 2, rfl, by decide⟩)), 3,
        Or.inr ⟨_, py% "RCM", rfl, isFirst_firstAlt _, rfl⟩, by decide⟩⟩
  · refine ⟨exRow (.text (py% "1.0")) (.text (py% "rm")) .empty (py% "attribute") (py% "version"),
      (h2 _ _).2 (by decide +kernel), ?_, rfl⟩
    intro n e h hs
    have hm : n ∈ exSmallData.map Prod.fst := List.mem_map.2 ⟨(n, e), hrow n e h, rfl⟩
    have hone : ∀ k ∈ exSmallData.map Prod.fst, Spec.sofarName k = Spec.sofarName (py% "GLOBAL:SOFAConventionsVersion") →
      k = py% "GLOBAL:SOFAConventionsVersion" := by decide +kernel
    exact hone n hm hs

/-- a server with the convention of the example -/
def exSmallServer : Server :=
  { links := fun dep => .ok (if dep then [] else [some (py% "Small_1.0.csv")])
    file := fun dep c => if !dep && c = py% "Small_1.0.csv" then .ok exSmall else .error (.osError []) }

/-- an empty folder after the update -/
def exSmallUpdated : Folder := (updateConventions exPython exSmallServer ⟨true, true, [], []⟩ true (.ok [])).folder

/-- `C77_updated_partial` applies to an update that adds the convention of the example. -/
example : (updateConventions exPython exSmallServer ⟨true, true, [], []⟩ true (.ok [])).out = .ok () ∧
    exSmallUpdated.csv = [(py% "Small_1.0.csv", exSmall)] ∧
    exSmallUpdated.json = (compileConventions exPython exSmallFolder).2.json := by decide +kernel

/-- a convention with a variable `A.B` and an attribute `A:B` -/
def exClash : Str := exHeader ++ py% "GLOBAL:SOFAConventions\tClash\trm\t\tattribute\tname\nGLOBAL:SOFAConventionsVersion\t1.0\trm\t\tattribute\tversion\nA\t5\tm\tI\tdouble\tnumber\nA.B\t7\tm\tI\tdouble\tnumber\nA:B\ttext\tm\t\tattribute\tattribute of A\n"

/-- the folder with this convention -/
def exClashFolder : Folder := ⟨true, true, [(py% "Clash_1.0.csv", exClash)], []⟩

/-- the files of the compiled folder -/
def exClashEnv : Env := ((folderEnv exEnv (compileConventions exPython exClashFolder).2).getD exEnv)

/-- an object of the compiled convention -/
def exClashSofa : Obj :=
  match (initSofa exClashEnv (py% "Clash") false (.exact (py% "1.0")) .no).out with
  | .ok o => o
  | .error _ => emptyObj []

/-- the compiled csv file -/
def exClashData : Dict (Dict Cell) :=
  match csv2dict exPython exClash with
  | .ok d => d
  | .error _ => []

/-- the row of the variable -/
def exClashRow : Dict Cell := exRow (.num (.int 7)) (.text (py% "m")) (.text (py% "I")) (py% "double") (py% "number")

/-- C77 is false for all rows: of two rows whose names become the same attribute, one is lost without any message. -/
theorem C77_refuted : ∃ (lang : Lang) (env env' : Env) (d d' : Folder) (c v x n : Str) (es : List (Str × Dict Cell))
    (e : Dict Cell) (i : Int) (o : Obj), compileConventions lang d = (.ok (), d') ∧
    Spec.Holds d (c ++ '_' :: v ++ py% ".csv") x ∧ Spec.Table lang x es ∧ folderEnv env d' = some env' ∧
    (initSofa env' c false (.exact v) .no).out = .ok o ∧ (initSofa env' c false (.exact v) .no).ev = [] ∧
    Spec.LastEntry es n e ∧ Dict.get? e (py% "default") = some (.num (.int i)) ∧
    ∀ k, Dict.get? o.attrs k ≠ some (.num .i (.num (.fin i))) := by
  have h : csv2dict exPython exClash = .ok exClashData := by decide +kernel
  have hl := readlines_lines (Spec.unixBreaks exClash)
  rw [show readlines (Spec.unixBreaks exClash) = exHeader :: (readlines (Spec.unixBreaks exClash)).tail by decide +kernel] at hl
  obtain ⟨es, h1, h2⟩ := table_of_compiled
    (fields := [py% "Default", py% "Flags", py% "Dimensions", py% "Type", py% "Comment"]) h rfl hl exHeader_means rfl
    (by decide +kernel)
  have he : folderEnv exEnv (compileConventions exPython exClashFolder).2 = some exClashEnv := by
    have h : (folderEnv exEnv (compileConventions exPython exClashFolder).2).isSome = true := by decide +kernel
    unfold exClashEnv
    cases hf : folderEnv exEnv (compileConventions exPython exClashFolder).2 with
    | none => rw [hf] at h; cases h
    | some e => rfl
  refine ⟨exPython, exEnv, exClashEnv, exClashFolder, (compileConventions exPython exClashFolder).2, py% "Clash", py% "1.0",
    exClash, py% "A.B", es, exClashRow, 7, exClashSofa, ?_, by unfold Spec.Holds; decide +kernel, h1, he, by decide +kernel,
    by decide +kernel, (h2 _ _).1 (by decide +kernel), by decide +kernel, ?_⟩
  · rw [← show (compileConventions exPython exClashFolder).1 = .ok () by decide +kernel]
  · intro k hk
    have hall : ∀ p ∈ exClashSofa.attrs, p.2 ≠ .num .i (.num (.fin 7)) := by decide +kernel
    exact hall _ (Dict.mem_of_get? hk) rfl

end Sofar
