import Verif.Lemmas.Paths
import Verif.Spec.Session
import Verif.Props.Reading
import Verif.Props.Trips
import Verif.Props.RoundTrip
/-!
# C84: sessions with several objects and files
-/
namespace Sofar

instance (x : Str) : DecidablePred (Spec.WritesTo x) := by
  intro st; cases st <;> unfold Spec.WritesTo <;> infer_instance

theorem exec_cons (env : Env) (nc : Nc) (s : Machine) (st : Stmt) (prog : List Stmt) :
    exec env nc s (st :: prog) = exec env nc (execStmt env nc s st) prog := rfl

theorem exec_append (env : Env) (nc : Nc) (s : Machine) (p q : List Stmt) :
    exec env nc s (p ++ q) = exec env nc (exec env nc s p) q := by
  unfold exec
  exact List.foldl_append

theorem assign_fs (s : Machine) (x : Str) (r : Except Exc Obj) : (s.assign x r).fs = s.fs := by
  unfold Machine.assign
  split <;> rfl

theorem modify_fs (s : Machine) (x : Str) (f : Obj → Obj) : (s.modify x f).fs = s.fs := by
  unfold Machine.modify
  split <;> rfl

theorem assign_other (s : Machine) {x y : Str} (h : y ≠ x) (r : Except Exc Obj) :
    Dict.get? (s.assign y r).vars x = Dict.get? s.vars x := by
  unfold Machine.assign
  split
  · exact Dict.get?_put_ne _ _ h.symm
  · rfl

theorem modify_other (s : Machine) {x y : Str} (h : y ≠ x) (f : Obj → Obj) :
    Dict.get? (s.modify y f).vars x = Dict.get? s.vars x := by
  unfold Machine.modify
  split
  · exact Dict.get?_put_ne _ _ h.symm
  · rfl

theorem assign_same (s : Machine) (x : Str) (r : Except Exc Obj) :
    Dict.get? (s.assign x r).vars x = match r with | .ok o => some o | .error _ => Dict.get? s.vars x := by
  unfold Machine.assign
  split <;> simp

theorem modify_same (s : Machine) (x : Str) (f : Obj → Obj) :
    Dict.get? (s.modify x f).vars x = (Dict.get? s.vars x).map f := by
  unfold Machine.modify
  cases h : Dict.get? s.vars x with
  | none => simp [h]
  | some o => simp

theorem writeSofa_obj_fs (env : Env) (nc : Nc) (fs fs' : FS) (filename : Str) (o : Obj) (c : Nat) :
    (writeSofa env nc fs filename o c).obj = (writeSofa env nc fs' filename o c).obj := by
  unfold writeSofa writeSofaG
  split
  · rfl
  · simp only [if_true]
    split
    · rfl
    · split <;> rfl

theorem execStmt_other (env : Env) (nc : Nc) (s : Machine) {x : Str} {st : Stmt} (h : ¬ Spec.Concerns x st) :
    Dict.get? (execStmt env nc s st).vars x = Dict.get? s.vars x := by
  cases st with
  | create y c m v a => exact assign_other s h _
  | read y fn a vb => exact assign_other s h _
  | readNetcdf y fn => exact assign_other s h _
  | copy y z =>
    simp only [execStmt]
    split
    · exact Dict.get?_put_ne _ _ (Ne.symm h)
    · rfl
  | call y op => exact modify_other s h _
  | upgrade y t a => exact modify_other s h _
  | write fn y c =>
    simp only [execStmt]
    split
    · exact Dict.get?_put_ne _ _ (Ne.symm h)
    · rfl

theorem execStmt_file (env : Env) (nc : Nc) (s : Machine) {path : Str} {st : Stmt} (h : ¬ Spec.WritesTo path st) :
    Dict.get? (execStmt env nc s st).fs.files path = Dict.get? s.fs.files path := by
  cases st with
  | create y c m v a => simp only [execStmt, assign_fs]
  | read y fn a vb => simp only [execStmt, assign_fs]
  | readNetcdf y fn => simp only [execStmt, assign_fs]
  | copy y z => simp only [execStmt]; split <;> rfl
  | call y op => simp only [execStmt, modify_fs]
  | upgrade y t a => simp only [execStmt, modify_fs]
  | write fn y c =>
    simp only [execStmt]
    split
    · rename_i o ho
      rcases C34_what_changes env nc s.fs fn o c with hw | ⟨p, f, r, h1, _, _, _, h5⟩
      · simp only [hw]
      · refine h5 path ?_
        rintro rfl
        exact h h1
    · rfl

/-- two objects and a disk -/
def exMachine : Machine := ⟨[(py% "x", exCustomized), (py% "y", exUmlaut)], exDisk⟩

/-- work before an object is written: the object is copied and the copy is written, changed and verified -/
def exBefore : List Stmt :=
  [.copy (py% "z") (py% "x"), .write (py% "b") (py% "z") 0, .call (py% "z") (.delete (py% "Foo")),
    .read (py% "u") (py% "b") .auto true, .call (py% "x") (.verify .raise .write)]

/-- work after an object was written: it is changed, replaced by another one and written to another file -/
def exAfter : List Stmt :=
  [.call (py% "x") (.set (py% "GLOBAL_Title") (.val (.str (py% "new")))), .write (py% "b") (py% "x") 9,
    .create (py% "x") (py% "FIR") true .latest .auto, .readNetcdf (py% "v") (py% "a.sofa"),
    .upgrade (py% "z") none .auto]

/-- C84: whatever a program does with its other variables and with files, an object is changed by nothing but statements
about its own variable. -/
theorem C84_objects (env : Env) (nc : Nc) (s : Machine) (prog : List Stmt) (x : Str)
    (h : ∀ st ∈ prog, ¬ Spec.Concerns x st) :
    Dict.get? (exec env nc s prog).vars x = Dict.get? s.vars x := by
  induction prog generalizing s with
  | nil => rfl
  | cons st prog ih =>
    rw [exec_cons, ih _ (fun t ht => h t (List.mem_cons_of_mem _ ht)), execStmt_other env nc s (h st List.mem_cons_self)]

example : (∀ st ∈ exBefore ++ exAfter, ¬ Spec.Concerns (py% "y") st) ∧
    (Dict.get? (exec exEnv exNc exMachine (exBefore ++ exAfter)).vars (py% "y")).map Obj.attrs = some exUmlaut.attrs ∧
    (Dict.get? (exec exEnv exNc exMachine (exBefore ++ exAfter)).vars (py% "x")).map Obj.attrs ≠ some exCustomized.attrs := by
  refine ⟨by decide +kernel, ?_, by decide +kernel⟩
  rw [C84_objects _ _ _ _ _ (by decide +kernel)]
  decide +kernel

/-- C84: a file is changed by nothing but writing to it. -/
theorem C84_files (env : Env) (nc : Nc) (s : Machine) (prog : List Stmt) (path : Str)
    (h : ∀ st ∈ prog, ¬ Spec.WritesTo path st) :
    Dict.get? (exec env nc s prog).fs.files path = Dict.get? s.fs.files path := by
  induction prog generalizing s with
  | nil => rfl
  | cons st prog ih =>
    rw [exec_cons, ih _ (fun t ht => h t (List.mem_cons_of_mem _ ht)), execStmt_file env nc s (h st List.mem_cons_self)]

example : (∀ st ∈ exBefore ++ exAfter, ¬ Spec.WritesTo (py% "a.sofa") st) ∧
    Dict.get? (exec exEnv exNc exMachine (exBefore ++ exAfter)).fs.files (py% "a.sofa") = some (.other 7) ∧
    Dict.get? (exec exEnv exNc exMachine (exBefore ++ exAfter)).fs.files (py% "b.sofa") ≠ some (.other 8) := by
  refine ⟨by decide +kernel, ?_, by decide +kernel⟩
  rw [C84_files _ _ _ _ _ (by decide +kernel)]
  decide +kernel

/-- C84: writing an object, to any files and as often as one likes, and verifying it never change its data. -/
theorem C84_writing_keeps (env : Env) (nc : Nc) (s : Machine) (prog : List Stmt) (x : Str)
    (h : ∀ st ∈ prog, Spec.Concerns x st → Spec.OnlyWrites st) :
    (Dict.get? (exec env nc s prog).vars x).map Obj.attrs = (Dict.get? s.vars x).map Obj.attrs := by
  induction prog generalizing s with
  | nil => rfl
  | cons st prog ih =>
    rw [exec_cons, ih _ (fun t ht => h t (List.mem_cons_of_mem _ ht))]
    have h1 := h st List.mem_cons_self
    by_cases hc : Spec.Concerns x st
    · replace h1 := h1 hc
      unfold Spec.OnlyWrites at h1
      split at h1
      · rename_i fn y c
        cases hc
        simp only [execStmt]
        cases ho : Dict.get? s.vars x with
        | none => simp [ho]
        | some o => simp [C34_object_kept]
      · rename_i y m
        cases hc
        simp only [execStmt, modify_same, Option.map_map]
        congr 1
        funext o
        exact C21_raise_adds_nothing env o m
      · exact h1.elim
    · rw [execStmt_other env nc s hc]

example : (∀ st ∈ exBefore, Spec.Concerns (py% "x") st → Spec.OnlyWrites st) ∧
    (∃ st ∈ exBefore, Spec.Concerns (py% "x") st) := by decide +kernel

/-- C84: what becomes of an object does not depend on the rest of the program: all statements about other variables can
be left out, and the program can be run on another disk and with other objects, provided that the object does not take
its value from files or other objects. -/
theorem C84_alone (env : Env) (nc : Nc) (s s' : Machine) (prog : List Stmt) (x : Str)
    (hs : Dict.get? s'.vars x = Dict.get? s.vars x)
    (h : ∀ st ∈ prog, Spec.Concerns x st → Spec.SelfContained st) :
    Dict.get? (exec env nc s' (prog.filter (fun st => decide (Spec.Concerns x st)))).vars x =
      Dict.get? (exec env nc s prog).vars x := by
  induction prog generalizing s s' with
  | nil => exact hs
  | cons st prog ih =>
    have h' : ∀ t ∈ prog, Spec.Concerns x t → Spec.SelfContained t := fun t ht => h t (List.mem_cons_of_mem _ ht)
    by_cases hc : Spec.Concerns x st
    · rw [List.filter_cons_of_pos (by simpa using hc), exec_cons, exec_cons]
      refine ih _ _ ?_ h'
      have h1 := h st List.mem_cons_self hc
      cases st with
      | create y c m v a =>
        cases hc
        simp only [execStmt, assign_same, hs]
      | read y fn a vb => exact h1.elim
      | readNetcdf y fn => exact h1.elim
      | copy y z => exact h1.elim
      | call y op =>
        cases hc
        simp only [execStmt, modify_same, hs]
      | upgrade y t a =>
        cases hc
        simp only [execStmt, modify_same, hs]
      | write fn y c =>
        cases hc
        simp only [execStmt, hs]
        cases ho : Dict.get? s.vars x with
        | none => simp [hs, ho]
        | some o => simp [writeSofa_obj_fs env nc s'.fs s.fs]
    · rw [List.filter_cons_of_neg (by simpa using hc), exec_cons]
      exact ih _ _ (by rw [execStmt_other env nc s hc]; exact hs) h'

example : (∀ st ∈ exBefore ++ exAfter, Spec.Concerns (py% "x") st → Spec.SelfContained st) ∧
    (exBefore ++ exAfter).length = 10 ∧
    ((exBefore ++ exAfter).filter (fun st => decide (Spec.Concerns (py% "x") st))).length = 4 := by decide +kernel

theorem openFile_same {fs fs' : FS} {filename path : Str} (hp : withSuffix filename = .ok path)
    (h : Dict.get? fs'.files path = Dict.get? fs.files path) : openFile fs' filename = openFile fs filename := by
  unfold openFile
  simp only [hp, h]

theorem write_anywhere {env : Env} {nc : Nc} {fs : FS} {filename path : Str} {o : Obj} {c : Nat}
    (hw : (writeSofa env nc fs filename o c).out = .ok ()) (hp : withSuffix filename = .ok path) (fs' : FS)
    (hc : fs'.canWrite path = true) :
    (writeSofa env nc fs' filename o c).out = .ok () ∧
    Dict.get? (writeSofa env nc fs' filename o c).fs.files path = Dict.get? (writeSofa env nc fs filename o c).fs.files path := by
  unfold writeSofa writeSofaG at hw ⊢
  simp only [hp, if_true] at hw ⊢
  cases hl : (checkLatest env o).1 with
  | error x => simp [hl] at hw
  | ok u =>
    simp only [hl] at hw ⊢
    cases hv : (verify env o .raise .write).out with
    | error x => simp [hv] at hw
    | ok r =>
      simp only [hv] at hw ⊢
      unfold writeDisk at hw ⊢
      cases hf : fs.canWrite path with
      | false => simp [hf] at hw
      | true =>
        simp only [hf, hc, Bool.not_true, Bool.false_eq_true, if_false] at hw ⊢
        exact ⟨hw, by simp⟩

/-- C84, for calls that did not fail: a file holds what was written to it last. The program may do anything before;
after writing the object it may do anything but write to the same file, e.g., it may change or write the object again. The
result is the same as if the object, in the state it had when it was written, had been written to any other disk. -/
theorem C84_last_write_partial (env : Env) (nc : Nc) (s : Machine) (before after : List Stmt) (filename path x : Str)
    (compression : Nat) (o : Obj) (ho : Dict.get? (exec env nc s before).vars x = some o)
    (hw : (writeSofa env nc (exec env nc s before).fs filename o compression).out = .ok ())
    (hp : Spec.FileFor filename path) (hafter : ∀ st ∈ after, ¬ Spec.WritesTo path st)
    (fs : FS) (hc : fs.canWrite path = true) :
    let last := (exec env nc s (before ++ .write filename x compression :: after)).fs
    let direct := (writeSofa env nc fs filename o compression).fs
    Dict.get? last.files path = Dict.get? direct.files path ∧
    (∀ arg verbose, readSofa env nc last filename arg verbose = readSofa env nc direct filename arg verbose) ∧
    readAsNetcdf nc last filename = readAsNetcdf nc direct filename ∧
    openStream last path = openStream direct path := by
  simp only [← withSuffix_iff] at *
  have key : Dict.get? (exec env nc s (before ++ .write filename x compression :: after)).fs.files path =
      Dict.get? (writeSofa env nc fs filename o compression).fs.files path := by
    rw [exec_append, exec_cons, C84_files env nc _ after path hafter, (write_anywhere hw hp fs hc).2]
    simp only [execStmt, ho]
  refine ⟨key, fun arg verbose => ?_, ?_, ?_⟩
  · unfold readSofa
    rw [openFile_same hp key]
  · unfold readAsNetcdf
    rw [openFile_same hp key]
  · unfold openStream
    rw [key]

/-- the object that is in the variable after the first part of the program -/
def exBeforeObj : Obj := (Dict.get? (exec exEnv exNc exMachine exBefore).vars (py% "x")).getD exSofa

example : Dict.get? (exec exEnv exNc exMachine exBefore).vars (py% "x") = some exBeforeObj ∧
    (writeSofa exEnv exNc (exec exEnv exNc exMachine exBefore).fs (py% "a") exBeforeObj 4).out = .ok () ∧
    withSuffix (py% "a") = .ok (py% "a.sofa") ∧ (∀ st ∈ exAfter, ¬ Spec.WritesTo (py% "a.sofa") st) ∧
    exDisk.canWrite (py% "a.sofa") = true := by decide +kernel

/-- C84 is false: the file is lost if a later statement fails to write an object with text that is not ASCII to it. -/
theorem C84_refuted : ∃ (env : Env) (nc : Nc) (s : Machine) (filename x y : Str) (o o' : Obj) (e : Exc),
    Dict.get? s.vars x = some o ∧ (writeSofa env nc s.fs filename o 4).out = .ok () ∧
    Dict.get? (exec env nc s [.write filename x 4]).vars y = some o' ∧
    (writeSofa env nc (exec env nc s [.write filename x 4]).fs filename o' 4).out = .error e ∧
    (readSofa env nc (exec env nc s [.write filename x 4]).fs filename .auto true).out.toOption.isSome = true ∧
    (readSofa env nc (exec env nc s [.write filename x 4, .write filename y 4]).fs filename .auto true).out.toOption.isSome =
      false :=
  ⟨exEnv, exNc, exMachine, py% "a", py% "x", py% "y", exCustomized, exUmlaut, .unicodeError, by decide +kernel,
    by decide +kernel, by decide +kernel, by decide +kernel, by decide +kernel, by decide +kernel⟩

/-- C84, for data that can be stored without loss: at the end of the program the file can be read, and gives an object
equal to the one that was written, in the state it had at that time. -/
theorem C84_read_back_partial (env : Env) (nc : Nc) (s : Machine) (before after : List Stmt) (filename path x : Str)
    (compression : Nat) (o : Obj) (c v : Str) (ho : Dict.get? (exec env nc s before).vars x = some o)
    (hw : (writeSofa env nc (exec env nc s before).fs filename o compression).out = .ok ())
    (hp : Spec.FileFor filename path) (hafter : ∀ st ∈ after, ¬ Spec.WritesTo path st)
    (hport : Spec.Portable env nc (writeSofa env nc (exec env nc s before).fs filename o compression).obj)
    (hn : (o.attrs.map Prod.fst).Nodup)
    (hcn : Spec.HasText o (py% "GLOBAL_SOFAConventions") c) (hv : Spec.HasText o (py% "GLOBAL_SOFAConventionsVersion") v)
    (hsup : Spec.Supported env c v) (arg : VerifyArg) (verbose : Bool) :
    ∃ o2, (readSofa env nc (exec env nc s (before ++ .write filename x compression :: after)).fs filename arg verbose).out
        = .ok o2 ∧
      (∀ mode, (verify env o2 .raise mode).out = .ok none) ∧
      ∀ verbose', (equals (writeSofa env nc (exec env nc s before).fs filename o compression).obj o2 verbose' none).out =
        .ok true := by
  simp only [← withSuffix_iff] at *
  have hcan : (exec env nc s before).fs.canWrite path = true := by
    obtain ⟨_, _, _, _, _, _, hW, _⟩ := writeSofa_ok hw
    refine Classical.byContradiction fun hcan => ?_
    unfold writeSofa writeSofaG at hw
    simp only [hp, if_true] at hw
    split at hw
    · simp at hw
    · split at hw
      · simp at hw
      · unfold writeDisk at hw
        simp [hcan] at hw
  have hl := C84_last_write_partial env nc s before after filename path x compression o ho hw (withSuffix_iff.1 hp) hafter _ hcan
  simp only at hl
  obtain ⟨o2, h1, h2⟩ := C73_readable_partial env nc _ filename o compression c v hw hport hcn hv hsup arg verbose
  obtain ⟨new, hnew, hd⟩ := hsup.create arg
  refine ⟨o2, by rw [hl.2.1]; exact h1, h2, fun verbose' => ?_⟩
  exact C32_equal_partial env nc _ filename o compression c v arg verbose verbose' new o2 hw hport.storable hn hcn hv hnew
    hd h1

/-- all hypotheses are met by an object with custom data -/
example : ∃ o2, (readSofa exEnv exNc (exec exEnv exNc ⟨exMachine.vars, exDisk⟩ ([] ++ .write (py% "a") (py% "x") 4 :: exAfter)).fs
    (py% "a") .yes true).out = .ok o2 ∧ (∀ mode, (verify exEnv o2 .raise mode).out = .ok none) ∧
    ∀ verbose', (equals (writeSofa exEnv exNc exDisk (py% "a") exCustomized 4).obj o2 verbose' none).out = .ok true :=
  C84_read_back_partial exEnv exNc ⟨exMachine.vars, exDisk⟩ [] exAfter (py% "a") (py% "a.sofa") (py% "x") 4 exCustomized
    (py% "FIR") (py% "1.0") (by decide +kernel) (by decide +kernel) (by decide +kernel) (by decide +kernel)
    exCustomized_portable (by decide +kernel) ⟨.str (py% "FIR"), by decide +kernel, rfl⟩
    ⟨.str (py% "1.0"), by decide +kernel, rfl⟩ exSupported .yes true

end Sofar
