import Verif.Spec.StreamLife
import Verif.Props.StreamText
import Verif.Props.Files
import Verif.Props.Rules
/-!
# C82: streams inside and outside of `with` statements
-/
namespace Sofar

/-- the state that the history of a stream leads to -/
inductive LifeState (filename : Str) (ops : List StreamOp) (s : Stream) : Prop
  | never (h : Spec.Never filename ops) (hs : s = ⟨filename, .missing⟩)
  | inside (f : NcFile) (h : Spec.Inside filename f ops) (hs : s = ⟨filename, .opened f⟩)
  | left (f : NcFile) (h : Spec.Left filename f ops) (hs : s = ⟨filename, .closed f⟩)

theorem streamFile_missing (name : Str) (limit : Nat) : streamFile ⟨name, .missing⟩ limit = .error .recursionError := by
  induction limit with
  | zero => rfl
  | succ n ih => exact ih

theorem streamFile_exists {s : Stream} {limit : Nat} (hl : 0 < limit) (hs : s.file ≠ .missing) :
    streamFile s limit = .ok s.file := by
  cases limit with
  | zero => cases hl
  | succ n =>
    unfold streamFile
    cases h : s.file with
    | missing => exact absurd h hs
    | opened f => rfl
    | closed f => rfl

theorem opensNone_iff (filename : Str) (fs : FS) :
    Spec.OpensNone filename (.enter fs) ↔ ∃ e, openStream fs filename = .error e := by
  unfold Spec.OpensNone openStream
  simp only [Spec.Opens]
  cases h : Dict.get? fs.files filename with
  | none => simp
  | some d =>
    cases d with
    | other c => simp
    | nc f => simp

theorem opens_iff (filename : Str) (fs : FS) (f : NcFile) :
    Spec.Opens filename f (.enter fs) ↔ openStream fs filename = .ok f := by
  unfold openStream
  simp only [Spec.Opens]
  cases h : Dict.get? fs.files filename with
  | none => simp
  | some d =>
    cases d with
    | other c => simp
    | nc g => simp

theorem LifeState.step {filename : Str} {ops : List StreamOp} {s : Stream} (h : LifeState filename ops s) {limit : Nat}
    (hl : 0 < limit) (op : StreamOp) : LifeState filename (ops ++ [op]) (streamStep limit s op) := by
  have hname : s.filename = filename := by cases h <;> (rename_i hs; rw [hs])
  cases op with
  | enter fs =>
    simp only [streamStep, streamEnter, hname]
    cases ho : openStream fs filename with
    | ok f =>
      refine .inside f ⟨ops, .enter fs, [], rfl, (opens_iff _ _ _).2 ho, by simp⟩ ?_
      simp [← hname]
    | error e =>
      have hn : Spec.OpensNone filename (.enter fs) := (opensNone_iff _ _).2 ⟨e, ho⟩
      cases h with
      | never h hs =>
        refine .never ?_ hs
        intro x hx
        rcases List.mem_append.1 hx with hx | hx
        · exact h x hx
        · rw [List.mem_singleton] at hx; subst hx; exact hn
      | inside f h hs =>
        refine .inside f ?_ hs
        obtain ⟨before, x, after, rfl, h1, h2⟩ := h
        refine ⟨before, x, after ++ [.enter fs], by simp, h1, ?_⟩
        intro y hy
        rcases List.mem_append.1 hy with hy | hy
        · exact h2 y hy
        · rw [List.mem_singleton] at hy; subst hy; exact ⟨hn, by simp⟩
      | left f h hs =>
        refine .left f ?_ hs
        obtain ⟨before, after, rfl, h1, h2⟩ := h
        refine ⟨before, after ++ [.enter fs], by simp, h1, ?_⟩
        intro y hy
        rcases List.mem_append.1 hy with hy | hy
        · exact h2 y hy
        · rw [List.mem_singleton] at hy; subst hy; exact hn
  | exit =>
    have hn : Spec.OpensNone filename .exit := fun f h => h
    simp only [streamStep, streamExit]
    cases h with
    | never h hs =>
      subst hs
      rw [streamFile_missing]
      refine .never ?_ rfl
      intro x hx
      rcases List.mem_append.1 hx with hx | hx
      · exact h x hx
      · rw [List.mem_singleton] at hx; subst hx; exact hn
    | inside f h hs =>
      subst hs
      rw [streamFile_exists hl (by simp)]
      exact .left f ⟨ops, [], rfl, h, by simp⟩ rfl
    | left f h hs =>
      subst hs
      rw [streamFile_exists hl (by simp)]
      refine .left f ?_ rfl
      obtain ⟨before, after, rfl, h1, h2⟩ := h
      refine ⟨before, after ++ [.exit], by simp, h1, ?_⟩
      intro y hy
      rcases List.mem_append.1 hy with hy | hy
      · exact h2 y hy
      · rw [List.mem_singleton] at hy; subst hy; exact hn

theorem lifeState (filename : Str) (limit : Nat) (hl : 0 < limit) (ops : List StreamOp) :
    LifeState filename ops (streamRun limit (newStream filename) ops) := by
  have key : ∀ l done, LifeState filename done (streamRun limit (newStream filename) done) →
      LifeState filename (done ++ l) (streamRun limit (newStream filename) (done ++ l)) := by
    intro l
    induction l with
    | nil => intro done h; simpa using h
    | cons op l ih =>
      intro done h
      have h1 := h.step hl op
      have h2 : streamStep limit (streamRun limit (newStream filename) done) op =
          streamRun limit (newStream filename) (done ++ [op]) := by
        unfold streamRun
        rw [List.foldl_append]; rfl
      rw [h2] at h1
      have h3 := ih (done ++ [op]) h1
      simpa using h3
  have h0 : LifeState filename [] (streamRun limit (newStream filename) []) := .never (by intro op h; cases h) rfl
  simpa using key ops [] h0

theorem streamStep_none {limit : Nat} {s : Stream} {op : StreamOp} (h : Spec.OpensNone s.filename op) (he : op ≠ .exit) :
    streamStep limit s op = s := by
  cases op with
  | exit => exact absurd rfl he
  | enter fs =>
    obtain ⟨e, ho⟩ := (opensNone_iff _ _).1 h
    simp only [streamStep, streamEnter, ho]

theorem streamStep_name (limit : Nat) (s : Stream) (op : StreamOp) : (streamStep limit s op).filename = s.filename := by
  cases op with
  | enter fs =>
    simp only [streamStep, streamEnter]
    split <;> rfl
  | exit =>
    simp only [streamStep, streamExit]
    split <;> rfl

theorem streamRun_name (limit : Nat) (s : Stream) (ops : List StreamOp) : (streamRun limit s ops).filename = s.filename := by
  induction ops generalizing s with
  | nil => rfl
  | cons op l ih => exact (ih _).trans (streamStep_name limit s op)

theorem streamRun_append (limit : Nat) (s : Stream) (a b : List StreamOp) :
    streamRun limit s (a ++ b) = streamRun limit (streamRun limit s a) b := by
  unfold streamRun
  rw [List.foldl_append]

/-- while nothing is opened or left, the stream stays as it is -/
theorem streamRun_none {limit : Nat} {s : Stream} {l : List StreamOp}
    (h : ∀ x ∈ l, Spec.OpensNone s.filename x ∧ x ≠ .exit) : streamRun limit s l = s := by
  induction l with
  | nil => rfl
  | cons op l ih =>
    have h1 := h op List.mem_cons_self
    unfold streamRun at ih ⊢
    rw [List.foldl_cons, streamStep_none h1.1 h1.2]
    exact ih fun x hx => h x (List.mem_cons_of_mem _ hx)

theorem streamRun_inside {limit : Nat} {filename : Str} {f : NcFile} {ops : List StreamOp}
    (h : Spec.Inside filename f ops) : streamRun limit (newStream filename) ops = ⟨filename, .opened f⟩ := by
  obtain ⟨before, op, after, rfl, h1, h2⟩ := h
  cases op with
  | exit => cases h1
  | enter fs =>
    rw [streamRun_append]
    have hn : (streamRun limit (newStream filename) before).filename = filename := streamRun_name _ _ _
    have h3 : streamStep limit (streamRun limit (newStream filename) before) (.enter fs) = ⟨filename, .opened f⟩ := by
      simp only [streamStep, streamEnter, hn, (opens_iff _ _ _).1 h1]
    change streamRun limit (streamStep limit (streamRun limit (newStream filename) before) (.enter fs)) after = _
    rw [h3]
    exact streamRun_none h2

theorem streamRun_closed {limit : Nat} {filename : Str} {f : NcFile} {l : List StreamOp}
    (h : ∀ x ∈ l, Spec.OpensNone filename x) : streamRun limit ⟨filename, .closed f⟩ l = ⟨filename, .closed f⟩ := by
  induction l with
  | nil => rfl
  | cons op l ih =>
    have h1 : streamStep limit ⟨filename, .closed f⟩ op = ⟨filename, .closed f⟩ := by
      cases op with
      | enter fs => exact streamStep_none (h _ List.mem_cons_self) (by simp)
      | exit =>
        simp only [streamStep, streamExit]
        cases limit <;> rfl
    unfold streamRun at ih ⊢
    rw [List.foldl_cons, h1]
    exact ih fun x hx => h x (List.mem_cons_of_mem _ hx)

theorem streamRun_left {limit : Nat} (hl : 0 < limit) {filename : Str} {f : NcFile} {ops : List StreamOp}
    (h : Spec.Left filename f ops) : streamRun limit (newStream filename) ops = ⟨filename, .closed f⟩ := by
  obtain ⟨before, after, rfl, h1, h2⟩ := h
  rw [streamRun_append, streamRun_inside h1]
  have h3 : streamStep limit ⟨filename, .opened f⟩ .exit = ⟨filename, .closed f⟩ := by
    simp only [streamStep, streamExit]
    rw [streamFile_exists hl (by simp)]
  change streamRun limit (streamStep limit ⟨filename, .opened f⟩ .exit) after = _
  rw [h3]
  exact streamRun_closed h2

theorem streamRun_never {limit : Nat} {filename : Str} {ops : List StreamOp} (h : Spec.Never filename ops) :
    streamRun limit (newStream filename) ops = ⟨filename, .missing⟩ := by
  induction ops with
  | nil => rfl
  | cons op l ih =>
    have h1 : streamStep limit (newStream filename) op = newStream filename := by
      cases op with
      | enter fs => exact streamStep_none (h _ List.mem_cons_self) (by simp)
      | exit =>
        simp only [streamStep, streamExit, newStream, streamFile_missing]
    unfold streamRun at ih ⊢
    rw [List.foldl_cons, h1]
    exact ih fun x hx => h x (List.mem_cons_of_mem _ hx)

/-! ## C82 -/

/-- C82: every history of a stream, with any number of `with` statements, nested or not, some of which may fail, leads to one of
three situations. -/
theorem C82_situations (filename : Str) (ops : List StreamOp) :
    Spec.Never filename ops ∨ (∃ f, Spec.Inside filename f ops) ∨ ∃ f, Spec.Left filename f ops := by
  cases lifeState filename 1 (by decide) ops with
  | never h _ => exact Or.inl h
  | inside f h _ => exact Or.inr (Or.inl ⟨f, h⟩)
  | left f h _ => exact Or.inr (Or.inr ⟨f, h⟩)

/-- C82: inside of a `with` statement, the stream gives the content of the file that was on the disk when the statement was
entered, whatever happened to the stream before. -/
theorem C82_inside (env : Env) (nc : Nc) (limit : Nat) (hl : 0 < limit) (filename : Str) (f : NcFile) (ops : List StreamOp)
    (h : Spec.Inside filename f ops) :
    (∀ name, streamAccess nc limit (streamRun limit (newStream filename) ops) name = streamGet nc f name) ∧
    (∀ d, streamSize limit (streamRun limit (newStream filename) ops) d = streamDimension f d) ∧
    streamShow env nc limit (streamRun limit (newStream filename) ops) = streamInspect env nc f ∧
    ∀ t, streamListDimensions f = .ok t →
      streamList nc limit (streamRun limit (newStream filename) ops) = .ok (.printed t) := by
  have hf : streamFile (streamRun limit (newStream filename) ops) limit = .ok (.opened f) := by
    rw [streamRun_inside h, streamFile_exists hl (by simp)]
  refine ⟨fun name => ?_, fun d => ?_, ?_, fun t ht => ?_⟩
  · unfold streamAccess; rw [hf]
  · unfold streamSize; rw [hf]
  · unfold streamShow; rw [hf]
  · unfold streamList; rw [hf]; simp only [ht]

/-- C82: after leaving the `with` statement, every access raises RuntimeError. Only for unknown dimensions it is the
ValueError that is also raised inside of the statement. -/
theorem C82_left (env : Env) (nc : Nc) (limit : Nat) (hl : 0 < limit) (filename : Str) (f : NcFile) (ops : List StreamOp)
    (h : Spec.Left filename f ops) :
    (∀ name, ∃ m, streamAccess nc limit (streamRun limit (newStream filename) ops) name = .error (.runtimeError m)) ∧
    (∀ d, d ∈ f.dims.map Prod.fst →
      ∃ m, streamSize limit (streamRun limit (newStream filename) ops) d = .error (.runtimeError m)) ∧
    (∀ d, d ∉ f.dims.map Prod.fst →
      ∃ m, streamSize limit (streamRun limit (newStream filename) ops) d = .error (.valueError m)) ∧
    (∃ m, streamShow env nc limit (streamRun limit (newStream filename) ops) = .error (.runtimeError m)) ∧
    ∃ m, streamList nc limit (streamRun limit (newStream filename) ops) = .error (.runtimeError m) := by
  have hf : streamFile (streamRun limit (newStream filename) ops) limit = .ok (.closed f) := by
    rw [streamRun_left hl h, streamFile_exists hl (by simp)]
  refine ⟨fun name => ⟨py% "NetCDF: Not a valid ID", ?_⟩, fun d hd => ⟨py% "NetCDF: Not a valid ID", ?_⟩, fun d hd => ?_,
    ⟨py% "NetCDF: Not a valid ID", ?_⟩, ⟨py% "NetCDF: Not a valid ID", ?_⟩⟩
  · unfold streamAccess; rw [hf]; rfl
  · unfold streamSize; rw [hf]
    obtain ⟨n, hn⟩ := (Dict.has_iff _ _).1 ((Dict.has_iff_mem _ _).2 hd)
    simp only [streamDimension, hn]
    rfl
  · have hn : Dict.get? f.dims d = none := (Dict.get?_eq_none_iff _ _).2 hd
    refine ⟨d ++ py% " is not a valid dimension.", ?_⟩
    unfold streamSize; rw [hf]
    simp only [streamDimension, hn]
  · unfold streamShow; rw [hf]; rfl
  · unfold streamList; rw [hf]; rfl

/-- C82: data can only be accessed inside of a `with` statement. Missing: outside, the exception is not always a helpful one, see
`C82_refuted_before`, and not all places inside of a `with` statement are fine, see `C82_refuted_nested`. -/
theorem C82_exact_partial (nc : Nc) (limit : Nat) (filename : Str) (ops : List StreamOp) (name : Str) (g : Got)
    (h : streamAccess nc limit (streamRun limit (newStream filename) ops) name = .ok g) :
    ∃ f, Spec.Inside filename f ops ∧ streamGet nc f name = .ok g := by
  have hl : 0 < limit := by
    cases limit with
    | zero => cases h
    | succ n => omega
  rcases C82_situations filename ops with h1 | ⟨f, h1⟩ | ⟨f, h1⟩
  · unfold streamAccess at h
    rw [streamRun_never h1, streamFile_missing] at h
    cases h
  · refine ⟨f, h1, ?_⟩
    unfold streamAccess at h
    rw [streamRun_inside h1, streamFile_exists hl (by simp)] at h
    exact h
  · unfold streamAccess at h
    rw [streamRun_left hl h1, streamFile_exists hl (by simp)] at h
    cases h

/-- C82 is false before the first `with` statement, and after one for a file that could not be opened: the lookup of the missing
file calls itself, and every access ends with RecursionError, however large the limit is. This includes `hasattr`, which only
expects AttributeError. -/
theorem C82_refuted_before (env : Env) (nc : Nc) (limit : Nat) (filename : Str) (ops : List StreamOp)
    (h : Spec.Never filename ops) :
    (∀ name, streamAccess nc limit (streamRun limit (newStream filename) ops) name = .error .recursionError) ∧
    (∀ d, streamSize limit (streamRun limit (newStream filename) ops) d = .error .recursionError) ∧
    streamShow env nc limit (streamRun limit (newStream filename) ops) = .error .recursionError ∧
    streamList nc limit (streamRun limit (newStream filename) ops) = .error .recursionError := by
  have hf : streamFile (streamRun limit (newStream filename) ops) limit = .error .recursionError := by
    rw [streamRun_never h, streamFile_missing]
  refine ⟨fun name => ?_, fun d => ?_, ?_, ?_⟩
  · unfold streamAccess; rw [hf]
  · unfold streamSize; rw [hf]
  · unfold streamShow; rw [hf]
  · unfold streamList; rw [hf]

/-- C82 is false for nested `with` statements of the same stream: after the inner one, nothing can be accessed in the rest of the
outer one. -/
theorem C82_refuted_nested (nc : Nc) (limit : Nat) (hl : 0 < limit) (filename : Str) (f : NcFile) (fs : FS)
    (h : Dict.get? fs.files filename = some (.nc f)) (name : Str) :
    ∃ m, streamAccess nc limit (streamRun limit (newStream filename) [.enter fs, .enter fs, .exit]) name =
      .error (.runtimeError m) := by
  have h1 : Spec.Left filename f [.enter fs, .enter fs, .exit] :=
    ⟨[.enter fs, .enter fs], [], rfl, ⟨[.enter fs], .enter fs, [], rfl, h, by simp⟩, by simp⟩
  have h2 := streamRun_left hl h1
  refine ⟨py% "NetCDF: Not a valid ID", ?_⟩
  unfold streamAccess
  rw [h2, streamFile_exists hl (by simp)]
  rfl

/-- a stream that is used twice, while the file is written in between -/
def exLife : List StreamOp := [.enter exDisk, .enter (exWritten exSofa), .exit, .enter (exWritten exCustom)]

/-- The first statement fails because the file is not a netCDF file, the second one gives the first object, the last one the
second object. -/
example : Spec.Never (py% "a.sofa") (exLife.take 1) ∧ Spec.Inside (py% "a.sofa") exFile (exLife.take 2) ∧
    Spec.Left (py% "a.sofa") exFile (exLife.take 3) ∧ (∃ f, Spec.Inside (py% "a.sofa") f exLife) ∧
    streamSize 10 (streamRun 10 (newStream (py% "a.sofa")) (exLife.take 2)) (py% "N") = .ok 3 ∧
    (streamAccess exNc 10 (streamRun 10 (newStream (py% "a.sofa")) (exLife.take 2)) (py% "Temperature")).isOk = false ∧
    (streamAccess exNc 10 (streamRun 10 (newStream (py% "a.sofa")) exLife) (py% "Temperature")).isOk = true := by
  have h1 : Dict.get? (exWritten exSofa).files (py% "a.sofa") = some (.nc exFile) := by decide +kernel
  have h2 : ∃ f, Dict.get? (exWritten exCustom).files (py% "a.sofa") = some (.nc f) := by
    cases h : Dict.get? (exWritten exCustom).files (py% "a.sofa") with
    | none =>
      have : (Dict.get? (exWritten exCustom).files (py% "a.sofa")).isSome = true := by decide +kernel
      rw [h] at this; cases this
    | some d =>
      cases d with
      | nc f => exact ⟨f, rfl⟩
      | other c =>
        have : (match Dict.get? (exWritten exCustom).files (py% "a.sofa") with
          | some (.other _) => true | _ => false) = false := by decide +kernel
        rw [h] at this; cases this
  obtain ⟨g, h2⟩ := h2
  refine ⟨?_, ⟨[.enter exDisk], .enter (exWritten exSofa), [], rfl, h1, by simp⟩, ⟨exLife.take 2, [], rfl,
    ⟨[.enter exDisk], .enter (exWritten exSofa), [], rfl, h1, by simp⟩, by simp⟩,
    ⟨g, exLife.take 3, .enter (exWritten exCustom), [], rfl, h2, by simp⟩, by decide +kernel, by decide +kernel, by decide +kernel⟩
  intro op hop
  simp only [exLife, List.take_succ_cons, List.take_zero, List.mem_singleton] at hop
  subst hop
  exact (opensNone_iff _ _).2 ⟨_, rfl⟩

/-! ## C64: the property -/

/-- C64 is false for files without the attribute that is needed for the description: the AttributeError of the property makes
Python look for data of this name. The message says that `list_dimensions` is not contained in the file, or the value of an
unrelated attribute `list` is given and nothing is printed. -/
theorem C64_refuted_property (nc : Nc) (limit : Nat) (hl : 0 < limit) (filename : Str) (f : NcFile) (ops : List StreamOp)
    (h : Spec.Inside filename f ops) (ht : py% "DataType" ∉ f.attrs.map Prod.fst)
    (hv : py% "list" ∉ f.vars.map Prod.fst) :
    streamList nc limit (streamRun limit (newStream filename) ops) =
      match Dict.get? f.attrs (py% "list") with
      | some v => .ok (.got (.value v))
      | none => .error (.attributeError (py% "list_dimensions is not contained in SOFA-file")) := by
  have hf : streamFile (streamRun limit (newStream filename) ops) limit = .ok (.opened f) := by
    rw [streamRun_inside h, streamFile_exists hl (by simp)]
  have h1 : Dict.get? f.attrs (py% "DataType") = none := (Dict.get?_eq_none_iff _ _).2 ht
  have h2 : Dict.get? f.vars (py% "list") = none := (Dict.get?_eq_none_iff _ _).2 hv
  have h3 : ∃ m, streamListDimensions f = .error (.attributeError m) := by
    unfold streamListDimensions ncTextAttr ncGet
    simp only [h1]
    exact ⟨_, rfl⟩
  obtain ⟨m, h3⟩ := h3
  unfold streamList
  rw [hf]
  simp only [h3, streamLookup, h2]
  cases Dict.get? f.attrs (py% "list") <;> rfl

/-- a file without data type -/
example : py% "DataType" ∉ NcFile.empty.attrs.map Prod.fst ∧
    Spec.Inside (py% "x.sofa") .empty [.enter ⟨[(py% "x.sofa", .nc .empty)], fun _ => true⟩] :=
  ⟨by decide, [], _, [], rfl, rfl, by simp⟩

end Sofar
