import Verif.Lemmas.Extended
import Verif.Props.Rules
/-!
# C96: conventions may be extended by optional rows
-/
namespace Sofar

/-- C96: If optional rows with new names are added to conventions, every valid object that does not use the new names stays
valid, and the verification gives the same data, dimensions and custom data. With custom data it has to be possible to create
objects of the extended conventions. -/
theorem C96_valid (new : List Str) (env env' : Env) (h : Spec.Extended new env env') (o : Obj) (mode : Mode)
    (hu : Spec.Unused new o)
    (hc : o.custom ≠ none →
      (∀ f ∈ env'.files, ∀ key e, (key, e) ∈ f.content → Spec.sofarName key ≠ py% "protected") ∧
      ∀ c ver n, (initSofa env c false ver .auto).out = .ok n → ∃ n', (initSofa env' c false ver .auto).out = .ok n')
    (hv : (verify env o .raise mode).out = .ok none) :
    (verify env' o .raise mode).out = .ok none ∧
      ∀ a a', a = (verify env o .raise mode).obj → a' = (verify env' o .raise mode).obj →
        a'.attrs = a.attrs ∧ a'.dims = a.dims ∧ a'.api = a.api ∧ a'.custom = a.custom ∧ a'.readOnly = a.readOnly := by
  obtain ⟨conv', h1, h2⟩ := Extended.verify h hu hc hv
  refine ⟨h1, ?_⟩
  rintro a a' rfl rfl
  rw [h2]
  exact ⟨rfl, rfl, rfl, rfl, rfl⟩

/-- C96: New objects without optional data have the same data as before, and the same warnings are given. -/
theorem C96_created (new : List Str) (env env' : Env) (h : Spec.Extended new env env')
    (hp : ∀ f ∈ env'.files, ∀ key e, (key, e) ∈ f.content → Spec.sofarName key ≠ py% "protected")
    (c : Str) (ver : VersionArg) (a : VerifyArg) (n : Obj) (hn : (initSofa env c true ver a).out = .ok n) :
    ∃ n', (initSofa env' c true ver a).out = .ok n' ∧ n'.attrs = n.attrs ∧
      (initSofa env' c true ver a).ev = (initSofa env c true ver a).ev :=
  Extended.created h hp hn

/-- two optional rows in the middle of the newer convention of the example -/
def exExtended : Env :=
  { exEnv with files := [⟨py% "FIR_1.0.json", (exConvention (py% "1.0")).take 11 ++
      [(py% "RoomVolume", ⟨none, some (py% "I, MI"), py% "double", .list (exNums .i [] [0]), []⟩),
       (py% "RoomVolume:Units", ⟨none, none, py% "attribute", .val (.str (py% "cubic metre")), []⟩)] ++
      (exConvention (py% "1.0")).drop 11⟩, ⟨py% "FIR_0.9.json", exConvention (py% "0.9")⟩] }

/-- the names of the new rows -/
def exNewNames : List Str := [py% "RoomVolume", py% "RoomVolume_Units"]

theorem exExtended_extends : Spec.Extended exNewNames exEnv exExtended := by
  have opt : ∀ f' : ConvFile, f'.content.all (fun p => ! exNewNames.contains (Spec.sofarName p.1) || ! mandatory p.2.flags) =
      true → ∀ key e, (key, e) ∈ f'.content → Spec.sofarName key ∈ exNewNames → ¬ Spec.IsMandatory e := by
    intro f' hf key e he hk hm
    have := List.all_eq_true.1 hf _ he
    rw [← mandatory_iff] at hm
    simp [hk, hm] at this
  refine ⟨.cons ⟨rfl, by decide +kernel, opt _ (by decide +kernel)⟩ (.cons ⟨rfl, by decide +kernel, opt _ (by decide +kernel)⟩ .nil),
    rfl, by decide +kernel, by decide +kernel⟩

theorem exSofa_unused : Spec.Unused exNewNames exSofa := by
  refine ⟨by decide +kernel, ?_⟩
  intro c k e hc
  have : exSofa.custom = none := by decide +kernel
  rw [this] at hc
  cases hc

/-- the objects of the example stay valid, for creating new objects the new rows are used -/
example : (verify exEnv exSofa .raise .write).out = .ok none ∧ (verify exExtended exSofa .raise .write).out = .ok none ∧
    ((initSofa exExtended (py% "FIR") false .latest .auto).out.map (fun n => n.keys.filter exNewNames.contains)) =
      .ok exNewNames :=
  ⟨by decide +kernel, (C96_valid _ _ _ exExtended_extends exSofa .write exSofa_unused
    (fun h => absurd (by decide +kernel) h) (by decide +kernel)).1, by decide +kernel⟩

theorem exCustom_unused : Spec.Unused exNewNames exCustom := by
  refine ⟨by decide +kernel, ?_⟩
  intro c k e hc hk
  have : exCustom.custom = some [(py% "Temperature", (Dict.get? (exCustom.custom.getD []) (py% "Temperature")).getD
      (exAttr [] []))] := by decide +kernel
  rw [this] at hc
  cases hc
  simp only [List.mem_singleton, Prod.mk.injEq] at hk
  rw [hk.1]
  decide +kernel

theorem exists_of_isOk {α : Type} {x : Except Exc α} (h : x.isOk = true) : ∃ a, x = .ok a := by
  cases x with
  | error e => cases h
  | ok a => exact ⟨a, rfl⟩

/-- creating objects of the extended conventions of the example -/
theorem exExtended_creates (c : Str) (ver : VersionArg) (n : Obj) (h : (initSofa exEnv c false ver .auto).out = .ok n) :
    ∃ n', (initSofa exExtended c false ver .auto).out = .ok n' := by
  have same : ∀ ver', loadConvention exExtended c ver = loadConvention exExtended (py% "FIR") ver' →
      initSofa exExtended c false ver .auto = initSofa exExtended (py% "FIR") false ver' .auto := by
    intro ver' hl
    unfold initSofa
    rw [hl]
  rcases Extended.load exExtended_extends c ver with ⟨x, hx, _⟩ | ⟨f, f', _, hf', _, _, hl⟩
  · unfold initSofa at h
    simp [hx] at h
  · simp only [exExtended, List.mem_cons, List.not_mem_nil, or_false] at hf'
    rcases hf' with rfl | rfl
    · rw [same (.exact (py% "1.0")) (hl.trans (by decide +kernel))]
      exact exists_of_isOk (by decide +kernel)
    · rw [same (.exact (py% "0.9")) (hl.trans (by decide +kernel))]
      exact exists_of_isOk (by decide +kernel)

theorem exExtended_names : ∀ f ∈ exExtended.files, ∀ key e, (key, e) ∈ f.content → Spec.sofarName key ≠ py% "protected" := by
  have : exExtended.files.all (fun f => f.content.all (fun p => Spec.sofarName p.1 ≠ py% "protected")) = true := by
    decide +kernel
  intro f hf key e he
  simpa using List.all_eq_true.mp (List.all_eq_true.mp this f hf) _ he

/-- an object with custom data -/
example : exCustom.custom ≠ none ∧ (verify exExtended exCustom .raise .write).out = .ok none :=
  ⟨by decide +kernel, (C96_valid _ _ _ exExtended_extends exCustom .write exCustom_unused
    (fun _ => ⟨exExtended_names, exExtended_creates⟩) (by decide +kernel)).1⟩

/-- new objects with mandatory data only -/
example : ∃ n n', (initSofa exEnv (py% "FIR") true .latest .auto).out = .ok n ∧ n.keys.length = 13 ∧
    (initSofa exExtended (py% "FIR") true .latest .auto).out = .ok n' ∧ n'.attrs = n.attrs := by
  have h : ∃ n, (initSofa exEnv (py% "FIR") true .latest .auto).out = .ok n := exists_of_isOk (by decide +kernel)
  obtain ⟨n, hn⟩ := h
  obtain ⟨n', h1, h2, _⟩ := C96_created _ _ _ exExtended_extends exExtended_names _ _ _ n hn
  refine ⟨n, n', hn, ?_, h1, h2⟩
  have : (initSofa exEnv (py% "FIR") true .latest .auto).out.map (fun n => n.keys.length) = .ok 13 := by decide +kernel
  rw [hn] at this
  simpa [Except.map] using this

/-- Mandatory rows are different: without the new data objects get invalid. The same holds for custom data with the name of
a new row of another type. -/
theorem C96_needed : ∃ (env env1 env2 : Env) (o o2 : Obj), (verify env o .raise .write).out = .ok none ∧
    (verify env1 o .raise .write).out.isOk = false ∧
    (verify env o2 .raise .write).out = .ok none ∧ (verify env2 o2 .raise .write).out.isOk = false ∧
    (∃ e : Entry, Spec.IsMandatory e ∧ env1 = { env with files := env.files.map fun f => ⟨f.base, f.content ++ [(py% "RoomVolume", e)]⟩ }) ∧
    (∃ e : Entry, ¬ Spec.IsMandatory e ∧
      env2 = { env with files := env.files.map fun f => ⟨f.base, f.content ++ [(py% "Temperature", e)]⟩ }) :=
  ⟨exEnv, _, _, exSofa, exCustom, by decide +kernel, by decide +kernel, by decide +kernel, by decide +kernel,
    ⟨⟨some (py% "m"), some (py% "I"), py% "double", .list (exNums .i [] [0]), []⟩,
      (mandatory_iff _).1 (by decide +kernel), rfl⟩,
    ⟨⟨none, none, py% "attribute", .val (.str []), []⟩,
      fun h => absurd ((mandatory_iff _).2 h) (by decide +kernel), rfl⟩⟩

end Sofar
