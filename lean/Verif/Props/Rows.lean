import Verif.Lemmas.RowsIO
import Verif.Props.WriteOrder
/-!
# C100: the order of the rows of conventions
-/
namespace Sofar

/-- C100: If a new object can be created, then it can be created from conventions with the same rows in any order, and it has
the same data. The rows have different names in sofar, none of them is called `protected`, and no two rows define the same
dimension. (Missing: two rows with the same name, see `C100_refuted_names`, and rows that define different sizes of the same
dimension, see `C100_refuted`.) -/
theorem C100_new_partial (env env' : Env) (h : Spec.Rearranged env env') (hp : Spec.NoProtected env) (hd : Spec.DefineOnce env)
    (c : Str) (m : Bool) (ver : VersionArg) (a : VerifyArg) (n : Obj) (hn : (initSofa env c m ver a).out = .ok n) :
    ∃ n', (initSofa env' c m ver a).out = .ok n' ∧ Spec.Reordered n n' ∧ ∀ p, p ∈ n'.conv ↔ p ∈ n.conv :=
  Rearranged.created h hp hn (defineOnce_agree hd hn)

/-- C100: Two rows may define the same dimension if the new object has the same size there. -/
theorem C100_sizes_partial (env env' : Env) (h : Spec.Rearranged env env') (hp : Spec.NoProtected env)
    (c : Str) (m : Bool) (ver : VersionArg) (a : VerifyArg) (n : Obj) (hn : (initSofa env c m ver a).out = .ok n)
    (ha : Spec.AgreeOnSizes n) :
    ∃ n', (initSofa env' c m ver a).out = .ok n' ∧ Spec.Reordered n n' ∧ ∀ p, p ∈ n'.conv ↔ p ∈ n.conv :=
  Rearranged.created h hp hn ha

/-- C100: What passes the verification passes it with the rows and the data in any order. -/
theorem C100_verify_partial (env env' : Env) (h : Spec.Rearranged env env') (hp : Spec.NoProtected env)
    (hd : Spec.DefineOnce env) (o o' : Obj) (hR : Spec.Reordered o o') (mode : Mode)
    (hs : ∀ o1, resetConvention env o = .ok o1 → Spec.AgreeOnSizes o1 ∧ Spec.CustomNoMethod o1)
    (hv : (verify env o .raise mode).out = .ok none) : (verify env' o' .raise mode).out = .ok none := by
  obtain ⟨_, o1, o3, h1, h2⟩ := (verifyG_raise_ok_iff _ _ _ _ _).1 hv
  have fr := verifyG_frame referenceNames env o .raise mode
  have ka1 : o1.attrs = o.attrs := by
    obtain ⟨_, _, _, _, _, _, _, _, _, g6⟩ := resetConvention_inv h1
    rw [g6]
    cases o.custom <;> rfl
  obtain ⟨s1, s2⟩ := hs o1 h1
  exact (Rearranged.verify h hR hv (s1.congr (by rw [ka1]; exact fr.raise rfl) (fr.loaded o1 h1).1)
    (fun c k e hc hk => s2 c k e (by rw [← (fr.loaded o1 h1).2]; exact hc) hk)
    (fun _ => ⟨hp, fun c ver n hn => defineOnce_agree hd hn⟩)).1

/-- C100: What can be written can be written with the rows and the data in any order, and the files have the same content. -/
theorem C100_write_partial (env env' : Env) (h : Spec.Rearranged env env') (hp : Spec.NoProtected env)
    (hd : Spec.DefineOnce env) (nc : Nc) (fs : FS) (name : Str) (o o' : Obj) (c : Nat) (hR : Spec.Reordered o o')
    (hs : ∀ o1, resetConvention env o = .ok o1 → Spec.AgreeOnSizes o1 ∧ Spec.CustomNoMethod o1)
    (hw : (writeSofa env nc fs name o c).out = .ok ()) :
    (writeSofa env' nc fs name o' c).out = .ok () ∧ ∃ path f f', withSuffix name = .ok path ∧
      (writeSofa env nc fs name o c).fs = { fs with files := Dict.put fs.files path (.nc f) } ∧
      (writeSofa env' nc fs name o' c).fs = { fs with files := Dict.put fs.files path (.nc f') } ∧
      Spec.SameContent f f' ∧ ∀ d, Dict.get? f'.dims d = Dict.get? f.dims d :=
  Rearranged.write h hR hs hp (fun _ _ _ _ _ hn => defineOnce_agree hd hn) hw

/-- C100: What can be read can be read with the rows and the content of the file in any order, and the data is the same. -/
theorem C100_read_partial (env env' : Env) (h : Spec.Rearranged env env') (hp : Spec.NoProtected env)
    (hd : Spec.DefineOnce env) (nc : Nc) (fs fs' : FS) (name name' : Str) (f f' : NcFile)
    (h1 : openFile fs name = .ok f) (h2 : openFile fs' name' = .ok f') (hf : Spec.SameContent f f')
    (hn : (Spec.namesInFile f).Nodup) (arg : VerifyArg) (vb vb' : Bool) (o : Obj)
    (ho : (readSofa env nc fs name arg vb).out = .ok o) (hs : arg = .no ∨ Spec.AgreeOnSizes o ∧ Spec.CustomNoMethod o) :
    ∃ o', (readSofa env' nc fs' name' arg vb').out = .ok o' ∧ Spec.Reordered o o' :=
  Rearranged.read h h1 h2 hf hn ho hs hp (fun _ _ _ _ _ hn => defineOnce_agree hd hn)

/-- the conventions of the example with the rows from back to front -/
def exRows : Env := { exEnv with files := exEnv.files.map (fun f => { f with content := f.content.reverse }) }

theorem exRows_rearranged : Spec.Rearranged exEnv exRows := by
  refine ⟨?_, rfl⟩
  have : ∀ f ∈ exEnv.files, (f.content.map (fun p => Spec.sofarName p.1)).Nodup := by decide +kernel
  rw [show exRows.files = exEnv.files.map (fun f => { f with content := f.content.reverse }) from rfl, List.forall₂_map_right_iff]
  exact List.forall₂_same.2 (fun f hf => ⟨rfl, List.reverse_perm _, this f hf⟩)

theorem exEnv_noProtected : Spec.NoProtected exEnv := by
  have h : ∀ t ∈ exEnv.files, ∀ p ∈ t.content, Spec.sofarName p.1 ≠ py% "protected" := by decide +kernel
  exact fun t ht key e hk => h t ht (key, e) hk

theorem exEnv_once : Spec.DefineOnce exEnv := by
  refine ⟨by decide +kernel, ?_⟩
  have h : (exEnv.files.all fun t => t.content.all fun p => t.content.all fun q => p.1 == q.1 ||
      p.2.dims.toList.all fun d => q.2.dims.toList.all fun d' => (firstAlt d).all fun x => (firstAlt d').all fun x' =>
        ! Str.isLowerC x || ! Str.isLowerC x' || Str.upperC x != Str.upperC x') = true := by decide +kernel
  intro f hf k k' e e' d d' a a' x x' m m' hne hd hd' ha ha' hx hx' hl hl'
  have h1 := List.all_eq_true.1 (List.all_eq_true.1 (List.all_eq_true.1 h f hf) (k, e) m) (k', e') m'
  simp only [Bool.or_eq_true, beq_iff_eq, hne, false_or] at h1
  have h2 := List.all_eq_true.1 (List.all_eq_true.1 h1 d (by simp [hd])) d' (by simp [hd'])
  have h3 := List.all_eq_true.1 (List.all_eq_true.1 h2 x (by rw [firstAlt_of_isFirst ha]; exact hx)) x'
    (by rw [firstAlt_of_isFirst ha']; exact hx')
  simpa [hl, hl'] using h3

/-- the new object of the example -/
example : ∃ n', (initSofa exRows (py% "FIR") false .latest .auto).out = .ok n' ∧ Spec.Reordered exSofa n' ∧
    ∀ p, p ∈ n'.conv ↔ p ∈ exSofa.conv := by
  have h : ∃ o, (initSofa exEnv (py% "FIR") false .latest .auto).out = .ok o := by
    cases h : (initSofa exEnv (py% "FIR") false .latest .auto).out with
    | ok o => exact ⟨o, rfl⟩
    | error x =>
      have : (initSofa exEnv (py% "FIR") false .latest .auto).out.isOk = true := by decide +kernel
      rw [h] at this
      cases this
  obtain ⟨o, ho⟩ := h
  have e : exSofa = o := by
    unfold exSofa
    rw [ho]
  exact C100_new_partial exEnv exRows exRows_rearranged exEnv_noProtected exEnv_once (py% "FIR") false .latest .auto exSofa
    (by rw [e]; exact ho)

/-- the order of the data is in fact another one -/
example : (match (initSofa exRows (py% "FIR") false .latest .auto).out with | .ok o => Dict.keys o.attrs | .error _ => []) =
    (Dict.keys exSofa.attrs).reverse := by decide +kernel

/-- the object of the example with the rows in reverse order -/
example : (verify exRows exSofa .raise .write).out = .ok none :=
  C100_verify_partial exEnv exRows exRows_rearranged exEnv_noProtected exEnv_once exSofa exSofa
    ⟨⟨List.Perm.refl _, by decide +kernel⟩, Or.inl ⟨by decide +kernel, by decide +kernel⟩⟩ .write exSofa_agrees (by decide +kernel)

/-- writing with the rows and the data in reverse order -/
example : (writeSofa exRows exNc exNoFiles (py% "a") exReversed 4).out = .ok () :=
  (C100_write_partial exEnv exRows exRows_rearranged exEnv_noProtected exEnv_once exNc exNoFiles (py% "a") exSofa exReversed 4
    exReversed_reordered exSofa_agrees (by decide +kernel)).1

/-- reading with the rows and the file in reverse order -/
example : ∃ o o', (readSofa exEnv exNc (exOnly exFile) (py% "a.sofa") .no true).out = .ok o ∧
    (readSofa exRows exNc (exOnly (exBackwards exFile)) (py% "a.sofa") .no true).out = .ok o' ∧ Spec.Reordered o o' := by
  have h : ∃ o, (readSofa exEnv exNc (exOnly exFile) (py% "a.sofa") .no true).out = .ok o := by
    cases h : (readSofa exEnv exNc (exOnly exFile) (py% "a.sofa") .no true).out with
    | ok o => exact ⟨o, rfl⟩
    | error x =>
      have : (readSofa exEnv exNc (exOnly exFile) (py% "a.sofa") .no true).out.isOk = true := by decide +kernel
      rw [h] at this
      cases this
  obtain ⟨o, ho⟩ := h
  obtain ⟨o', h1, h2⟩ := C100_read_partial exEnv exRows exRows_rearranged exEnv_noProtected exEnv_once exNc _ _ _ _ exFile
    (exBackwards exFile) (exOnly_open _) (exOnly_open _) (exBackwards_same _) (by decide +kernel) .no true true o ho (Or.inl rfl)
  exact ⟨o, o', ho, h1, h2⟩

/-- the convention of the example with additional rows -/
def exWith (l : Dict Entry) : Env := { exEnv with files := [⟨py% "FIR_1.0.json", exConvention (py% "1.0") ++ l⟩] }

/-- two rows with a variable along a new dimension, or with one element -/
def exOffsetRow : Str × Entry := (py% "Offset", ⟨some (py% "m"), some (py% "q, I"), py% "double", .list (exNums .i [1] [20]), []⟩)

/-- see `exOffsetRow` -/
def exTimesRow : Str × Entry := (py% "Times", ⟨some (py% "m"), some (py% "q"), py% "double", .list (exNums .i [5] [1, 2, 3, 4, 5]), []⟩)

/-- C100 is false if two rows define different sizes of the same dimension: only with one of the two orders a new object can
be created and verified. -/
theorem C100_refuted : ∃ l l' : Dict Entry, Spec.Rearranged (exWith l) (exWith l') ∧ Spec.NoProtected (exWith l) ∧
    (initSofa (exWith l) (py% "FIR") false .latest .yes).out.isOk = true ∧
    (initSofa (exWith l') (py% "FIR") false .latest .yes).out.isOk = false := by
  refine ⟨[exOffsetRow, exTimesRow], [exTimesRow, exOffsetRow], ⟨?_, rfl⟩, ?_, by decide +kernel, by decide +kernel⟩
  · exact .cons ⟨rfl, (List.Perm.swap _ _ _).append_left _, by decide +kernel⟩ .nil
  · have h : ∀ t ∈ (exWith [exOffsetRow, exTimesRow]).files, ∀ p ∈ t.content, Spec.sofarName p.1 ≠ py% "protected" := by
      decide +kernel
    exact fun t ht key e hk => h t ht (key, e) hk

/-- rows with the same name in sofar -/
def exSameRow (x : Int) : Str × Entry :=
  (if x = 1 then py% "New.Data" else py% "New:Data", ⟨some (py% "m"), some (py% "I"), py% "double", .list (exNums .i [1] [x]), []⟩)

/-- C100 is false if two rows have the same name in sofar: the last one decides about the default value. -/
theorem C100_refuted_names : ∃ (l l' : Dict Entry) (n n' : Obj), l'.Perm l ∧
    (initSofa (exWith l) (py% "FIR") true .latest .no).out = .ok n ∧
    (initSofa (exWith l') (py% "FIR") true .latest .no).out = .ok n' ∧
    Dict.get? n.attrs (py% "New_Data") ≠ Dict.get? n'.attrs (py% "New_Data") := by
  refine ⟨[exSameRow 1, exSameRow 2], [exSameRow 2, exSameRow 1], ?_⟩
  have h : ∀ l, (initSofa (exWith l) (py% "FIR") true .latest .no).out.isOk = true →
      ∃ n, (initSofa (exWith l) (py% "FIR") true .latest .no).out = .ok n := by
    intro l hl
    cases h : (initSofa (exWith l) (py% "FIR") true .latest .no).out with
    | ok o => exact ⟨o, rfl⟩
    | error x => rw [h] at hl; cases hl
  obtain ⟨n, h1⟩ := h [exSameRow 1, exSameRow 2] (by decide +kernel)
  obtain ⟨n', h2⟩ := h [exSameRow 2, exSameRow 1] (by decide +kernel)
  refine ⟨n, n', List.Perm.swap _ _ _, h1, h2, ?_⟩
  have g : (match (initSofa (exWith [exSameRow 1, exSameRow 2]) (py% "FIR") true .latest .no).out,
      (initSofa (exWith [exSameRow 2, exSameRow 1]) (py% "FIR") true .latest .no).out with
      | .ok a, .ok b => decide (Dict.get? a.attrs (py% "New_Data") ≠ Dict.get? b.attrs (py% "New_Data"))
      | _, _ => false) = true := by decide +kernel
  rw [h1, h2] at g
  exact of_decide_eq_true g

end Sofar
