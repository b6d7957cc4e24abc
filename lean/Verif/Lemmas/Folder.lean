import Verif.Spec.Folder
import Verif.Lemmas.Independent
import Verif.Lemmas.RowsIO
import Verif.Model.Session
import Verif.Model.Complete
/-!
# The order of the convention files
-/
namespace Sofar

/-! ## Choosing files -/

theorem find?_perm {α : Type} {p : α → Bool} {l l' : List α} (hp : l'.Perm l) (hu : ∀ a ∈ l, ∀ b ∈ l, p a = true → p b = true → a = b) :
    l'.find? p = l.find? p := by
  cases h : l.find? p with
  | none =>
    rw [List.find?_eq_none] at h ⊢
    exact fun x hx => h x (hp.mem_iff.1 hx)
  | some a =>
    have ha := List.mem_of_find?_eq_some h
    have hpa := List.find?_some h
    cases h' : l'.find? p with
    | none => exact absurd hpa (List.find?_eq_none.1 h' a (hp.mem_iff.2 ha))
    | some b =>
      rw [hu a ha b (hp.mem_iff.1 (List.mem_of_find?_eq_some h')) hpa (List.find?_some h')]

theorem mapM_option_perm {α β : Type} {f : α → Option β} {l l' : List α} (h : l'.Perm l) :
    (l.mapM f = none ∧ l'.mapM f = none) ∨ ∃ r r', l.mapM f = some r ∧ l'.mapM f = some r' ∧ r'.Perm r := by
  induction h with
  | nil => exact .inr ⟨[], [], rfl, rfl, .nil⟩
  | cons x _ ih =>
    simp only [List.mapM_cons]
    cases f x with
    | none => exact .inl ⟨rfl, rfl⟩
    | some y =>
      rcases ih with ⟨h1, h2⟩ | ⟨r, r', h1, h2, h3⟩
      · rw [h1, h2]; exact .inl ⟨rfl, rfl⟩
      · rw [h1, h2]; exact .inr ⟨_, _, rfl, rfl, h3.cons y⟩
  | swap x y l =>
    simp only [List.mapM_cons]
    cases f x with
    | none =>
      cases f y <;> exact .inl ⟨rfl, rfl⟩
    | some a =>
      cases f y with
      | none => exact .inl ⟨rfl, rfl⟩
      | some b =>
        cases l.mapM f with
        | none => exact .inl ⟨rfl, rfl⟩
        | some r => exact .inr ⟨_, _, rfl, rfl, .swap _ _ _⟩
  | trans _ _ ih1 ih2 =>
    rcases ih1 with ⟨h1, h2⟩ | ⟨r, r', h1, h2, h3⟩
    · rcases ih2 with ⟨h4, h5⟩ | ⟨s, s', h4, h5, h6⟩
      · exact .inl ⟨h4, h2⟩
      · rw [h5] at h1; cases h1
    · rcases ih2 with ⟨h4, h5⟩ | ⟨s, s', h4, h5, h6⟩
      · rw [h5] at h1; cases h1
      · rw [h5] at h1; cases h1
        exact .inr ⟨s, r', h4, h2, h3.trans h6⟩

theorem mapM_files_mem {l : List ConvFile} {r : List (ConvFile × Rat)}
    (hr : l.mapM (fun g => (pyFloat (fileVersion g.base)).map (fun q => (g, q))) = some r) :
    ∀ p ∈ r, p.1 ∈ l ∧ pyFloat (fileVersion p.1.base) = some p.2 := by
  induction l generalizing r with
  | nil => simp at hr; subst hr; simp
  | cons x l ih =>
    simp only [List.mapM_cons, Option.bind_eq_bind, Option.bind_eq_some_iff, Option.map_eq_some_iff,
      Option.pure_def, Option.some.injEq] at hr
    obtain ⟨y, ⟨q, hq, rfl⟩, r', hr', rfl⟩ := hr
    intro p hp
    rcases List.mem_cons.1 hp with rfl | hp
    · exact ⟨List.mem_cons_self, hq⟩
    · exact ⟨List.mem_cons_of_mem _ (ih hr' p hp).1, (ih hr' p hp).2⟩

theorem Reshuffled.selectFile {env env' : Env} (h : Spec.Reshuffled env env') (c : Str) (ver : VersionArg) :
    Sofar.selectFile env' c ver = Sofar.selectFile env c ver := by
  have hp : (env'.files.filter (fun f => Str.startsWith f.base (c ++ py% "_"))).Perm
      (env.files.filter (fun f => Str.startsWith f.base (c ++ py% "_"))) := h.files.filter _
  have hu : ∀ f ∈ env.files.filter (fun f => Str.startsWith f.base (c ++ py% "_")),
      ∀ g ∈ env.files.filter (fun f => Str.startsWith f.base (c ++ py% "_")),
      (fileVersion f.base = fileVersion g.base ∨ ∃ q, pyFloat (fileVersion f.base) = some q ∧ pyFloat (fileVersion g.base) = some q) →
      f = g := by
    intro f hf g hg he
    obtain ⟨hf1, hf2⟩ := List.mem_filter.1 hf
    obtain ⟨hg1, hg2⟩ := List.mem_filter.1 hg
    obtain ⟨n, w, hfw⟩ := h.regular f hf1
    obtain ⟨n', w', hgw⟩ := h.regular g hg1
    rw [fileVersion_of hfw, fileVersion_of hgw] at he
    have hc : '_' ∉ c := by
      intro hc
      obtain ⟨h1, h2, h3⟩ := hfw
      unfold Str.startsWith at hf2
      rw [List.isPrefixOf_iff_prefix] at hf2
      have k := hf2.sublist.count_le '_'
      rw [h1] at k
      simp only [List.count_append, List.count_cons, List.count_nil, beq_self_eq_true, if_true, List.count_eq_zero_of_not_mem h2,
        List.count_eq_zero_of_not_mem h3] at k
      have := List.count_pos_iff.2 hc
      have e : List.count '_' (py% ".json") = 0 := by decide
      simp only [List.count_cons, List.count_nil] at e
      simp at k
      omega
    have e1 := (startsWith_of hfw hc).1 hf2
    have e2 := (startsWith_of hgw hc).1 hg2
    subst e1
    subst e2
    exact h.different f hf1 g hg1 c w w' hfw hgw he
  unfold Sofar.selectFile
  simp only
  generalize env.files.filter (fun f => Str.startsWith f.base (c ++ py% "_")) = l at hp hu ⊢
  generalize env'.files.filter (fun f => Str.startsWith f.base (c ++ py% "_")) = l' at hp ⊢
  cases l with
  | nil => rw [List.perm_nil.1 hp]
  | cons f fs =>
    cases l' with
    | nil => exact absurd hp.symm (by simp)
    | cons f' fs' =>
      cases ver with
      | exact v =>
        simp only
        rw [find?_perm hp (fun a ha b hb h1 h2 => hu a ha b hb (.inl ((of_decide_eq_true h1).trans (of_decide_eq_true h2).symm)))]
      | latest =>
        simp only
        rcases mapM_option_perm (f := fun g : ConvFile => (pyFloat (fileVersion g.base)).map (fun q => (g, q))) hp with ⟨h1, h2⟩ | ⟨r, r', h1, h2, h3⟩
        · rw [h1, h2]
        · rw [h1, h2]
          cases r with
          | nil => rw [List.perm_nil.1 h3]
          | cons p r =>
            cases r' with
            | nil => exact absurd h3.symm (by simp)
            | cons p' r' =>
              simp only [Except.ok.injEq]
              obtain ⟨x, m1, m0, m2⟩ := argmaxFile_max r p
              obtain ⟨x', m1', m0', m2'⟩ := argmaxFile_max r' p'
              have e : x.2 = x'.2 := Rat.le_antisymm (m2' _ (h3.mem_iff.2 m1)) (m2 _ (h3.mem_iff.1 m1'))
              have k1 := mapM_files_mem h1 _ m1
              have k2 := mapM_files_mem h1 _ (h3.mem_iff.1 m1')
              rw [← e] at k2
              rw [← m0, ← m0']
              exact hu _ k2.1 _ k1.1 (.inr ⟨x.2, k2.2, k1.2⟩)

theorem mapM_except_perm {α β : Type} {f : α → Except Exc β} {x : Exc} (hf : ∀ a e, f a = .error e → e = x) {l l' : List α} (h : l'.Perm l) :
    (l.mapM f = .error x ∧ l'.mapM f = .error x) ∨ ∃ r r', l.mapM f = .ok r ∧ l'.mapM f = .ok r' ∧ r'.Perm r := by
  induction h with
  | nil => exact .inr ⟨[], [], rfl, rfl, .nil⟩
  | cons a _ ih =>
    simp only [List.mapM_cons]
    cases ha : f a with
    | error e => rw [hf a e ha]; exact .inl ⟨rfl, rfl⟩
    | ok y =>
      rcases ih with ⟨h1, h2⟩ | ⟨r, r', h1, h2, h3⟩
      · rw [h1, h2]; exact .inl ⟨rfl, rfl⟩
      · rw [h1, h2]; exact .inr ⟨_, _, rfl, rfl, h3.cons y⟩
  | swap a b l =>
    simp only [List.mapM_cons]
    cases ha : f a with
    | error e =>
      rw [hf a e ha]
      cases hb : f b with
      | error e' => rw [hf b e' hb]; exact .inl ⟨rfl, rfl⟩
      | ok y => exact .inl ⟨rfl, rfl⟩
    | ok z =>
      cases hb : f b with
      | error e' => rw [hf b e' hb]; exact .inl ⟨rfl, rfl⟩
      | ok y =>
        cases hl : l.mapM f with
        | error e =>
          have : e = x := by
            clear ha hb
            induction l generalizing e with
            | nil => cases hl
            | cons c l ih' =>
              rw [List.mapM_cons] at hl
              cases hc : f c with
              | error e' => rw [hc] at hl; cases hl; exact hf c _ hc
              | ok y =>
                rw [hc] at hl
                cases hl' : l.mapM f with
                | error e' => rw [hl'] at hl; cases hl; exact ih' _ hl'
                | ok r => rw [hl'] at hl; cases hl
          rw [this]
          exact .inl ⟨rfl, rfl⟩
        | ok r => exact .inr ⟨_, _, rfl, rfl, .swap _ _ _⟩
  | trans _ _ ih1 ih2 =>
    rcases ih1 with ⟨h1, h2⟩ | ⟨r, r', h1, h2, h3⟩
    · rcases ih2 with ⟨h4, h5⟩ | ⟨s, s', h4, h5, h6⟩
      · exact .inl ⟨h4, h2⟩
      · rw [h5] at h1; cases h1
    · rcases ih2 with ⟨h4, h5⟩ | ⟨s, s', h4, h5, h6⟩
      · rw [h5] at h1; cases h1
      · rw [h5] at h1; cases h1
        exact .inr ⟨s, r', h4, h2, h3.trans h6⟩

theorem versionExists_perm (v c : Str) {l l' : List (Str × Str)} (h : l'.Perm l) : versionExists v c l' = versionExists v c l := by
  induction h with
  | nil => rfl
  | cons p _ ih => simp only [versionExists, ih]
  | swap p q l =>
    obtain ⟨n, w⟩ := p
    obtain ⟨m, u⟩ := q
    simp only [versionExists]
    by_cases h1 : n = c
    · by_cases h2 : m = c
      · simp only [if_pos h1, if_pos h2]
        cases strFloat w with
        | none => cases strFloat u <;> rfl
        | some s =>
          cases strFloat u with
          | none => rfl
          | some t =>
            simp only
            cases versionExists v c l with
            | error e => rfl
            | ok b => simp only [Bool.or_left_comm]
      · simp only [if_pos h1, if_neg h2]
    · simp only [if_neg h1]
  | trans _ _ ih1 ih2 => exact ih1.trans ih2

theorem Reshuffled.verifyConvention {env env' : Env} (h : Spec.Reshuffled env env') (v c : Str) :
    Sofar.verifyConvention env' v c = Sofar.verifyConvention env v c := by
  unfold Sofar.verifyConvention getConventions
  rcases mapM_except_perm (f := fun f : ConvFile => nameVersion f.base) (x := .indexError) (by
      intro a e he
      unfold nameVersion at he
      split at he
      · cases he
      · cases he; rfl) h.files with ⟨h1, h2⟩ | ⟨r, r', h1, h2, h3⟩
  · rw [h1, h2]
  · rw [h1, h2]
    simp only
    have e1 : (r'.map Prod.fst).contains c = (r.map Prod.fst).contains c := by
      rw [Bool.eq_iff_iff, List.contains_iff_mem, List.contains_iff_mem]
      exact (h3.map _).mem_iff
    have e2 : versionExists v c r' = versionExists v c r := by
      exact versionExists_perm v c h3
    rw [e1, e2]

/-! ## Installations that load the same conventions -/

/-- two installations that load and know the same conventions -/
structure SameLoad (env env' : Env) : Prop where
  rest : env' = { env with files := env'.files }
  load : ∀ c v, loadConvention env' c v = loadConvention env c v
  known : ∀ v c, verifyConvention env' v c = verifyConvention env v c

theorem Reshuffled.sameLoad {env env' : Env} (h : Spec.Reshuffled env env') : SameLoad env env' :=
  ⟨h.rest, fun c v => by unfold loadConvention; rw [Reshuffled.selectFile h], Reshuffled.verifyConvention h⟩

namespace SameLoad
variable {env env' : Env}

theorem pyStr (h : SameLoad env env') (v : Val) : Sofar.pyStr env' v = Sofar.pyStr env v := by
  rw [h.rest]; rfl

theorem reset (h : SameLoad env env') : resetConvention env' = resetConvention env := by
  funext o
  unfold resetConvention
  simp only [h.pyStr, h.load, h.known]

theorem verifyG (h : SameLoad env env') {inner : Env → Obj → Inner} (hi : inner env' = inner env) :
    Sofar.verifyG inner env' = Sofar.verifyG inner env := by
  funext o ih mode
  unfold Sofar.verifyG
  rw [h.reset, hi]
  cases hr : resetConvention env o with
  | error e => rfl
  | ok o1 =>
    simp only
    rw [h.rest]
    rfl

theorem create (h : SameLoad env env') : initSofa env' = initSofa env := by
  funext c m ver a
  have h1 : verifyNew env' = verifyNew env := h.verifyG (inner := fun _ _ => _) rfl
  have h2 : ∀ m o, conventionToSofa env' m o = conventionToSofa env m o := fun m o => by rw [h.rest]; rfl
  unfold initSofa finishInit
  simp only [h.load, h1, h2]

theorem reference (h : SameLoad env env') : referenceNames env' = referenceNames env := by
  funext o
  unfold referenceNames
  simp only [h.create]

theorem verify (h : SameLoad env env') : Sofar.verify env' = Sofar.verify env := h.verifyG h.reference

theorem addMissing (h : SameLoad env env') : Sofar.addMissing env' = Sofar.addMissing env := by
  funext o m opt vb
  unfold Sofar.addMissing
  simp only [h.reset]

theorem getDimension (h : SameLoad env env') : Sofar.getDimension env' = Sofar.getDimension env := by
  funext o d
  unfold Sofar.getDimension updateDimensions
  simp only [h.verify]

theorem listDimensions (h : SameLoad env env') : Sofar.listDimensions env' = Sofar.listDimensions env := by
  funext o
  unfold Sofar.listDimensions updateDimensions
  simp only [h.verify]

theorem inspect (h : SameLoad env env') : Sofar.inspect env' = Sofar.inspect env := by
  funext o file ih
  unfold Sofar.inspect
  rw [h.verify, h.rest]
  rfl

theorem write (h : SameLoad env env') : writeSofa env' = writeSofa env := by
  funext nc fs name o c
  have h1 : writeFile env' = writeFile env := by rw [h.rest, writeFile_files]
  have h2 : checkLatest env' = checkLatest env := by
    funext o
    unfold checkLatest
    simp only [h.create]
  unfold writeSofa writeSofaG writeDisk
  simp only [h1, h2, h.verify]

theorem read (h : SameLoad env env') : readSofa env' = readSofa env := by
  funext nc fs name a vb
  unfold readSofa verifyRead
  simp only [h.known, h.create, h.verify]

theorem upgrade (h : SameLoad env env') : upgradeConvention env' = upgradeConvention env := by
  funext o t a
  have ho : ∀ c v, isOutdated env' c v = isOutdated env c v := fun c v => by rw [h.rest]; rfl
  have hg : env'.upgrade = env.upgrade := by rw [h.rest]
  have hd : ∀ d, defaultText env' d = defaultText env d := fun d => by rw [h.rest]; rfl
  unfold upgradeConvention upgradeTo upgradeData upgradeVerify
  simp only [h.reset, h.pyStr, ho, hg, h.load, hd, h.addMissing, h.verify]

theorem complete (h : SameLoad env env') : completeSofa env' = completeSofa env := by
  funext c
  unfold completeSofa
  simp only [h.create, h.verify]

theorem step (h : SameLoad env env') : Sofar.step env' = Sofar.step env := by
  funext o op
  cases op with
  | addMissing m opt vb => simp only [Sofar.step, h.addMissing]
  | verify ih mode => simp only [Sofar.step, h.verify]
  | getDimension d => simp only [Sofar.step, h.getDimension]
  | _ => rfl

theorem exec (h : SameLoad env env') : Sofar.exec env' = Sofar.exec env := by
  funext nc s prog
  have : execStmt env' nc = execStmt env nc := by
    funext s st
    cases st <;> simp only [execStmt, h.create, h.read, h.step, h.upgrade, h.write]
  unfold Sofar.exec
  rw [this]

end SameLoad

end Sofar
