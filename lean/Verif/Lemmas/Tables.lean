import Verif.Lemmas.Folder
import Verif.Lemmas.OneByOne
import Verif.Spec.Tables
/-!
# Tables of the verification in another order
-/
namespace Sofar

theorem get?_perm_nodup {α : Type} {d d' : Dict α} (h : d'.Perm d) (hd : (d.map Prod.fst).Nodup) (k : Str) :
    Dict.get? d' k = Dict.get? d k := by
  exact get?_perm ⟨h, hd⟩ k

section
variable {env : Env} {A : Dict Str} {D : Dict Str} {U : Dict Upgrade}

theorem toDoubles_tables (k : Kind) (l : List Elem) : toDoubles { env with aliases := A, deprecations := D, upgrade := U } k l = toDoubles env k l := by
  induction l with
  | nil => rfl
  | cons e l ih =>
    unfold toDoubles
    rw [ih]
    rfl

theorem netcdfData_tables (k : Kind) (a : Arr) : netcdfData { env with aliases := A, deprecations := D, upgrade := U } k a = netcdfData env k a := by
  unfold netcdfData
  rw [toDoubles_tables]

theorem writeGlobals_tables (nc : Nc) (o : Obj) (l : List Str) : ∀ f, writeGlobals { env with aliases := A, deprecations := D, upgrade := U } nc o l f = writeGlobals env nc o l f := by
  induction l with
  | nil => intro f; rfl
  | cons k l ih =>
    intro f
    unfold writeGlobals
    cases h1 : o.getAttr k with
    | error e => rfl
    | ok v =>
      simp only
      rw [show pyStr { env with aliases := A, deprecations := D, upgrade := U } v = pyStr env v from rfl]
      cases h2 : putAttr nc f.attrs (k.drop 7) (pyStr env v) with
      | error e => rfl
      | ok a => exact ih _

theorem varAttrs_tables (nc : Nc) (o : Obj) (n : Nat) (l : List Str) : ∀ d, varAttrs { env with aliases := A, deprecations := D, upgrade := U } nc o n l d = varAttrs env nc o n l d := by
  induction l with
  | nil => intro f; rfl
  | cons k l ih =>
    intro d
    unfold varAttrs
    cases h1 : o.getAttr k with
    | error e => rfl
    | ok v =>
      simp only
      rw [show pyStr { env with aliases := A, deprecations := D, upgrade := U } v = pyStr env v from rfl]
      cases h2 : putAttr nc d (k.drop n) (pyStr env v) with
      | error e => rfl
      | ok a => exact ih _

theorem writeVariable_tables (nc : Nc) (o : Obj) (c : Nat) (key dtype dims : Str) (S : Nat) (v : Val) (f : NcFile) :
    writeVariable { env with aliases := A, deprecations := D, upgrade := U } nc o c key dtype dims S v f = writeVariable env nc o c key dtype dims S v f := by
  unfold writeVariable
  simp only [netcdfData_tables, varAttrs_tables]

theorem writeKeys_tables (nc : Nc) (o : Obj) (c : Nat) (l : List Str) : ∀ f,
    writeKeys { env with aliases := A, deprecations := D, upgrade := U } nc o c l f = writeKeys env nc o c l f := by
  induction l with
  | nil => intro f; rfl
  | cons k l ih =>
    intro f
    have : writeKey { env with aliases := A, deprecations := D, upgrade := U } nc o c k f = writeKey env nc o c k f := by
      unfold writeKey
      simp only [writeVariable_tables]
    unfold writeKeys
    simp only [this, ih]

theorem writeFile_tables : writeFile { env with aliases := A, deprecations := D, upgrade := U } = writeFile env := by
  funext nc o c
  unfold writeFile
  simp only [writeGlobals_tables, writeKeys_tables]

end

section
variable {env : Env} {R : List (Str × Rule)}

theorem toDoubles_rules (k : Kind) (l : List Elem) : toDoubles { env with rules := R } k l = toDoubles env k l := by
  induction l with
  | nil => rfl
  | cons e l ih =>
    unfold toDoubles
    rw [ih]
    rfl

theorem netcdfData_rules (k : Kind) (a : Arr) : netcdfData { env with rules := R } k a = netcdfData env k a := by
  unfold netcdfData
  rw [toDoubles_rules]

theorem writeGlobals_rules (nc : Nc) (o : Obj) (l : List Str) : ∀ f, writeGlobals { env with rules := R } nc o l f = writeGlobals env nc o l f := by
  induction l with
  | nil => intro f; rfl
  | cons k l ih =>
    intro f
    unfold writeGlobals
    cases h1 : o.getAttr k with
    | error e => rfl
    | ok v =>
      simp only
      rw [show pyStr { env with rules := R } v = pyStr env v from rfl]
      cases h2 : putAttr nc f.attrs (k.drop 7) (pyStr env v) with
      | error e => rfl
      | ok a => exact ih _

theorem varAttrs_rules (nc : Nc) (o : Obj) (n : Nat) (l : List Str) : ∀ d, varAttrs { env with rules := R } nc o n l d = varAttrs env nc o n l d := by
  induction l with
  | nil => intro f; rfl
  | cons k l ih =>
    intro d
    unfold varAttrs
    cases h1 : o.getAttr k with
    | error e => rfl
    | ok v =>
      simp only
      rw [show pyStr { env with rules := R } v = pyStr env v from rfl]
      cases h2 : putAttr nc d (k.drop n) (pyStr env v) with
      | error e => rfl
      | ok a => exact ih _

theorem writeVariable_rules (nc : Nc) (o : Obj) (c : Nat) (key dtype dims : Str) (S : Nat) (v : Val) (f : NcFile) :
    writeVariable { env with rules := R } nc o c key dtype dims S v f = writeVariable env nc o c key dtype dims S v f := by
  unfold writeVariable
  simp only [netcdfData_rules, varAttrs_rules]

theorem writeKeys_rules (nc : Nc) (o : Obj) (c : Nat) (l : List Str) : ∀ f,
    writeKeys { env with rules := R } nc o c l f = writeKeys env nc o c l f := by
  induction l with
  | nil => intro f; rfl
  | cons k l ih =>
    intro f
    have : writeKey { env with rules := R } nc o c k f = writeKey env nc o c k f := by
      unfold writeKey
      simp only [writeVariable_rules]
    unfold writeKeys
    simp only [this, ih]

theorem writeFile_rules : writeFile { env with rules := R } = writeFile env := by
  funext nc o c
  unfold writeFile
  simp only [writeGlobals_rules, writeKeys_rules]

end

/-- two installations whose tables give the same answers -/
structure SameTables (env env' : Env) : Prop where
  rest : env' = { env with aliases := env'.aliases, deprecations := env'.deprecations, upgrade := env'.upgrade }
  aliases : ∀ k, Dict.get? env'.aliases k = Dict.get? env.aliases k
  deprecations : ∀ k, Dict.get? env'.deprecations k = Dict.get? env.deprecations k
  upgrades : ∀ k, Dict.get? env'.upgrade k = Dict.get? env.upgrade k

theorem Relisted.sameTables {env env' : Env} (h : Spec.Relisted env env') : SameTables env env' :=
  ⟨h.rest, get?_perm_nodup h.aliases h.different.1, get?_perm_nodup h.deprecations h.different.2.1,
    get?_perm_nodup h.upgrade h.different.2.2⟩

namespace SameTables
variable {env env' : Env}

theorem pyStr (h : SameTables env env') (v : Val) : Sofar.pyStr env' v = Sofar.pyStr env v := by
  rw [h.rest]; rfl

theorem load (h : SameTables env env') (c : Str) (v : VersionArg) : loadConvention env' c v = loadConvention env c v := by
  rw [h.rest]; rfl

theorem known (h : SameTables env env') (v c : Str) : verifyConvention env' v c = verifyConvention env v c := by
  rw [h.rest]; rfl

theorem reset (h : SameTables env env') : resetConvention env' = resetConvention env := by
  funext o
  unfold resetConvention
  simp only [h.pyStr, h.load, h.known]

theorem unitsOk (h : SameTables env env') : ∀ t r, Sofar.unitsOk env'.aliases t r = Sofar.unitsOk env.aliases t r
  | [], _ => by simp [Sofar.unitsOk]
  | _ :: _, [] => by simp [Sofar.unitsOk]
  | t :: ts, r :: rs => by simp only [Sofar.unitsOk, h.aliases, h.unitsOk ts rs]

theorem value (h : SameTables env env') : verifyValue env'.aliases = verifyValue env.aliases := by
  funext v ref k
  unfold verifyValue verifyUnit
  simp only [h.unitsOk]

theorem specific (h : SameTables env env') : specificRule env' = specificRule env := by
  funext o k t item
  unfold specificRule
  simp only [h.value, h.pyStr]

theorem rule (h : SameTables env env') : ruleKey env' = ruleKey env := by
  funext o p
  unfold ruleKey
  simp only [h.value, h.pyStr, h.specific]

theorem rules (h : SameTables env env') : phaseRules env' = phaseRules env := by
  funext o mode
  have h1 : env'.rules = env.rules := by rw [h.rest]
  have h2 : phaseUnits env' o mode = phaseUnits env o mode := by rw [h.rest]; rfl
  unfold phaseRules
  simp only [h.rule, h1, h2]

theorem deprecated (h : SameTables env env') : phaseDeprecations env' = phaseDeprecations env := by
  funext o mode
  have h1 : ∀ v, preliminaryText env' v = preliminaryText env v := fun v => by rw [h.rest]; rfl
  unfold phaseDeprecations deprecationText
  simp only [h.deprecations, h1]

theorem verifyG (h : SameTables env env') {inner : Env → Obj → Inner} (hi : inner env' = inner env) :
    Sofar.verifyG inner env' = Sofar.verifyG inner env := by
  funext o ih mode
  have h1 : ∀ o keys, phaseTypes env' o keys = phaseTypes env o keys := fun o keys => by rw [h.rest]; rfl
  unfold Sofar.verifyG verifyBody verifyTail
  simp only [h.reset, hi, h1, h.rules, h.deprecated]

theorem create (h : SameTables env env') : initSofa env' = initSofa env := by
  funext c m ver a
  have h1 : verifyNew env' = verifyNew env := h.verifyG (inner := fun _ _ => _) rfl
  have h2 : ∀ m o, conventionToSofa env' m o = conventionToSofa env m o := fun m o => by rw [h.rest]; rfl
  unfold initSofa finishInit
  simp only [h.load, h1, h2]

theorem reference (h : SameTables env env') : referenceNames env' = referenceNames env := by
  funext o
  unfold referenceNames
  simp only [h.create]

theorem verify (h : SameTables env env') : Sofar.verify env' = Sofar.verify env := h.verifyG h.reference

theorem addMissing (h : SameTables env env') : Sofar.addMissing env' = Sofar.addMissing env := by
  funext o m opt vb
  unfold Sofar.addMissing
  simp only [h.reset]

theorem getDimension (h : SameTables env env') : Sofar.getDimension env' = Sofar.getDimension env := by
  funext o d
  unfold Sofar.getDimension updateDimensions
  simp only [h.verify]

theorem listDimensions (h : SameTables env env') : Sofar.listDimensions env' = Sofar.listDimensions env := by
  funext o
  unfold Sofar.listDimensions updateDimensions
  simp only [h.verify]

theorem inspect (h : SameTables env env') : Sofar.inspect env' = Sofar.inspect env := by
  funext o file ih
  unfold Sofar.inspect
  rw [h.verify, h.rest]
  rfl

theorem write (h : SameTables env env') : writeSofa env' = writeSofa env := by
  funext nc fs name o c
  have h1 : writeFile env' = writeFile env := by rw [h.rest, writeFile_tables]
  have h2 : checkLatest env' = checkLatest env := by
    funext o
    unfold checkLatest
    simp only [h.create]
  unfold writeSofa writeSofaG writeDisk
  simp only [h1, h2, h.verify]

theorem read (h : SameTables env env') : readSofa env' = readSofa env := by
  funext nc fs name a vb
  unfold readSofa verifyRead
  simp only [h.known, h.create, h.verify]

theorem upgrade (h : SameTables env env') : upgradeConvention env' = upgradeConvention env := by
  funext o t a
  have ho : ∀ c v, isOutdated env' c v = isOutdated env c v := fun c v => by
    unfold isOutdated Dict.has
    simp only [h.deprecations, h.upgrades]
  have hd : ∀ d, defaultText env' d = defaultText env d := fun d => by rw [h.rest]; rfl
  unfold upgradeConvention upgradeTo upgradeData upgradeVerify
  simp only [h.reset, h.pyStr, ho, h.upgrades, h.load, hd, h.addMissing, h.verify]

theorem complete (h : SameTables env env') : completeSofa env' = completeSofa env := by
  funext c
  unfold completeSofa
  simp only [h.create, h.verify]

theorem step (h : SameTables env env') : Sofar.step env' = Sofar.step env := by
  funext o op
  cases op with
  | addMissing m opt vb => simp only [Sofar.step, h.addMissing]
  | verify ih mode => simp only [Sofar.step, h.verify]
  | getDimension d => simp only [Sofar.step, h.getDimension]
  | _ => rfl

theorem exec (h : SameTables env env') : Sofar.exec env' = Sofar.exec env := by
  funext nc s prog
  have : execStmt env' nc = execStmt env nc := by
    funext s st
    cases st <;> simp only [execStmt, h.create, h.read, h.step, h.upgrade, h.write]
  unfold Sofar.exec
  rw [this]

end SameTables

/-! ## Rules in another order -/

theorem verify_raise_none {env : Env} {o : Obj} {mode : Mode} {r : Option Str} (h : (verify env o .raise mode).out = .ok r) :
    r = none := ((verifyG_raise_ok_iff _ _ _ _ _).1 h).1

section
variable {env : Env} {R : List (Str × Rule)} (hR : ∀ r, r ∈ R ↔ r ∈ env.rules)
include hR

theorem relisted_verify {o : Obj} {mode : Mode} : (verify { env with rules := R } o .raise mode).out = .ok none ↔
    (verify env o .raise mode).out = .ok none := by
  have h1 := single_verify env o mode R
  have h2 := single_verify env o mode env.rules
  refine h1.trans (Iff.trans ?_ h2.symm)
  simp only [hR]

theorem relisted_obj {o : Obj} {mode : Mode} (h : (verify env o .raise mode).out = .ok none) :
    (verify { env with rules := R } o .raise mode).obj = (verify env o .raise mode).obj :=
  verifyG_obj_rules _ _ env R env.rules o mode ((relisted_verify hR).2 h) h

theorem relisted_create {c : Str} {m : Bool} {ver : VersionArg} {a : VerifyArg} {o : Obj} :
    (initSofa { env with rules := R } c m ver a).out = .ok o ↔ (initSofa env c m ver a).out = .ok o := by
  have h1 := single_initSofa env c m ver a o R
  have h2 := single_initSofa env c m ver a o env.rules
  refine h1.trans (Iff.trans ?_ h2.symm)
  simp only [hR]

theorem relisted_latest {o : Obj} (hl : (checkLatest env o).1 = .ok ()) :
    (checkLatest { env with rules := R } o).1 = .ok () := by
  unfold checkLatest at hl ⊢
  cases e1 : o.getAttr (py% "GLOBAL_SOFAConventions") with
  | error x => simp [e1] at hl
  | ok c =>
    simp only [e1] at hl ⊢
    by_cases e0 : c.asStr = some (py% "invalid-value")
    · simp [e0]
    · rw [if_neg e0] at hl ⊢
      cases e2 : c.asStr with
      | none => simp [e2] at hl
      | some s =>
        simp only [e2] at hl ⊢
        cases e3 : (initSofa env s false .latest .auto).out with
        | error x => simp [e3] at hl
        | ok n =>
          simp only [e3] at hl
          simp only [(relisted_create hR).2 e3]
          cases e4 : n.getAttr (py% "GLOBAL_SOFAConventionsVersion") with
          | error x => simp [e4] at hl
          | ok l =>
            simp only [e4] at hl ⊢
            cases e5 : o.getAttr (py% "GLOBAL_SOFAConventionsVersion") with
            | error x => simp [e5] at hl
            | ok v =>
              simp only [e5] at hl ⊢
              split at hl
              · split at hl
                · simp at hl
                · split at hl
                  · simp at hl
                  · simp_all
              · simp_all

theorem relisted_write {nc : Nc} {fs : FS} {name : Str} {o : Obj} {c : Nat} (h : (writeSofa env nc fs name o c).out = .ok ()) :
    (writeSofa { env with rules := R } nc fs name o c).out = .ok () ∧
    (writeSofa { env with rules := R } nc fs name o c).obj = (writeSofa env nc fs name o c).obj ∧
    (writeSofa { env with rules := R } nc fs name o c).fs = (writeSofa env nc fs name o c).fs := by
  have hw : writeFile { env with rules := R } = writeFile env := writeFile_rules
  unfold writeSofa writeSofaG at h ⊢
  cases e1 : withSuffix name with
  | error x => simp [e1] at h
  | ok path =>
    simp only [e1, if_true] at h ⊢
    cases e2 : (checkLatest env o).1 with
    | error x => simp [e2] at h
    | ok _ =>
      simp only [e2] at h ⊢
      simp only [relisted_latest hR e2]
      cases e3 : (verify env o .raise .write).out with
      | error x => simp [e3] at h
      | ok r =>
        have e4 : r = none := verify_raise_none e3
        subst e4
        simp only [e3] at h ⊢
        simp only [(relisted_verify hR).2 e3, relisted_obj hR e3]
        unfold writeDisk at h ⊢
        rw [hw]
        exact ⟨h, trivial, rfl⟩

theorem relisted_read {nc : Nc} {fs : FS} {name : Str} {a : VerifyArg} {vb : Bool} {o : Obj}
    (h : (readSofa env nc fs name a vb).out = .ok o) : (readSofa { env with rules := R } nc fs name a vb).out = .ok o := by
  have hk : ∀ v c, verifyConvention { env with rules := R } v c = verifyConvention env v c := fun _ _ => rfl
  have hg : ∀ {p q : Obj} {v : Str}, (verifyRead env p v a).out = .ok q → (verifyRead { env with rules := R } p v a).out = .ok q := by
    intro p q v hq
    unfold verifyRead at hq ⊢
    cases e3 : (verify env p .raise .read).out with
    | error x =>
      cases a with
      | yes => simp [e3] at hq
      | no => simpa using hq
      | auto =>
        cases e : isStable v with
        | error x => simp [e] at hq
        | ok b =>
          cases b with
          | true => simp [e, e3] at hq
          | false => simpa [e] using hq
    | ok r =>
      have e4 : r = none := verify_raise_none e3
      subst e4
      have e5 := (relisted_verify hR).2 e3
      have e6 := relisted_obj hR e3
      cases a with
      | yes => simp only [e3, if_true] at hq; simp only [e5, e6, if_true]; exact hq
      | no => simpa using hq
      | auto =>
        cases e : isStable v with
        | error x => simp [e] at hq
        | ok b =>
          cases b with
          | true => simp only [e, e3, if_true] at hq; simp only [e5, e6, if_true]; exact hq
          | false => simpa [e] using hq
  unfold readSofa at h ⊢
  simp only [hk]
  cases e1 : openFile fs name with
  | error x => simp [e1] at h
  | ok f =>
    simp only [e1] at h ⊢
    cases e2 : fileAttr f (py% "SOFAConventions") with
    | error x => simp [e2] at h
    | ok c =>
      simp only [e2] at h ⊢
      cases e3 : fileAttr f (py% "SOFAConventionsVersion") with
      | error x => simp [e3] at h
      | ok v =>
        simp only [e3] at h ⊢
        cases e4 : c.asStr with
        | none => simp [e4] at h
        | some c' =>
          cases e5 : v.asStr with
          | none => simp [e4, e5] at h
          | some v' =>
            simp only [e4, e5] at h ⊢
            cases e6 : verifyConvention env v' c' with
            | error x => simp [e6] at h
            | ok _ =>
              simp only [e6] at h ⊢
              cases e7 : (initSofa env c' false (.exact v') a).out with
              | error x => simp [e7] at h
              | ok new =>
                simp only [e7] at h
                simp only [(relisted_create hR).2 e7]
                cases e8 : (loadFile nc f new vb).out with
                | error x => simp [e8] at h
                | ok p =>
                  simp only [e8] at h ⊢
                  exact hg h

end

end Sofar
