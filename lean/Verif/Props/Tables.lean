import Verif.Lemmas.Tables
import Verif.Props.Example
import Verif.Props.Files
/-!
# C102: the order of the tables for the verification
-/
namespace Sofar

/-- C102: If the aliases of units, the deprecated conventions and the upgrades are listed in another order, all methods give
the same results, objects, texts and warnings. -/
theorem C102_methods (env env' : Env) (h : Spec.Relisted env env') :
    (∀ c m ver a, initSofa env' c m ver a = initSofa env c m ver a) ∧
    (∀ o ih mode, verify env' o ih mode = verify env o ih mode) ∧
    (∀ o m opt vb, addMissing env' o m opt vb = addMissing env o m opt vb) ∧
    (∀ o d, getDimension env' o d = getDimension env o d) ∧
    (∀ o, listDimensions env' o = listDimensions env o) ∧
    (∀ o file ih, inspect env' o file ih = inspect env o file ih) ∧
    ∀ o target a, upgradeConvention env' o target a = upgradeConvention env o target a := by
  have s := Relisted.sameTables h
  rw [s.create, s.verify, s.addMissing, s.getDimension, s.listDimensions, s.inspect, s.upgrade]
  simp

/-- C102: The same holds for reading and writing. -/
theorem C102_files (env env' : Env) (h : Spec.Relisted env env') (nc : Nc) (fs : FS) (name : Str) :
    (∀ o c, writeSofa env' nc fs name o c = writeSofa env nc fs name o c) ∧
    ∀ a vb, readSofa env' nc fs name a vb = readSofa env nc fs name a vb := by
  have s := Relisted.sameTables h
  rw [s.write, s.read]
  simp

/-- C102: Whole programs give the same objects and the same files. -/
theorem C102_programs (env env' : Env) (h : Spec.Relisted env env') (nc : Nc) (s : Machine) (prog : List Stmt) :
    exec env' nc s prog = exec env nc s prog := by
  rw [(Relisted.sameTables h).exec]

/-- C102: If the rules are listed in another order, the same objects pass the verification and look the same afterwards. -/
theorem C102_rules (env : Env) (R : List (Str × Rule)) (hR : R.Perm env.rules) (o : Obj) (mode : Mode) :
    ((verify { env with rules := R } o .raise mode).out = .ok none ↔ (verify env o .raise mode).out = .ok none) ∧
    ((verify env o .raise mode).out = .ok none →
      (verify { env with rules := R } o .raise mode).obj = (verify env o .raise mode).obj) :=
  ⟨relisted_verify fun _ => hR.mem_iff, relisted_obj fun _ => hR.mem_iff⟩

/-- C102: With rules in another order, the same objects can be created and read, and the same files can be written. -/
theorem C102_rules_files (env : Env) (R : List (Str × Rule)) (hR : R.Perm env.rules) :
    (∀ c m ver a o, (initSofa { env with rules := R } c m ver a).out = .ok o ↔ (initSofa env c m ver a).out = .ok o) ∧
    (∀ nc fs name a vb o, (readSofa { env with rules := R } nc fs name a vb).out = .ok o ↔
      (readSofa env nc fs name a vb).out = .ok o) ∧
    ∀ nc fs name o c, ((writeSofa { env with rules := R } nc fs name o c).out = .ok () ↔
        (writeSofa env nc fs name o c).out = .ok ()) ∧
      ((writeSofa env nc fs name o c).out = .ok () →
        (writeSofa { env with rules := R } nc fs name o c).obj = (writeSofa env nc fs name o c).obj ∧
        (writeSofa { env with rules := R } nc fs name o c).fs = (writeSofa env nc fs name o c).fs) := by
  have h1 : ∀ r, r ∈ R ↔ r ∈ env.rules := fun _ => hR.mem_iff
  have h2 : ∀ r, r ∈ env.rules ↔ r ∈ ({ env with rules := R } : Env).rules := fun r => (h1 r).symm
  refine ⟨fun _ _ _ _ _ => relisted_create h1, fun nc fs name a vb o => ⟨fun h => ?_, relisted_read h1⟩,
    fun nc fs name o c => ⟨⟨fun h => ?_, fun h => (relisted_write h1 h).1⟩, fun h => (relisted_write h1 h).2⟩⟩
  · exact relisted_read (env := { env with rules := R }) (R := env.rules) h2 h
  · exact (relisted_write (env := { env with rules := R }) (R := env.rules) h2 h).1

/-- the example with aliases in the other order -/
def exRelisted : Env := { exEnv with aliases := exEnv.aliases.reverse }

example : Spec.Relisted exEnv exRelisted ∧ exRelisted.aliases ≠ exEnv.aliases ∧
    (writeSofa exRelisted exNc exDisk (py% "a") exSofa 4).out.isOk = true :=
  ⟨⟨rfl, List.reverse_perm _, .refl _, .refl _, by decide⟩, by decide, by decide +kernel⟩

/-- the rules of the example in the other order -/
example : exEnv.rules.reverse.Perm exEnv.rules ∧ exEnv.rules.length = 2 ∧
    (verify { exEnv with rules := exEnv.rules.reverse } exSofa .raise .write).out = .ok none ∧
    (writeSofa { exEnv with rules := exEnv.rules.reverse } exNc exDisk (py% "a") exSofa 4).out.isOk = true :=
  ⟨List.reverse_perm _, by decide +kernel, by decide +kernel, by decide +kernel⟩

/-- an object that breaks both rules -/
def exBothBroken : Obj :=
  (setAttr { exSofa with prot := false, readOnly := .names [] } (py% "GLOBAL_DataType") (.val (.str (py% "x")))).obj

/-- Only the text depends on the order: the problems are listed in the order of the rules. -/
theorem C102_order_of_text : ∃ (env : Env) (R : List (Str × Rule)) (o : Obj), R.Perm env.rules ∧
    (verify env o .raise .read).out.isOk = false ∧ (verify { env with rules := R } o .raise .read).out.isOk = false ∧
    (verify env o .raise .read).out ≠ (verify { env with rules := R } o .raise .read).out :=
  ⟨exEnv, exEnv.rules.reverse, (setAttr exBothBroken (py% "SourcePosition_Units") (.val (.str (py% "x")))).obj,
    List.reverse_perm _, by decide +kernel, by decide +kernel, by decide +kernel⟩

end Sofar
