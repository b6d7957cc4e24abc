import Verif.Model.History
import Verif.Model.Upgrade
import Verif.Model.IO
/-!
# Sessions: programs that use several objects and the disk

A session is a sequence of public calls of the library by a program that keeps `Sofa` objects in variables. Exceptions
are caught by the program, which then carries on.
-/
namespace Sofar

/-- One statement of a session. `create`: `x = Sofa(...)` (sofar/sofa.py:92-131), `read`: `x = read_sofa(...)`
(sofar/io.py:13-60), `readNetcdf`: `x = read_sofa_as_netcdf(...)` (sofar/io.py:63-109), `copy`: `x = y.copy()`
(sofar/sofa.py:1623-1625), `call`: a method of `x` (see `Op`), `upgrade`: `x.upgrade_convention(...)`
(sofar/sofa.py:731-894), `write`: `write_sofa(filename, x, compression)` (sofar/io.py:224-256). Simplification: `inspect`
with a file name is not a statement of sessions. -/
inductive Stmt where
  | create (x convention : Str) (onlyMandatory : Bool) (version : VersionArg) (verify : VerifyArg)
  | read (x filename : Str) (verify : VerifyArg) (verbose : Bool)
  | readNetcdf (x filename : Str)
  | copy (x y : Str)
  | call (x : Str) (op : Op)
  | upgrade (x : Str) (target : Option Str) (verify : VerifyArg)
  | write (filename x : Str) (compression : Nat)

/-- The objects of the program by name of the variable (created by sofar/sofa.py:92-131), and the disk. Simplification:
every variable has its own object; `y = x` without `copy` is not modelled here (see Model/Heap.lean). -/
structure Machine where
  vars : Dict Obj
  fs : FS

/-- `x = f(...)`: nothing is assigned if the call raises (calls of sofar/sofa.py:92-131 and sofar/io.py:13-109) -/
def Machine.assign (s : Machine) (x : Str) : Except Exc Obj → Machine
  | .ok o => { s with vars := Dict.put s.vars x o }
  | .error _ => s

/-- A statement that changes the object of a variable in place, whether the call succeeds or raises; a variable that does
not exist is a NameError and changes nothing (methods of sofar/sofa.py:133-894). -/
def Machine.modify (s : Machine) (x : Str) (f : Obj → Obj) : Machine :=
  match Dict.get? s.vars x with
  | some o => { s with vars := Dict.put s.vars x (f o) }
  | none => s

/-- Execution of one statement; the definitions called are cited at `Stmt`. `copy` gives an equal object
(sofar/sofa.py:1623-1625, see `C11_same_data`). (sofar/io.py:13-256) -/
def execStmt (env : Env) (nc : Nc) (s : Machine) : Stmt → Machine
  | .create x c m v a => s.assign x (initSofa env c m v a).out
  | .read x fn a vb => s.assign x (readSofa env nc s.fs fn a vb).out
  | .readNetcdf x fn => s.assign x (readAsNetcdf nc s.fs fn).out
  | .copy x y =>
    match Dict.get? s.vars y with
    | some o => { s with vars := Dict.put s.vars x o }
    | none => s
  | .call x op => s.modify x (fun o => step env o op)
  | .upgrade x t a => s.modify x (fun o => (upgradeConvention env o t a).obj)
  | .write fn x c =>
    match Dict.get? s.vars x with
    | some o =>
      let w := writeSofa env nc s.fs fn o c
      ⟨Dict.put s.vars x w.obj, w.fs⟩
    | none => s

/-- Execution of a session, see `execStmt` (sofar/io.py:13-256, sofar/sofa.py:92-894) -/
def exec (env : Env) (nc : Nc) (s : Machine) (prog : List Stmt) : Machine := prog.foldl (execStmt env nc) s

end Sofar
