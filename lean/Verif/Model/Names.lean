import Verif.Model.Session
/-!
# Sessions in which several names refer to the same object

In Python, `x = y` makes `x` another name of the object of `y`. The sessions of Model/Session.lean do not contain such
statements. Here, names refer to objects in memory.
-/
namespace Sofar

/-- One statement: a statement of a session (see `Stmt`), or `x = y` for an object of the class of sofar/sofa.py:15-1836. -/
inductive NStmt where
  | plain (st : Stmt)
  | same (x y : Str)

/-- The address of the object of every name, the objects by address (created by sofar/sofa.py:92-131), and the disk. Objects
are never removed. -/
structure Names where
  refs : Dict Nat
  objs : List Obj
  fs : FS

/-- The object of a name (an instance of sofar/sofa.py:15-1836). -/
def Names.get (s : Names) (x : Str) : Option Obj :=
  match Dict.get? s.refs x with
  | some r => s.objs[r]?
  | none => none

/-- `x = f(...)` with a new object at a new address; nothing is assigned if the call raises (calls of sofar/sofa.py:92-131,
1623-1625 and sofar/io.py:13-109) -/
def Names.assign (s : Names) (x : Str) : Except Exc Obj → Names
  | .ok o => { s with refs := Dict.put s.refs x s.objs.length, objs := s.objs ++ [o] }
  | .error _ => s

/-- A method changes the object at its address (methods of sofar/sofa.py:133-894). -/
def Names.modify (s : Names) (x : Str) (f : Obj → Obj) : Names :=
  match Dict.get? s.refs x with
  | some r => { s with objs := s.objs.modify r f }
  | none => s

/-- Execution of one statement, the calls are cited at `Stmt`. (sofar/io.py:13-256, sofar/sofa.py:92-894, 1623-1625) -/
def execName (env : Env) (nc : Nc) (s : Names) : NStmt → Names
  | .plain (.create x c m v a) => s.assign x (initSofa env c m v a).out
  | .plain (.read x fn a vb) => s.assign x (readSofa env nc s.fs fn a vb).out
  | .plain (.readNetcdf x fn) => s.assign x (readAsNetcdf nc s.fs fn).out
  | .plain (.copy x y) =>
    match s.get y with
    | some o => s.assign x (.ok o)
    | none => s
  | .plain (.call x op) => s.modify x (fun o => step env o op)
  | .plain (.upgrade x t a) => s.modify x (fun o => (upgradeConvention env o t a).obj)
  | .plain (.write fn x c) =>
    match s.get x with
    | some o =>
      let w := writeSofa env nc s.fs fn o c
      { s.modify x (fun _ => w.obj) with fs := w.fs }
    | none => s
  | .same x y =>
    match Dict.get? s.refs y with
    | some r => { s with refs := Dict.put s.refs x r }
    | none => s

/-- Execution of a program, see `execName` (sofar/io.py:13-256, sofar/sofa.py:92-894) -/
def execNames (env : Env) (nc : Nc) (s : Names) (prog : List NStmt) : Names := prog.foldl (execName env nc) s

end Sofar
