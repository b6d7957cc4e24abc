import Verif.Model.Init
/-!
# A small set of conventions and objects for the non-vacuity examples
-/
namespace Sofar

/-- attribute entry of a convention -/
def exAttr (flags : Str) (default : Str) : Entry := ⟨some flags, none, py% "attribute", .val (.str default), []⟩

/-- list of numbers -/
def exNums (kind : Kind) (shape : List Nat) (l : List Int) : Arr := ⟨kind, shape, l.map (fun (i : Int) => .num (.fin (i : Rat)))⟩

/-- a convention in the style of the SOFA conventions -/
def exConvention (version : Str) : Dict Entry :=
  [(py% "GLOBAL:Conventions", exAttr (py% "rm") (py% "SOFA")),
   (py% "GLOBAL:SOFAConventions", exAttr (py% "rm") (py% "FIR")),
   (py% "GLOBAL:SOFAConventionsVersion", exAttr (py% "rm") version),
   (py% "GLOBAL:DataType", exAttr (py% "rm") (py% "FIR")),
   (py% "GLOBAL:DateCreated", exAttr (py% "m") []),
   (py% "GLOBAL:DateModified", exAttr (py% "m") []),
   (py% "GLOBAL:APIName", exAttr (py% "rm") []),
   (py% "GLOBAL:APIVersion", exAttr (py% "rm") []),
   (py% "GLOBAL:ApplicationName", ⟨none, none, py% "attribute", .val (.str []), []⟩),
   (py% "GLOBAL:ApplicationVersion", ⟨none, none, py% "attribute", .val (.str []), []⟩),
   (py% "GLOBAL:Comment", ⟨none, none, py% "attribute", .val (.str []), []⟩),
   (py% "SourcePosition", ⟨some (py% "m"), some (py% "IC, MC"), py% "double",
     .list (exNums .i [3] [0, 0, 1]), []⟩),
   (py% "SourcePosition:Units", exAttr (py% "m") (py% "degree, degree, metre")),
   (py% "Names", ⟨none, some (py% "rS"), py% "string", .list ⟨.U, [2, 1], [.str (py% "left"), .str (py% "right")]⟩, []⟩),
   (py% "Data.IR", ⟨some (py% "m"), some (py% "mRn"), py% "double",
     .list (exNums .i [1, 2, 3] [1, 2, 3, 4, 5, 6]), []⟩)]

/-- convention files, rules and aliases -/
def exEnv : Env where
  files := [⟨py% "FIR_1.0.json", exConvention (py% "1.0")⟩, ⟨py% "FIR_0.9.json", exConvention (py% "0.9")⟩]
  rules := [(py% "SourcePosition:Units", ⟨some [py% "degree, degree, metre"], [py% "SourcePosition"], none⟩),
            (py% "GLOBAL:DataType", ⟨some [py% "FIR", py% "TF"], [],
              some [(py% "FIR", [.dep (py% "Data.IR") none, .dims [(py% "C", [3], py% "3")]])]⟩)]
  aliases := [(py% "degree", py% "degree"), (py% "degrees", py% "degree"), (py% "metre", py% "metre"),
              (py% "metres", py% "metre"), (py% "meter", py% "metre")]
  deprecations := [(py% "OLD", py% "FIR")]
  upgrade := []
  now := py% "2026-01-01 00:00:00"
  apiVersion := py% "1"
  appVersion := py% "3"
  fmt := fun _ => []
  typeName := fun _ => []
  dtypeName := fun _ => []
  rnd := id

/-- a new object -/
def exSofa : Obj :=
  match (initSofa exEnv (py% "FIR") false .latest .auto).out with
  | .ok o => o
  | .error _ => emptyObj []


end Sofar
