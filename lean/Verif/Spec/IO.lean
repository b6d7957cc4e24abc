import Verif.Spec.Equals
import Verif.Model.NetCDF
/-!
# Vocabulary for files

Only the data types of the netCDF model are used, none of its functions.
-/
namespace Sofar.Spec

/-- Name of a variable of a file in the object, e.g. `Data.IR` becomes `Data_IR`. -/
def dotName (n : Str) : Str := n.map (fun c => if c = '.' then '_' else c)

/-- Names of the data in a file: global attributes, variables, and attributes of variables (except for the technical
attribute `_Encoding`). -/
inductive InFile (f : NcFile) : Str → Prop
  | globalAttribute (a : Str) (v : Val) (h : (a, v) ∈ f.attrs) : InFile f (py% "GLOBAL_" ++ a)
  | variableData (n : Str) (x : NcVar) (h : (n, x) ∈ f.vars) : InFile f (dotName n)
  | variableAttribute (n : Str) (x : NcVar) (a : Str) (v : Val) (h : (n, x) ∈ f.vars) (ha : (a, v) ∈ x.attrs)
      (hs : a ≠ py% "_Encoding") : InFile f (dotName n ++ '_' :: a)

end Sofar.Spec

namespace Sofar.Spec

/-- Missing data: masked, or the number that marks missing data of this type. -/
def Missing (isFill : Kind → Num → Bool) (k : Kind) (e : Elem) : Prop :=
  e = .masked ∨ ∃ x, e = .num x ∧ isFill k x = true

/-- A path: names of folders and a file without slashes; neither empty nor a dot. -/
def PlainName (n : Str) : Prop := n ≠ [] ∧ n ≠ py% "." ∧ '/' ∉ n

/-- A path from its names; absolute paths start with a slash. -/
def location (absolute : Bool) (names : List Str) : Str :=
  (if absolute then py% "/" else []) ++ Str.join (py% "/") names

/-- The names in a path: the text between the slashes, without empty names and dots. -/
def NamesIn (filename : Str) (names : List Str) : Prop :=
  ∃ pieces, pieces ≠ [] ∧ (∀ p ∈ pieces, '/' ∉ p) ∧ filename = Str.join (py% "/") pieces ∧
    names = pieces.filter (fun p => p ≠ [] ∧ p ≠ py% ".")

/-- `stem` is the name without its ending. The ending starts at the last dot, unless this is the first or the last
character. -/
def StemOf (name stem : Str) : Prop :=
  (∃ ending, name = stem ++ '.' :: ending ∧ stem ≠ [] ∧ ending ≠ [] ∧ '.' ∉ ending) ∨
  (stem = name ∧ ∀ s ending, name = s ++ '.' :: ending → '.' ∉ ending → s = [] ∨ ending = [])

/-- The path of the SOFA file for a file name: the ending of the last name is replaced by `.sofa`. -/
def FileFor (filename path : Str) : Prop :=
  ∃ dir name stem, NamesIn filename (dir ++ [name]) ∧ StemOf name stem ∧
    path = location (decide (filename.head? = some '/')) (dir ++ [stem ++ py% ".sofa"])

end Sofar.Spec

namespace Sofar.Spec

/-- Elements after reading: missing data is masked, everything else is the same. -/
def MaskedAs (isFill : Kind → Num → Bool) (k : Kind) : List Elem → List Elem → Prop :=
  List.Forall₂ (fun x y => (Missing isFill k x → y = .masked) ∧ (¬ Missing isFill k x → y = x))

/-- Text is stored as single characters, with NUL at the end of texts with less than `width` characters. -/
def CharsOf (width : Nat) (texts chars : List Elem) : Prop :=
  ∃ l : List Str, texts = l.map .str ∧ (∀ t ∈ l, t.length ≤ width) ∧
    chars = (l.map (fun t => (t ++ List.replicate (width - t.length) (Char.ofNat 0)).map (fun c => .str [c]))).flatten

/-- What the netCDF format guarantees: the number of elements fits to the shape, and variables hold numbers or
characters. -/
def ProperFile (f : NcFile) : Prop :=
  ∀ n x, (n, x) ∈ f.vars → x.data.data.length = x.data.shape.foldr (· * ·) 1 ∧
    (x.data.kind = .S → ∀ e ∈ x.data.data, ∃ c, e = .str [c])

/-- The value `w` of the entry `k` was taken from the file. -/
inductive ValueInFile (isFill : Kind → Num → Bool) (f : NcFile) (k : Str) (w : Val) : Prop
  | globalAttribute (a : Str) (h : (a, w) ∈ f.attrs) (hk : k = py% "GLOBAL_" ++ a)
  | numbers (n : Str) (x : NcVar) (h : (n, x) ∈ f.vars) (hk : k = dotName n) (hn : x.data.kind ≠ .S)
      (hs : SameUpToOnes (shapeOf w) x.data.shape) (he : MaskedAs isFill x.data.kind x.data.data (elems w))
  | text (n : Str) (x : NcVar) (s : List Nat) (width : Nat) (h : (n, x) ∈ f.vars) (hk : k = dotName n)
      (hn : x.data.kind = .S) (hd : x.data.shape = s ++ [width]) (hs : SameUpToOnes (shapeOf w) s)
      (he : CharsOf width (elems w) x.data.data)
  | variableAttribute (n : Str) (x : NcVar) (a : Str) (h : (n, x) ∈ f.vars) (ha : (a, w) ∈ x.attrs)
      (hk : k = dotName n ++ '_' :: a) (hs : a ≠ py% "_Encoding")

end Sofar.Spec

namespace Sofar.Spec

/-- The entry is a variable, i.e., neither a global attribute nor the attribute of a variable. -/
def IsVariable (o : Obj) (k : Str) (v : Val) (e : Entry) : Prop :=
  Dict.get? o.attrs k = some v ∧ Dict.get? o.conv k = some e ∧ e.typ ≠ py% "attribute"

/-- The entry is an attribute. -/
def IsAttribute (o : Obj) (k : Str) (v : Val) : Prop :=
  Dict.get? o.attrs k = some v ∧ ∃ e, Dict.get? o.conv k = some e ∧ e.typ = py% "attribute"

/-- Global attributes, and attributes of variables that are contained in the object. -/
def Attached (o : Obj) (k : Str) : Prop :=
  (py% "GLOBAL_") <+: k ∨ ∃ x a v e, k = x ++ '_' :: a ∧ IsVariable o x v e

/-- Objects that can be stored without loss. -/
structure Storable (rnd : Rat → Rat) (isFill : Kind → Num → Bool) (o : Obj) : Prop where
  /-- ordinary names without dots -/
  names : ∀ k, IsData o k → OrdinaryName k ∧ '.' ∉ k ∧ ¬ (py% "__Encoding") <:+ k
  /-- no variable looks like the attribute of another variable, or like a global attribute -/
  separate : ∀ k v e, IsVariable o k v e → ¬ (py% "GLOBAL_") <+: k ∧
    ∀ x w ex, IsVariable o x w ex → ¬ (x ++ py% "_") <+: k
  /-- attributes belong to something and contain no NUL characters -/
  attributes : ∀ k v, IsAttribute o k v → Attached o k ∧ ∀ t, text v = some t → Char.ofNat 0 ∉ t
  /-- variables are not empty and have at most as many dimensions as the convention prescribes -/
  shapes : ∀ k v e, IsVariable o k v e → Proper v ∧ elems v ≠ [] ∧
    ∃ d n, e.dims = some d ∧ UniformDims d n ∧ 1 ≤ n ∧ (shapeOf v).length ≤ n
  /-- numbers are not mistaken for missing data, and integers have an accurate floating point representation -/
  doubles : ∀ k v e, IsVariable o k v e → e.typ = py% "double" →
    (∀ d alt, e.dims = some d → IsAlternative d alt → 'S' ∉ alt) ∧
    (∀ x, kindOf v = .f → .num x ∈ elems v → isFill .f x = false) ∧
    (∀ x, kindOf v ≠ .f → .num x ∈ elems v → ∃ q, x = .fin q ∧ isFill .f (.fin (rnd q)) = false ∧
      Close (.num (.fin q)) (.num (.fin (rnd q))))
  /-- the last dimension of text is the number of characters, and there is some text -/
  strings : ∀ k v e, IsVariable o k v e → e.typ = py% "string" →
    (∀ d alt, e.dims = some d → IsAlternative d alt → ∃ a, alt = a ++ py% "S" ∧ 'S' ∉ a) ∧
    ∃ k' v' e' s, IsVariable o k' v' e' ∧ e'.typ = py% "string" ∧ .str s ∈ elems v' ∧ s ≠ []

end Sofar.Spec

namespace Sofar.Spec

/-- The object holds the text `t` under the given name. -/
def HasText (o : Obj) (k t : Str) : Prop := ∃ w, Dict.get? o.attrs k = some w ∧ text w = some t

/-- The data of a new object names its convention and version, and all of it is listed in the convention. -/
structure DescribesItself (c v : Str) (o : Obj) : Prop where
  name : HasText o (py% "GLOBAL_SOFAConventions") c
  version : HasText o (py% "GLOBAL_SOFAConventionsVersion") v
  listed : ∀ k, IsData o k → k ∈ o.conv.map Prod.fst

end Sofar.Spec

namespace Sofar.Spec

/-- All names are accepted by the netCDF library. -/
structure AcceptedNames (nc : Nc) (o : Obj) : Prop where
  /-- the dimensions C, I, S, and all others in the convention and in custom data -/
  dims : nc.okName (py% "C") = true ∧ nc.okName (py% "I") = true ∧ nc.okName (py% "S") = true ∧
    ∀ k e d alt c, Dict.get? o.conv k = some e → e.dims = some d → IsAlternative d alt → c ∈ alt →
      nc.okName [Str.upperC c] = true
  /-- the variables -/
  names : ∀ k v e, IsVariable o k v e → ∀ n, dotName n = k → nc.okName n = true
  /-- the attributes, without the name of the variable -/
  attributes : ∀ k v, IsAttribute o k v → ∀ x a, k = x ++ '_' :: a →
    nc.okName a = true ∧ nc.reserved a = false ∧ nc.special a = false

/-- All string variables consist of ASCII characters. -/
def AsciiOnly (o : Obj) : Prop :=
  ∀ k v e, IsVariable o k v e → e.typ = py% "string" → ∀ s, .str s ∈ elems v → ∀ c ∈ s, c.toNat < 128

end Sofar.Spec
