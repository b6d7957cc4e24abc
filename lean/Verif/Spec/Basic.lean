import Verif.Model.Core
import Mathlib.Data.List.Forall2
/-!
# Vocabulary of the specifications

These definitions do not refer to the modelled functions, only to the data types.
-/
namespace Sofar.Spec

/-- The elements of a value in row-major order. -/
def elems : Val → List Elem
  | .str s => [.str s]
  | .npstr s => [.str s]
  | .num _ e => [e]
  | .arr a => a.data
  | .dict => []
  | .obj t => [.obj t]

/-- Not an array. -/
def IsScalar : Val → Prop
  | .arr _ => False
  | .dict => False
  | _ => True

/-- Two shapes agree up to singleton dimensions. -/
def SameUpToOnes (s t : List Nat) : Prop := s.filter (· ≠ 1) = t.filter (· ≠ 1)

/-- `name` is data of the object. -/
def IsData (o : Obj) (name : Str) : Prop := name ∈ o.attrs.map Prod.fst

/-- The keys of all dictionaries are unique, as in every Python dictionary. -/
structure WF (o : Obj) : Prop where
  attrs : (o.attrs.map Prod.fst).Nodup
  conv : (o.conv.map Prod.fst).Nodup
  custom : ∀ c, o.custom = some c → (c.map Prod.fst).Nodup

/-- Dimensions of custom data: standard letters in upper case, all other letters in lower case. -/
def CustomLetters (given stored : Str) : Prop :=
  stored = given.map (fun c => if Str.upperC c ∈ py% "ERMNCIS" then Str.upperC c else Str.lowerC c)

end Sofar.Spec

namespace Sofar.Spec

/-- The elements of a value that is passed to an object. -/
def inpElems : Inp → List Elem
  | .val v => elems v
  | .pybool b => [.num (.fin (if b then 1 else 0))]
  | .list a => a.data
  | .ragged => []

/-- The shape of an array with at least `letters` axes: a single axis becomes the second one if there are two or more
axes, and singleton axes are appended at the end. -/
def withAxes (letters : Nat) (shape : List Nat) : List Nat :=
  let s := if 2 ≤ letters ∧ shape.length = 1 then 1 :: shape else shape
  s ++ List.replicate (letters - s.length) 1

/-- `v` is the default value of a convention entry as it is contained in a new object: lists become arrays with the
same elements, with at least as many axes as the convention prescribes (`letters` is the length of the first
alternative). -/
def DefaultOf (e : Entry) (letters : Nat) (v : Val) : Prop :=
  match e.default with
  | .val w => v = w
  | .pybool b => v = .num .b (.num (.fin (if b then 1 else 0)))
  | .list a => v = .arr { a with shape := withAxes letters a.shape }
  | .ragged => False

/-- The names of the entries that hold API and date stamps. -/
def stampNames : List Str :=
  [py% "GLOBAL_DateCreated", py% "GLOBAL_DateModified", py% "GLOBAL_APIName", py% "GLOBAL_APIVersion",
   py% "GLOBAL_ApplicationName", py% "GLOBAL_ApplicationVersion"]

/-- The convention flags an entry as mandatory. -/
def IsMandatory (e : Entry) : Prop := ∃ f, e.flags = some f ∧ 'm' ∈ f

/-- `a` is a lower version than `b` (missing components count as zero). -/
def VersionLt (a b : List Nat) : Prop :=
  ∃ i : Nat, (∀ j < i, a.getD j 0 = b.getD j 0) ∧ a.getD i 0 < b.getD i 0

end Sofar.Spec

namespace Sofar.Spec

/-- The number written with decimal digits. -/
def Digits (s : Str) (n : Nat) : Prop :=
  s ≠ [] ∧ (∀ c ∈ s, 48 ≤ c.toNat ∧ c.toNat ≤ 57) ∧ n = s.foldl (fun a c => a * 10 + (c.toNat - 48)) 0

/-- A version as numbers, e.g. `1.10` is `[1, 10]`. -/
def VersionNumbers (v : Str) (l : List Nat) : Prop :=
  ∃ parts, parts ≠ [] ∧ v = Str.join (py% ".") parts ∧ List.Forall₂ Digits parts l

/-- The value of data after an assignment: texts, numbers and arrays are kept, lists with one element become a scalar, all
other lists become an array with two or more axes; elements and their order are kept. -/
def StoredAs : Inp → Val → Prop
  | .val v, w => w = v
  | .pybool b, w => w = .num .b (.num (.fin (if b then 1 else 0)))
  | .list a, w => a.WF → elems w = a.data ∧ (a.data.length = 1 → IsScalar w) ∧
      (a.data.length ≠ 1 → ∃ b, w = .arr b ∧ b.kind = a.kind ∧ 2 ≤ b.shape.length ∧
        SameUpToOnes b.shape a.shape ∧ (2 ≤ a.shape.length → b.shape = a.shape))
  | .ragged, _ => False

/-- `base` is the name of the file of a convention and version, e.g. `FreeFieldDirectivityTF_1.1.json`. -/
def FileOf (base name version : Str) : Prop :=
  base = name ++ '_' :: (version ++ py% ".json") ∧ '_' ∉ name ∧ '_' ∉ version

/-- A version `major.minor` with a single digit after the dot. -/
def SimpleVersion (v : Str) (major minor : Nat) : Prop :=
  ∃ a c, v = a ++ ['.', c] ∧ Str.digits? a = some major ∧ Str.digit? c = some minor

/-- A version with one dot between decimal digits, and the number that it denotes when read as decimal number. -/
def DecimalVersion (v : Str) (q : Rat) : Prop :=
  ∃ a b m n, v = a ++ '.' :: b ∧ Str.digits? a = some m ∧ Str.digits? b = some n ∧ q = m + n / 10 ^ b.length

end Sofar.Spec
