import Verif.Model.Heap
/-!
# What can be seen and done in memory

Programs that use objects: they hold the addresses of some objects, follow references, and read or modify what
they can reach. This does not use the model of `copy.deepcopy`.
-/
namespace Sofar.Spec

/-- A step from one object to another: the name of an attribute, the key of a dictionary, or an index. -/
inductive Key where
  | name (s : Str)
  | idx (i : Nat)
deriving DecidableEq

/-- `x.k` or `x[k]` for the object at address `r` -/
def item (h : Heap) (r : Ref) : Key → Option HVal
  | .name s =>
    match h[r]? with
    | some (.inst d) => Dict.get? d s
    | some (.dict d) => Dict.get? d s
    | _ => none
  | .idx i =>
    match h[r]? with
    | some (.list l) => l[i]?
    | _ => none

/-- What is visible of a single value without following references. -/
inductive Leaf where
  | value (v : Val)
  | inst (keys : List Str)
  | dict (keys : List Str)
  | list (length : Nat)
  | array (kind : Kind) (shape : List Nat) (data : List (Option Elem))
  | memory (data : List Elem)
  | nothing
deriving DecidableEq

/-- element number `i` of a buffer -/
def bufElem (h : Heap) (b : Ref) (i : Nat) : Option Elem :=
  match h[b]? with
  | some (.buf data) => data[i]?
  | _ => none

/-- what is visible of a value -/
def leaf (h : Heap) : HVal → Leaf
  | .imm v => .value v
  | .ref r =>
    match h[r]? with
    | some (.inst d) => .inst (Dict.keys d)
    | some (.dict d) => .dict (Dict.keys d)
    | some (.list l) => .list l.length
    | some (.arr k s b idx) => .array k s (idx.map (bufElem h b))
    | some (.buf data) => .memory data
    | none => .nothing

/-- what is visible at the end of a path, e.g. `sofa._convention["Data_IR"]["default"][0]` -/
def see (h : Heap) : HVal → List Key → Leaf
  | v, [] => leaf h v
  | .imm _, _ :: _ => .nothing
  | .ref r, k :: p =>
    match item h r k with
    | none => .nothing
    | some w => see h w p

/-- All addresses that are contained in an object. -/
def refs : HCell → List Ref
  | .inst d => d.filterMap (fun p => match p.2 with | .ref r => some r | .imm _ => none)
  | .dict d => d.filterMap (fun p => match p.2 with | .ref r => some r | .imm _ => none)
  | .list l => l.filterMap (fun v => match v with | .ref r => some r | .imm _ => none)
  | .arr _ _ b _ => [b]
  | .buf _ => []

/-- The memory of a Python program: all addresses are valid, and arrays refer to existing elements of a buffer. -/
def Sound (h : Heap) : Prop :=
  ∀ c ∈ h, (∀ r ∈ refs c, r < h.length) ∧
    ∀ k s b idx, c = .arr k s b idx → ∃ data, h[b]? = some (.buf data) ∧ ∀ i ∈ idx, i < data.length

/-- Operations of a program. The program can only use objects it holds. -/
inductive Op where
  /-- `y = x.k`, `y = x[k]` -/
  | get (x : Ref) (k : Key)
  /-- `y = x[...]`, `y = x.reshape(...)`, `y = x.T`: any array that shares the memory with `x` -/
  | view (x : Ref) (shape idx : List Nat)
  /-- `x.k = v` (for a Sofa object: the effect of an assignment that is not refused), `x[k] = v` -/
  | put (x : Ref) (k : Str) (v : HVal)
  /-- `del x.k`, `del x[k]` -/
  | del (x : Ref) (k : Str)
  /-- any modification of a list -/
  | items (x : Ref) (l : List HVal)
  /-- any in-place modification of the elements of an array -/
  | fill (x : Ref) (data : List Elem)
  /-- `x.shape = ...` -/
  | shape (x : Ref) (s : List Nat)
  /-- create a new dictionary -/
  | newDict (d : Dict HVal)
  /-- create a new list -/
  | newList (l : List HVal)
  /-- create a new Sofa object -/
  | newInst (d : Dict HVal)
  /-- create a new array with its own memory -/
  | newArr (k : Kind) (s : List Nat) (data : List Elem)

/-- the program can use this value -/
def holds (held : List Ref) : HVal → Bool
  | .imm _ => true
  | .ref r => held.contains r

/-- One operation of a program that holds the addresses `held`. Operations with objects that the program does not
hold, or that do not fit the type of the object, do nothing. -/
def exec (h : Heap) (held : List Ref) : Op → Heap × List Ref
  | .get x k =>
    if held.contains x then
      match item h x k with
      | some (.ref r) => (h, r :: held)
      | _ => (h, held)
    else (h, held)
  | .view x s idx =>
    if held.contains x then
      match h[x]? with
      | some (.arr k _ b _) => (h ++ [.arr k s b idx], h.length :: held)
      | _ => (h, held)
    else (h, held)
  | .put x k v =>
    if held.contains x && holds held v then
      match h[x]? with
      | some (.inst d) => (h.set x (.inst (Dict.put d k v)), held)
      | some (.dict d) => (h.set x (.dict (Dict.put d k v)), held)
      | _ => (h, held)
    else (h, held)
  | .del x k =>
    if held.contains x then
      match h[x]? with
      | some (.inst d) => (h.set x (.inst (Dict.del d k)), held)
      | some (.dict d) => (h.set x (.dict (Dict.del d k)), held)
      | _ => (h, held)
    else (h, held)
  | .items x l =>
    if held.contains x && l.all (holds held) then
      match h[x]? with
      | some (.list _) => (h.set x (.list l), held)
      | _ => (h, held)
    else (h, held)
  | .fill x data =>
    if held.contains x then
      match h[x]? with
      | some (.arr _ _ b _) =>
        match h[b]? with
        | some (.buf _) => (h.set b (.buf data), held)
        | _ => (h, held)
      | _ => (h, held)
    else (h, held)
  | .shape x s =>
    if held.contains x then
      match h[x]? with
      | some (.arr k _ b idx) => (h.set x (.arr k s b idx), held)
      | _ => (h, held)
    else (h, held)
  | .newDict d => if d.all (fun p => holds held p.2) then (h ++ [.dict d], h.length :: held) else (h, held)
  | .newList l => if l.all (holds held) then (h ++ [.list l], h.length :: held) else (h, held)
  | .newInst d => if d.all (fun p => holds held p.2) then (h ++ [.inst d], h.length :: held) else (h, held)
  | .newArr k s data =>
    (h ++ [.buf data, .arr k s h.length (List.range data.length)], (h.length + 1) :: held)

/-- Two programs that work in the same memory, one (`true`) holds the addresses `a`, the other one holds `b`. -/
structure Two where
  heap : Heap
  a : List Ref
  b : List Ref

/-- one operation of one of the programs -/
def step2 (t : Two) (side : Bool) (op : Op) : Two :=
  match side with
  | true => let r := exec t.heap t.a op; ⟨r.1, r.2, t.b⟩
  | false => let r := exec t.heap t.b op; ⟨r.1, t.a, r.2⟩

/-- any interleaving of the operations of both programs -/
def run2 (t : Two) : List (Bool × Op) → Two
  | [] => t
  | x :: l => run2 (step2 t x.1 x.2) l

end Sofar.Spec
