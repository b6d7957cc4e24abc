import Verif.Model.Core
/-!
# Objects in memory and `Sofa.copy` (sofar/sofa.py:1623-1625)

The other files of the model treat objects as values. This is not enough for `Sofa.copy`, because arrays, lists
and dictionaries are shared between all variables that refer to them. Here, the memory is a list of cells, an
address is a position in this list, and new cells are appended. Cells are never removed (garbage can not be
observed).

Not modelled: arrays of dtype object that hold mutable Python objects (their elements are opaque here), the
recursion limit of Python, class attributes (`Sofa._read_only_attr = []`, sofar/sofa.py:91, is shared by all
objects but never modified in place).
-/
namespace Sofar

/-- An address, `id(x)` in Python. It is used by `copy.deepcopy`, see sofar/sofa.py:1625. -/
abbrev Ref := Nat

/-- What a variable, an attribute, or an item of a container holds: an immutable value (`str`, numbers, numpy
scalars, `None`, `bool`; sofar/sofa.py:133-158 stores them in the object) or the address of a mutable object. -/
inductive HVal where
  | imm (v : Val)
  | ref (r : Ref)
deriving DecidableEq

/-- Mutable objects: the Sofa object with its `__dict__` (sofar/sofa.py:158 writes to it), dictionaries (e.g.
`_convention` and `_custom`, sofar/sofa.py:98, 717-725), lists (e.g. the default values in `_convention`), numpy
arrays, and the memory of numpy arrays. Element number `i` of an array is `data[idx[i]]` of its buffer, so that
several arrays can share a buffer (views). -/
inductive HCell where
  | inst (d : Dict HVal)
  | dict (d : Dict HVal)
  | list (l : List HVal)
  | arr (kind : Kind) (shape : List Nat) (buf : Ref) (idx : List Nat)
  | buf (data : List Elem)
deriving DecidableEq

/-- The memory. sofar/sofa.py:1625 creates new objects in it. -/
abbrev Heap := List HCell

namespace HCell

/-- The values that are contained in an object; `copy.deepcopy` (sofar/sofa.py:1625) descends into them. -/
def vals : HCell → List HVal
  | .inst d => d.map Prod.snd
  | .dict d => d.map Prod.snd
  | .list l => l
  | .arr _ _ _ _ => []
  | .buf _ => []

/-- The same object with other values; `copy.deepcopy` (sofar/sofa.py:1625) keeps the names of all items. -/
def withVals : HCell → List HVal → HCell
  | .inst d, vs => .inst ((d.map Prod.fst).zip vs)
  | .dict d, vs => .dict ((d.map Prod.fst).zip vs)
  | .list _, vs => .list vs
  | .arr k s b i, _ => .arr k s b i
  | .buf d, _ => .buf d

end HCell

/-- The elements of an array (in row-major order); `ndarray.__deepcopy__` (called by sofar/sofa.py:1625) copies
exactly these elements, also if the array is a view into a larger buffer. -/
def gather (h : Heap) (b : Ref) (idx : List Nat) : Option (List Elem) :=
  match h[b]? with
  | some (.buf data) => idx.mapM (fun i => data[i]?)
  | _ => none

/-- State of `copy.deepcopy`: the memory and the dictionary `memo` that maps addresses to addresses of copies
(sofar/sofa.py:1625). -/
structure Memo where
  heap : Heap
  memo : List (Ref × Ref)

/-- `memo.get(id(x))` in `copy.deepcopy` (sofar/sofa.py:1625) -/
def seen (m : List (Ref × Ref)) (r : Ref) : Option Ref := (m.find? (fun p => p.1 = r)).map Prod.snd

/-- copy all items of a container one after the other (`copy.deepcopy` of sofar/sofa.py:1625) -/
def deepAll (f : HVal → Memo → Option (HVal × Memo)) : List HVal → Memo → Option (List HVal × Memo)
  | [], st => some ([], st)
  | v :: l, st =>
    match f v st with
    | none => none
    | some (w, st1) =>
      match deepAll f l st1 with
      | none => none
      | some (ws, st2) => some (w :: ws, st2)

/-- `copy.deepcopy(v, memo)` as called by sofar/sofa.py:1625. The first argument bounds the depth of the recursion
(`none` if it is exceeded or if an address is invalid; `C11_total` shows that this does not happen). Immutable
values are returned. Objects that were copied before are taken from `memo`. A numpy array gets its own memory. For
the other objects, an empty object is created and noted in `memo`, and is filled with copies of the items. The
items are written at the end and not one by one, because nobody reads them meanwhile. `Sofa` objects are handled by
`copyreg.__reduce_ex__`, which copies `__dict__` without calling `Sofa.__setattr__`. -/
def deepcopy : Nat → HVal → Memo → Option (HVal × Memo)
  | _, .imm v, st => some (.imm v, st)
  | 0, .ref _, _ => none
  | n + 1, .ref r, st =>
    match seen st.memo r with
    | some r' => some (.ref r', st)
    | none =>
      match st.heap[r]? with
      | none => none
      | some (.arr k s b idx) =>
        match gather st.heap b idx with
        | none => none
        | some es =>
          let r' := st.heap.length
          some (.ref r', ⟨st.heap ++ [.arr k s (r' + 1) (List.range es.length), .buf es], (r, r') :: st.memo⟩)
      | some c =>
        let r' := st.heap.length
        match deepAll (deepcopy n) c.vals ⟨st.heap ++ [c.withVals []], (r, r') :: st.memo⟩ with
        | none => none
        | some (vs, st1) => some (.ref r', ⟨st1.heap.set r' (c.withVals vs), st1.memo⟩)

/-- sofar/sofa.py:1623-1625 `Sofa.copy`: the address of the copy of the object at address `s`, and the memory
after the call. -/
def copySofa (h : Heap) (s : Ref) : Option (HVal × Heap) :=
  match deepcopy (h.length + 1) (.ref s) ⟨h, []⟩ with
  | none => none
  | some (c, st) => some (c, st.heap)

end Sofar
