import Verif.Model.Arr
/-!
# Indexing, broadcasting and moving axes of numpy arrays

numpy functions used by sofar/utils.py:210-219 (comparison of arrays with broadcasting), sofar/io.py:322
(assignment to a netCDF variable) and sofar/sofa.py:855 (`np.moveaxis`).
-/
namespace Sofar.Arr

/-- position of the element with the given multi-index in row-major order (element access of numpy; used by the
comparison in sofar/utils.py:210-219 and by `np.moveaxis` in sofar/sofa.py:855) -/
def offset : List Nat → List Nat → Nat
  | _ :: s, i :: ix => i * s.foldr (· * ·) 1 + offset s ix
  | _, _ => 0

/-- all multi-indices of a shape in row-major order (iteration order of numpy; sofar/utils.py:210-219) -/
def indices : List Nat → List (List Nat)
  | [] => [[]]
  | n :: s => (List.range n).flatMap (fun i => (indices s).map (i :: ·))

/-- `a[ix]` (sofar/utils.py:210-219) -/
def at? (a : Arr) (ix : List Nat) : Option Elem := a.data[offset a.shape ix]?

/-- numpy's rule for one axis: equal sizes, or one of the sizes is 1
(used by `assert_allclose`, sofar/utils.py:215, and `==`, sofar/utils.py:223-224) -/
def broadcastDim (m n : Nat) : Option Nat :=
  if m = n then some m else if m = 1 then some n else if n = 1 then some m else none

/-- broadcasting of two shapes that are given in reversed order (last axis first)
(used in sofar/utils.py:215, 223-224) -/
def broadcastRev : List Nat → List Nat → Option (List Nat)
  | [], t => some t
  | s, [] => some s
  | m :: s, n :: t =>
    match broadcastDim m n, broadcastRev s t with
    | some k, some r => some (k :: r)
    | _, _ => none

/-- numpy broadcasting of two shapes (sofar/utils.py:219); `none`: ValueError, operands could not be broadcast -/
def broadcastShape (s t : List Nat) : Option (List Nat) := (broadcastRev s.reverse t.reverse).map List.reverse

/-- index of the element of an array with shape `s` that is broadcast to index `ix`
(used in sofar/utils.py:215, 223-224) -/
def sourceIndex (s ix : List Nat) : List Nat :=
  (s.zip (ix.drop (ix.length - s.length))).map (fun p => if p.1 = 1 then 0 else p.2)

/-- the elements of `a` after broadcasting to the shape `s` (used in sofar/utils.py:215, 223-224) -/
def broadcastTo (a : Arr) (s : List Nat) : List Elem :=
  (indices s).map (fun ix => (a.at? (sourceIndex a.shape ix)).getD .masked)

/-- the pairs of elements that an elementwise operation on two arrays sees (sofar/utils.py:210, 218-219);
`none`: the shapes can not be broadcast -/
def pairs (a b : Arr) : Option (List (Elem × Elem)) :=
  (broadcastShape a.shape b.shape).map (fun s => (a.broadcastTo s).zip (b.broadcastTo s))

end Sofar.Arr

namespace Sofar.Arr

/-- `order` in `np.moveaxis` (sofar/sofa.py:855): all axes without `src` in their order, with `src` inserted at
`dst` -/
def moveOrder (nd src dst : Nat) : List Nat := ((List.range nd).filter (fun n => n ≠ src)).insertIdx dst src

/-- `a.transpose(order)`, used by `np.moveaxis` (sofar/sofa.py:855): axis `i` of the result is axis `order[i]` of the
array -/
def transpose (a : Arr) (order : List Nat) : Arr :=
  let s := order.map (fun i => a.shape.getD i 1)
  { a with
    shape := s
    data := (indices s).map (fun ix =>
      (a.at? ((List.range order.length).map (fun j => ix.getD (order.idxOf j) 0))).getD .masked) }

/-- `np.moveaxis(a, src, dst)` (sofar/sofa.py:855) for axes that exist -/
def moveaxis (a : Arr) (src dst : Nat) : Arr := a.transpose (moveOrder a.shape.length src dst)

end Sofar.Arr
