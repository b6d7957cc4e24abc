import Verif.Model.PyStr
/-!
# numpy arrays

An array is given by the `kind` character of its dtype, its shape and its elements in row-major order. Integer
widths and float precisions are not distinguished. The functions model the numpy functions used by sofar.
-/
namespace Sofar

/-- Numbers: exact rationals and the IEEE specials.
(sofar/utils.py:215 compares them, sofar/io.py:405-409 reads them) -/
inductive Num where
  | fin (q : Rat)
  | nan
  | pinf
  | ninf
deriving DecidableEq

/-- `dtype.kind` (sofar/sofa.py:1036-1050, sofar/io.py:405-416 test it) -/
inductive Kind where
  | i | u | f | c | b | U | S | O
deriving DecidableEq

/-- One element of an array. `masked` is a masked element of a masked array, `obj` any other Python object.
(sofar/io.py:402-427 for masked elements) -/
inductive Elem where
  | num (x : Num)
  | str (s : Str)
  | masked
  | obj (tag : Nat)
deriving DecidableEq

/-- `numpy.ndarray` (row-major). (sofar/sofa.py:152-158) -/
structure Arr where
  kind : Kind
  shape : List Nat
  data : List Elem
deriving DecidableEq

namespace Arr

/-- `a.size` (sofar/sofa.py:155) -/
def size (a : Arr) : Nat := a.shape.foldr (· * ·) 1

/-- The number of elements agrees with the shape (true for every numpy array).
(holds for all values stored by sofar/sofa.py:158) -/
def WF (a : Arr) : Prop := a.data.length = a.size

instance (a : Arr) : Decidable a.WF := by unfold WF; infer_instance

/-- shape of `np.atleast_1d(a)` (sofar/utils.py:253) -/
def atleast1 : List Nat → List Nat
  | [] => [1]
  | s => s

/-- shape of `np.atleast_2d(a)` (sofar/utils.py:255, sofar/sofa.py:154) -/
def atleast2 : List Nat → List Nat
  | [] => [1, 1]
  | [n] => [1, n]
  | s => s

/-- shape of `np.atleast_3d(a)` (sofar/utils.py:257) -/
def atleast3 : List Nat → List Nat
  | [] => [1, 1, 1]
  | [n] => [1, n, 1]
  | [m, n] => [m, n, 1]
  | s => s

/-- append singleton dimensions until the shape has `n` entries (`a[..., np.newaxis]` in a loop)
(sofar/utils.py:258-259, 267-268) -/
def padOnes (n : Nat) (s : List Nat) : List Nat := s ++ List.replicate (n - s.length) 1

/-- sofar/utils.py:242-260 `_atleast_nd`: shape of the result for an array of the given shape. -/
def atleastNdShape (nd : Nat) (s : List Nat) : List Nat :=
  padOnes nd
    (match nd with
    | 0 => s
    | 1 => atleast1 s
    | 2 => atleast2 s
    | _ => atleast3 s)

/-- sofar/utils.py:263-269 `_nd_newaxis`: shape of the result for an array of the given shape. -/
def ndNewaxisShape (nd : Nat) (s : List Nat) : List Nat := padOnes nd s

/-- shape of `np.squeeze(a)` (sofar/utils.py:215, 224) -/
def squeezeShape (s : List Nat) : List Nat := s.filter (fun n => n ≠ 1)

/-- `a.reshape(s)` / adding or removing singleton dimensions: the elements stay in row-major order.
(sofar/utils.py:242-269) -/
def withShape (a : Arr) (s : List Nat) : Arr := { a with shape := s }

/-- `np.squeeze(a)` (sofar/utils.py:215, 224) -/
def squeeze (a : Arr) : Arr := a.withShape (squeezeShape a.shape)

end Arr
end Sofar
