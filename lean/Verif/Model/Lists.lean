import Verif.Model.Object
/-!
# Python values and nested lists that are assigned to attributes

`np.atleast_2d(value)` (sofar/sofa.py:154) converts nested lists with `np.array`. Tuples behave like lists. Not modelled:
lists that contain arrays or complex numbers, integers that need more than 64 bits, and more than 64 levels.
-/
namespace Sofar

/-- Python values: `bool`, `int`, `float`, `str`, lists, and any other object (e.g. `None`).
(assigned in sofar/sofa.py:133-158) -/
inductive PyVal where
  | bool (b : Bool)
  | int (i : Int)
  | float (x : Num)
  | str (s : Str)
  | other (tag : Nat)
  | list (l : List PyVal)

mutual

/-- shape that `np.array` finds for a nested list (used in sofar/sofa.py:154); `none`: ValueError, inhomogeneous shape -/
def shapeOf : PyVal → Option (List Nat)
  | .list [] => some [0]
  | .list (v :: l) =>
    match shapeOf v with
    | none => none
    | some s => if sameShape s l then some ((l.length + 1) :: s) else none
  | _ => some []

/-- all values have the given shape (used in sofar/sofa.py:154) -/
def sameShape (s : List Nat) : List PyVal → Bool
  | [] => true
  | v :: l => decide (shapeOf v = some s) && sameShape s l

end

mutual

/-- the values in a nested list, in row-major order (used in sofar/sofa.py:154) -/
def leaves : PyVal → List PyVal
  | .list l => leavesList l
  | v => [v]

/-- the values in several nested lists (used in sofar/sofa.py:154) -/
def leavesList : List PyVal → List PyVal
  | [] => []
  | v :: l => leaves v ++ leavesList l

end

/-- `isinstance(v, str)` (used in sofar/sofa.py:154 by `np.array` to find the data type) -/
def PyVal.isText : PyVal → Bool
  | .str _ => true
  | _ => false

/-- the data type of the value is float (used in sofar/sofa.py:154 by `np.array`) -/
def PyVal.isFloat : PyVal → Bool
  | .float _ => true
  | _ => false

/-- the data type of the value is int (used in sofar/sofa.py:154 by `np.array`) -/
def PyVal.isInt : PyVal → Bool
  | .int _ => true
  | _ => false

/-- the value is no number and no text (used in sofar/sofa.py:154 by `np.array`) -/
def PyVal.isOther : PyVal → Bool
  | .other _ => true
  | _ => false

/-- the common data type that `np.array` finds; float if there are no values (used in sofar/sofa.py:154) -/
def kindOf (l : List PyVal) : Kind :=
  if l.any PyVal.isOther then .O
  else if l.any PyVal.isText then .U
  else if l.any PyVal.isFloat then .f
  else if l.any PyVal.isInt then .i
  else if l.isEmpty then .f
  else .b

/-- one element of the array (used in sofar/sofa.py:154); `text` is the conversion of numbers to text that numpy uses in arrays
of text -/
def elemOf (text : PyVal → Str) (k : Kind) : PyVal → Elem
  | .str s => .str s
  | .other t => .obj t
  | .list _ => .obj 0
  | .bool b => if k = .U then .str (text (.bool b)) else .num (.fin (if b then 1 else 0))
  | .int i => if k = .U then .str (text (.int i)) else .num (.fin (i : Rat))
  | .float x => if k = .U then .str (text (.float x)) else .num x

/-- the array that `np.array` makes of a nested list (used in sofar/sofa.py:154) -/
def arrayOf (text : PyVal → Str) (v : PyVal) (s : List Nat) : Arr :=
  ⟨kindOf (leaves v), s, (leaves v).map (elemOf text (kindOf (leaves v)))⟩

/-- Python values as arguments of the methods of the model. (sofar/sofa.py:151-158) -/
def PyVal.toInp (text : PyVal → Str) : PyVal → Inp
  | .bool b => .pybool b
  | .int i => .val (.num .i (.num (.fin (i : Rat))))
  | .float x => .val (.num .f (.num x))
  | .str s => .val (.str s)
  | .other t => .val (.obj t)
  | .list l =>
    match shapeOf (.list l) with
    | none => .ragged
    | some s => .list (arrayOf text (.list l) s)

end Sofar
