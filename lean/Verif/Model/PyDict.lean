import Verif.Model.PyStr
/-!
# Python dictionaries

A `dict` with string keys is an association list in insertion order. Overwriting a key keeps its position,
deleting removes it, as in Python.
-/
namespace Sofar

/-- Python `dict` with `str` keys, in insertion order. (e.g. `_convention`, sofar/sofa.py:98) -/
abbrev Dict (V : Type) := List (Str × V)

namespace Dict
variable {V : Type}

/-- `d.get(k)` (sofar/sofa.py:173, 1024) -/
def get? : Dict V → Str → Option V
  | [], _ => none
  | (k', v) :: t, k => if k' = k then some v else get? t k

/-- `k in d` (sofar/sofa.py:177, 714) -/
def has (d : Dict V) (k : Str) : Bool := (get? d k).isSome

/-- `d.keys()` (sofar/sofa.py:516) -/
def keys (d : Dict V) : List Str := d.map Prod.fst

/-- `d[k] = v` (sofar/sofa.py:158, 719-725) -/
def put : Dict V → Str → V → Dict V
  | [], k, v => [(k, v)]
  | (k', v') :: t, k, v => if k' = k then (k', v) :: t else (k', v') :: put t k v

/-- `del d[k]` (of a key that is there). (sofar/sofa.py:174-178, 1655) -/
def del (d : Dict V) (k : Str) : Dict V := d.filter (fun p => p.1 ≠ k)

/-- `{k: v for (k, v) in l}`: later values overwrite earlier ones, first position wins. (sofar/sofa.py:1716-1719) -/
def ofList (l : List (Str × V)) : Dict V := l.foldl (fun d p => put d p.1 p.2) []

end Dict
end Sofar
