import Verif.Model.Heap
import Verif.Model.Object
/-!
# Assignment to Sofa objects in memory (sofar/sofa.py:133-158)

`setAttr` (Model/Object.lean) treats objects and arrays as values. Here, the data of an object is in memory
(Model/Heap.lean), where arrays and dictionaries are shared between all who hold their address.
-/
namespace Sofar

/-- The value that an assignment sees (sofar/sofa.py:133-158). `conv` is what numpy makes of a list with everything in it
(`np.atleast_2d`, sofar/sofa.py:154); it is left open. Other Sofa objects as value are not modelled (`none`). -/
def heapInp (conv : Heap → Ref → Inp) (h : Heap) : HVal → Option Inp
  | .imm v => some (.val v)
  | .ref r =>
    match h[r]? with
    | some (.arr k s b idx) => (gather h b idx).map (fun es => .val (.arr ⟨k, s, es⟩))
    | some (.dict _) => some (.val .dict)
    | some (.list _) => some (conv h r)
    | _ => none

/-- sofar/sofa.py:158: write to `__dict__` of the object at address `s` -/
def heapPut (h : Heap) (s : Ref) (name : Str) (v : HVal) : Heap :=
  match h[s]? with
  | some (.inst d) => h.set s (.inst (Dict.put d name v))
  | _ => h

/-- sofar/sofa.py:152-158: a list becomes a scalar or a new array with its own memory. Lists that contain dictionaries
or other objects (arrays of objects, which share their elements) are not modelled. -/
def heapPutNew (h : Heap) (s : Ref) (name : Str) : Val → Heap
  | .arr a => heapPut (h ++ [.buf a.data, .arr a.kind a.shape h.length (List.range a.data.length)]) s name
      (.ref (h.length + 1))
  | v => heapPut h s name (.imm v)

/-- sofar/sofa.py:152-158: convert and store the value. Strings, dictionaries and arrays are stored as they are. -/
def heapStore (conv : Heap → Ref → Inp) (h : Heap) (s : Ref) (name : Str) (v : HVal) : Except Exc Unit × Heap :=
  match v with
  | .imm w => (.ok (), heapPut h s name (.imm w))
  | .ref r =>
    match h[r]? with
    | some (.arr _ _ _ _) => (.ok (), heapPut h s name (.ref r))
    | some (.dict _) => (.ok (), heapPut h s name (.ref r))
    | some (.list _) =>
      match normalise (conv h r) with
      | .error e => (.error e, h)
      | .ok w => (.ok (), heapPutNew h s name w)
    | _ => (.error .unmodelled, h)

/-- sofar/sofa.py:133-158 `Sofa.__setattr__` for the object at address `s`. The object `o` gives the names of the data and
the private attributes (protection, read only data). The name `protected` is not modelled here (see `setAttr`). -/
def heapSetAttr (conv : Heap → Ref → Inp) (h : Heap) (s : Ref) (o : Obj) (name : Str) (v : HVal) :
    Except Exc Unit × Heap :=
  if o.prot && ! o.hasAttr name then (.error (.typeError (name ++ py% " is an invalid attribute")), h)
  else if o.readOnly.has name && o.prot then (.error (.typeError (name ++ py% " is a read only attribute.")), h)
  else if name = py% "protected" then (.error .unmodelled, h)
  else if name = py% "list_dimensions" then
    match (heapInp conv h v).map normalise with
    | some (.error e) => (.error e, h)
    | _ => (.error (.attributeError name), h)
  else if isPrivate name then
    match (heapInp conv h v).map normalise with
    | some (.error e) => (.error e, h)
    | _ => (.error .unmodelled, h)
  else heapStore conv h s name v

end Sofar
