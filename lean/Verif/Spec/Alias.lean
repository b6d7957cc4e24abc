import Verif.Spec.Heap
/-!
# The data of Sofa objects in memory
-/
namespace Sofar.Spec

/-- The value that is seen at a name: immutable values, arrays with all their elements, and dictionaries. -/
def look (h : Heap) : HVal → Option Val
  | .imm v => some v
  | .ref r =>
    match h[r]? with
    | some (.arr k s b idx) => (idx.mapM (bufElem h b)).map (fun es => .arr ⟨k, s, es⟩)
    | some (.dict _) => some .dict
    | _ => none

/-- the name of data, i.e., without leading underscore -/
def publicName (name : Str) : Prop := name.head? ≠ some '_'

instance (name : Str) : Decidable (publicName name) := by unfold publicName; infer_instance

/-- There is a Sofa object at address `s`, whose data is `attrs`. -/
def Shows (h : Heap) (s : Ref) (attrs : Dict Val) : Prop :=
  ∃ d, h[s]? = some (.inst d) ∧
    (d.filter (fun p => decide (publicName p.1))).map (fun p => (p.1, look h p.2)) = attrs.map (fun p => (p.1, some p.2))

/-- The addresses that can be reached from the given ones. -/
inductive Reach (h : Heap) (start : List Ref) : Ref → Prop where
  | start {r} (hr : r ∈ start) : Reach h start r
  | step {r c q} (hr : Reach h start r) (hc : h[r]? = some c) (hq : q ∈ refs c) : Reach h start q

/-- Nothing can be reached from both. -/
def Separate (h : Heap) (a b : List Ref) : Prop := ∀ r, Reach h a r → ¬ Reach h b r

/-- One operation after the other, by a program that holds the addresses `held`. -/
def runAlone (h : Heap) (held : List Ref) : List Op → Heap × List Ref
  | [] => (h, held)
  | op :: ops => runAlone (exec h held op).1 (exec h held op).2 ops

/-- The operation gives the name of the object at address `s` another value or removes it. -/
def Rebinds (s : Ref) (name : Str) : Op → Prop
  | .put x k _ => x = s ∧ k = name
  | .del x k => x = s ∧ k = name
  | _ => False

end Sofar.Spec
