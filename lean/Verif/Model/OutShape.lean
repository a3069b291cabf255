import Verif.Spec.OutShape

/-!
Model of how the results of a traced model are recorded and written into the generated code (/repo/tinynn/graph/tracer.py).

Simplified: tensors are opaque values, and an expression in the generated code stands for the tensor it was written for (that the expressions compute these tensors is C81). An attribute of an object whose reading fails is not modelled, nor are the methods and class attributes that `__dir__` also lists: they are no tensors.
-/

namespace Verif.Model.OutShape

open Verif.Spec.OutShape

variable {T : Type}

/-- An output node: /repo/tinynn/graph/tracer.py:1535-1554, the tensors (`prev_tensors`) and whether they came in a sequence (`rev_index`). -/
structure Node (T : Type) where
  tensors : List T
  index : Bool
deriving DecidableEq, Repr

/-- /repo/tinynn/graph/tracer.py:1535-1554 `add_output_node`: fails (KeyError, `none`) for a tensor no recorded call or input has given (`known`). -/
def addNode (known : T → Bool) (ts : List T) (index : Bool) : Option (Node T) :=
  if ts.all known then some { tensors := ts, index := index } else none

/-- /repo/tinynn/graph/tracer.py:1708-1720, 1722-1732, the body of the two loops: tensors and sequences of tensors (also of derived classes, `isinstance`) become a node, anything else is left out with a warning. -/
def addItem (known : T → Bool) : Item T → Option (List (Node T))
  | .tensor t => (addNode known [t] false).map (fun n => [n])
  | .seq _ l => (addNode known l true).map (fun n => [n])
  | .else_ => some []

/-- /repo/tinynn/graph/tracer.py:1735-1739, the body of the loop over the attributes of an object: sequences of derived classes are left out (`type(v) in (list, tuple)`). -/
def addAttr (known : T → Bool) : Item T → Option (List (Node T))
  | .tensor t => (addNode known [t] false).map (fun n => [n])
  | .seq .derived _ => some []
  | .seq _ l => (addNode known l true).map (fun n => [n])
  | .else_ => some []

/-- The loops of `_model_tracer`. -/
def addAll (f : Item T → Option (List (Node T))) : List (Item T) → Option (List (Node T))
  | [] => some []
  | x :: r => (f x).bind (fun a => (addAll f r).map (fun b => a ++ b))

/-- /repo/tinynn/graph/tracer.py:1703-1739 `_model_tracer`. Nothing (`None`) has no attribute that is a tensor. -/
def modelTracer (known : T → Bool) : Out T → Option (List (Node T))
  | .tensor t => (addNode known [t] false).map (fun n => [n])
  | .seq _ l => addAll (addItem known) l
  | .dict l => addAll (addItem known) (l.map Prod.snd)
  | .object l => addAll (addAttr known) (l.map Prod.snd)
  | .none => some []

/-- /repo/tinynn/graph/tracer.py:2375-2379 `_gen_output_node`: a list in brackets, or the first tensor. -/
def genItem (n : Node T) : Item T :=
  if n.index = true then .seq .list n.tensors
  else match n.tensors with
    | t :: _ => .tensor t
    | [] => .else_

/-- An item returned by itself. -/
def alone : Item T → Out T
  | .tensor t => .tensor t
  | .seq k l => .seq k (l.map Item.tensor)
  | .else_ => .none

/-- /repo/tinynn/graph/tracer.py:2381: `return` with the results separated by commas. With none of them Python returns nothing, with one it returns this one, and otherwise a tuple. -/
def genReturn : List (Node T) → Out T
  | [] => .none
  | [n] => alone (genItem n)
  | ns => .seq .tuple (ns.map genItem)

/-- What the generated model returns where the model returned `o`; `none` if tracing fails. -/
def regenerate (known : T → Bool) (o : Out T) : Option (Out T) := (modelTracer known o).map genReturn

end Verif.Model.OutShape
