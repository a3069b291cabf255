import Verif.Spec.ConvInputs
import Verif.Model.IoLayout

/-!
Model of the first half of `TFLiteConverter.convert` (`/repo/tinynn/converter/base.py` 512-517) and of `inputs_for_tflite` (630-645).  Tracing itself is not modelled: the names of
the inputs of the traced graph, one for every tensor of the sample inputs, are given.  The exception for a module called `PlaceholderModule` (base.py:285) is left out.
-/

namespace Verif.Model.ConvInputs
open Verif.Spec Verif.Spec.ConvInputs

variable {α : Type}

/-- The converter: its sample inputs, the flags it was given, the flags after `init_input_transpose`, the caller's model, its own model, and the input nodes of its graph. -/
structure Conv (α : Type) where
  args : List (Arg (Tensor α))
  flagArg : Verif.Spec.IoLayout.Arg
  flags : Option (List Bool)
  user : Handed
  own : Handed
  nodes : List (String × Arg (Tensor α))

/-- `__init__` (base.py:100-121): a tensor is wrapped into a list; without `nchw_transpose` nothing is transposed. -/
def new (user : Handed) (input : Arg (Tensor α)) (nchw : Bool) (flagArg : Verif.Spec.IoLayout.Arg) : Conv α :=
  ⟨match input with
    | .one t => [.one t]
    | .many l => l, if nchw then flagArg else .one (some false), none, user, user, []⟩

/-- One round of `init_flatten_inputs` (base.py:331-336). -/
def opened : Arg (Tensor α) → List (Arg (Tensor α))
  | .one t => [.one t]
  | .many l => l

/-- `init_flatten_inputs` (base.py:329-336). -/
def flatten (args : List (Arg (Tensor α))) : List (Arg (Tensor α)) := args.flatMap opened

/-- `isinstance(t, torch.Tensor)` and `t.dim() == 4` (base.py:344-347). -/
def isFour : Arg (Tensor α) → Bool
  | .one t => t.shape.length == 4
  | .many _ => false

/-- `init_jit_graph` (base.py:226-263): what happens to the caller's model. -/
def touched : Handed → Handed
  | .module _ _ => .module false true
  | .wrapped _ _ => .wrapped false true
  | .script t => .script t
  | .function => .function

/-- `init_jit_graph`: the model the converter has afterwards. -/
def traced : Handed → Handed
  | .module _ _ => .script false
  | .wrapped _ _ => .script false
  | .script t => .script t
  | .function => .function

/-- The assertion of `init_lowered_module` (base.py:283-291). -/
def ready : Handed → Bool
  | .script t => !t
  | .function => true
  | _ => false

/-- `init_flatten_inputs` to `init_common_graph` (base.py:512-516, 329-368): the converter afterwards, and the exception if there is one.  `names` are the inputs of the traced graph.
A tensor of the same name that is in the graph already is another one (graph.py:115, 141-142). -/
def start (names : List String) (c : Conv α) : Conv α × Option String :=
  let flat := flatten c.args
  match IoLayout.inputFlags c.flagArg (flat.map isFour) with
  | none => (c, some "input_transpose")
  | some flags =>
    let c := { c with flags := some flags, user := touched c.user, own := traced c.own }
    if !ready c.own then (c, some "Model is in training mode")
    else if flat.length < names.length then (c, some "list index out of range")
    else if names.any (fun n => (c.nodes.map Prod.fst).contains n) then (c, some "tensor already exists")
    else ({ c with nodes := c.nodes ++ names.zip flat }, none)

/-- One array of `inputs_for_tflite` (base.py:638-643): a list has no `detach`, and a tensor must have four dimensions to be transposed. -/
def array (a : Arg (Tensor α)) (trans : Bool) : Option (Tensor α) :=
  match a with
  | .many _ => none
  | .one t => if trans then (if t.shape.length = 4 then some (transpose [0, 2, 3, 1] t) else none) else some t

/-- `inputs_for_tflite` (base.py:630-645); before `convert` the flags are what was given: nothing or one flag cannot be zipped, a missing flag counts as no. -/
def inputsForTflite (c : Conv α) : Option (List (Tensor α)) :=
  let zipped (l : List Bool) := (c.args.zip l).mapM fun p => array p.1 p.2
  match c.flags, c.flagArg with
  | some l, _ => zipped l
  | none, .one _ => none
  | none, .list l => zipped (l.map fun b => b.getD false)
  | none, .tuple l => zipped (l.map fun b => b.getD false)

end Verif.Model.ConvInputs
