import Verif.Spec.ConstUse

/-!
Model of how the converter writes constant operands (/repo/tinynn/converter/operators/torch/base.py, aten.py, /repo/tinynn/converter/operators/graph.py).

Simplified: tensors have one dimension and no broadcasting; the other operand of every operator is not a constant (otherwise no operator is written).
-/

namespace Verif.Model.ConstUse

open Verif.Spec.ConstUse

/-- `tensor_map` of the graph: the constants written so far, by name. -/
abbrev Store := List (String × Tensor)

/-- /repo/tinynn/converter/operators/torch/aten.py:2779-2780 and 2741-2746: indices are converted to 32 bits, negative ones moved up by the length. -/
def normalize (n : Nat) (c : Tensor) : Tensor := ⟨.i32, c.vals.map (fun i => i + (if i < 0 then (n : Int) else 0))⟩

/-- The tensor an operator prepares for itself. `add`: /repo/tinynn/converter/operators/torch/base.py:337-355, conversion to the promoted type if the type differs; `index`: aten.py:2741-2746; `select`: aten.py:2779-2780. -/
def prepare (u : Use) (c : Tensor) : Tensor :=
  match u.op with
  | .add => if promote u.dtype c.dtype = c.dtype then c else ⟨promote u.dtype c.dtype, c.vals⟩
  | .index => normalize u.len c
  | .select => normalize u.len c

/-- /repo/tinynn/converter/operators/torch/base.py:209-218 `find_or_create_input` and 196-206 `to_tfl_tensors` with `non_existent_as_buffer`: a tensor of this name that is already in the graph is taken, else the prepared one. /repo/tinynn/converter/operators/graph.py:141-154 `add_nodes` then puts it into the graph. -/
def operand (s : Store) (name : String) (t : Tensor) : Store × Tensor :=
  match s.lookup name with
  | some t' => (s, t')
  | none => ((name, t) :: s, t)

/-- The operator written: base.py:341-361, the first operand converted to the promoted type; aten.py:2751-2760 and 2789 GATHER. -/
def emit (u : Use) (c : Tensor) : TflOp :=
  match u.op with
  | .add => .add (promote u.dtype c.dtype)
  | .index => .gather
  | .select => .gather

/-- The operators of a model, one after the other. -/
def convert (consts : String → Tensor) : Store → List Use → List (TflOp × Tensor)
  | _, [] => []
  | s, u :: r =>
    let o := operand s u.const (prepare u (consts u.const))
    (emit u (consts u.const), o.2) :: convert consts o.1 r

end Verif.Model.ConstUse
