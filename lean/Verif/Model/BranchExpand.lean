import Verif.Spec.BranchExpand
/-!
One copy of a RESHAPE or TRANSPOSE for each of its readers.

Modelled code: tinynn/converter/operators/optimize.py
  branch_reshape_expand_pass      (1240-1276)
  branch_transpose_expand_pass    (1278-1314)
  is_reshape_branch_edge, is_transpose_branch_edge  (4150-4169)
  expand_op_outputs_in_branches   (4814-4841)
Simplifications: operators are known by their position in the list; the copied attribute tensor (shape or permutation) is part of the function of the operator; which of several readers is kept depends on the
order of the edges in the graph library and is a parameter `keep`.  The edges of the graph are not modelled besides the operands.
-/

namespace Verif.Model.BranchExpand
open Verif.Spec.BranchExpand

variable {α : Type}

/-- The result of an operator that has one: `op.outputs[0]`. -/
def outOf (op : Op α) : Nat := op.outs.headD 0

/-- Positions of the operators that read a tensor (4825-4829, without repetitions, 4832). -/
def readers (ops : List (Op α)) (t : Nat) : List Nat := (ops.zipIdx.filter fun p => p.1.ins.contains t).map Prod.snd

/-- `outdegree()`: one edge per operand that is the tensor, and one if it is an output of the model. -/
def outDegree (net : Net α) (t : Nat) : Nat := (net.ops.map fun op => op.ins.count t).sum + if net.outputs.contains t then 1 else 0

/-- Is the operator the source of a selected edge (4153-4158, 4164-4169)? -/
def selected (k : Kind) (net : Net α) (op : Op α) : Bool :=
  decide (op.kind = k) && decide (1 < outDegree net (outOf op)) && net.ops.any fun q => decide (q.kind = k) && decide (q.ins.head? = some (outOf op))

/-- The readers that get a copy (4820-4834): all of them if the result is an output of the model, all but the one to keep otherwise. -/
def cloned (keep : Nat → Nat) (net : Net α) (t : Nat) : List Nat :=
  if net.outputs.contains t then readers net.ops t else (readers net.ops t).filter fun j => decide (j ≠ keep t)

/-- The operators to be copied, each with the reader the copy is for (4818-4835). -/
def pairs (k : Kind) (keep : Nat → Nat) (net : Net α) : List (Op α × Nat) :=
  (net.ops.filter (selected k net)).flatMap fun op => (cloned keep net (outOf op)).map fun j => (op, j)

/-- The copies with the names of their results: `create_transform_tensor` gives a new name each time (1261, 1300). -/
def copies (k : Kind) (keep : Nat → Nat) (net : Net α) : List ((Op α × Nat) × Nat) := (pairs k keep net).zipIdx net.next

/-- A copy as an operator: the same function of the same operand (1256-1265, 1295-1304). -/
def copyOp (c : (Op α × Nat) × Nat) : Op α := { c.1.1 with outs := [c.2] }

/-- The tensor the operator at position `j` reads instead of `t` (1267-1271, 1306-1310). -/
def rename (cs : List ((Op α × Nat) × Nat)) (j t : Nat) : Nat :=
  match cs.find? fun c => decide (c.1.2 = j) && decide (outOf c.1.1 = t) with
  | some c => c.2
  | none => t

/-- The whole pass.  `none`: a RESHAPE of a constant has no operator before it, and `prev_op.outputs` (1257-1259) is an `AttributeError`; TRANSPOSE has a case for it (1296). -/
def expand (k : Kind) (keep : Nat → Nat) (net : Net α) : Option (Net α) :=
  let cs := copies k keep net
  if k = .reshape ∧ (cs.any fun c => net.consts.any fun d => decide (c.1.1.ins.head? = some d.1)) then none
  else some { net with ops := (net.ops.zipIdx.map fun p => { p.1 with ins := p.1.ins.map (rename cs p.2) }) ++ cs.map copyOp, next := net.next + cs.length }

end Verif.Model.BranchExpand
