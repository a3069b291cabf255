import Verif.Spec.Inplace
import Mathlib.Logic.Function.Basic

/-!
Model for C75: how the converter walks a traced program with views and in-place operations.

* /repo/tinynn/converter/base.py:296-317 — the lowered graph is used as traced: no pass rewrites in-place operations.
* /repo/tinynn/converter/base.py:397-491 `init_operations` — every node is run on the dummy input; the node is tracked when one
  of its inputs is a tracked tensor.
* /repo/tinynn/converter/operators/torch/base.py:147-184 `run` — the node is executed on the actual tensor objects, so in-place
  operations change every tensor sharing the storage; for in-place operations the inputs seen by the emission are copies taken
  before the update.
* /repo/tinynn/converter/operators/torch/base.py:210-219 `find_or_create_input` — a tensor that is not tracked becomes a constant
  with its value of the dummy run at that moment.
* /repo/tinynn/converter/base.py:567-580 — with `missing_outputs_as_constants`, an output that is not tracked becomes a constant.

Simplifications: one TFLite operator per traced operation, computing the same function of its operands (the other properties treat
the single operations); shapes are left out.
-/

namespace Verif.Model.Inplace

open Verif.Spec.Inplace

/-- An operand of a TFLite operator: a tensor of the graph or a constant (torch/base.py:210-219). -/
inductive Arg (α : Type) where
  | tensor (n : Nat)
  | const (v : List α)

/-- A TFLite operator: reads operands, writes a new tensor. -/
structure GOp (α : Type) where
  fn : List (List α) → List α
  args : List (Arg α)
  out : Nat

/-- The state of `init_operations`: the actual tensors of the dummy run, which of them are tracked (`common_graph.tensor_map`
without buffer), and the operators so far. -/
structure Conv (α : Type) where
  dummy : Heap α
  tracked : List Bool
  ops : List (GOp α)

variable {α : Type} [Inhabited α]

/-- `find_or_create_input` (torch/base.py:210-219). -/
def Conv.operand (c : Conv α) (n : Nat) : Arg α :=
  if c.tracked.getD n false then .tensor n else .const (c.dummy.read n)

/-- The function of the operator emitted for an operation; the operands are `op.reads`. For an in-place operation the result is a
new tensor (`output_names`), the updated operand keeps its name and value. -/
def opFn : Op α → List (List α) → List α
  | .pure f _, vs => f vs
  | .view idx _, vs => idx.map (fun i => (vs.getD 0 []).getD i default)
  | .inplace f _ _, vs => f (vs.getD 0 []) (vs.drop 1)

/-- One round of `init_operations` (converter/base.py:397-491); `none` when running the node raises. -/
def Conv.step (c : Conv α) (op : Op α) : Option (Conv α) :=
  let t := op.reads.any (fun n => c.tracked.getD n false)
  (c.dummy.step op).map fun d =>
    ⟨d, c.tracked ++ [t],
      if t then c.ops ++ [⟨opFn op, op.reads.map c.operand, c.tracked.length⟩] else c.ops⟩

/-- `init_operations`. -/
def Conv.run (c : Conv α) : List (Op α) → Option (Conv α)
  | [] => some c
  | op :: ops => (c.step op).bind (fun c' => c'.run ops)

/-- The state before `init_operations`: inputs are tracked, constants are not (converter/base.py:350-376). -/
def Conv.init (dummyInputs constants : List (List α)) : Conv α :=
  ⟨Heap.init (dummyInputs ++ constants),
    List.replicate dummyInputs.length true ++ List.replicate constants.length false, []⟩

/-- Running the converted graph: the value of every tensor, by name. -/
def evalOps : List (GOp α) → (Nat → List α) → (Nat → List α)
  | [], env => env
  | op :: ops, env =>
    let vs := op.args.map (fun | .tensor n => env n | .const v => v)
    evalOps ops (Function.update env op.out (op.fn vs))

/-- The converted model's value for output `o` (converter/base.py:567-580 for outputs that are not tracked). -/
def Conv.output (c : Conv α) (inputs : List (List α)) (o : Nat) : List α :=
  if c.tracked.getD o false then evalOps c.ops (fun n => inputs.getD n []) o else c.dummy.read o

end Verif.Model.Inplace
