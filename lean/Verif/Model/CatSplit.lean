import Verif.Spec.Concat

/-!
Model of `cat_split_pass`, `/repo/tinynn/converter/operators/optimize.py` 2937-3010: the operators emitted for one
CONCATENATION with more than ten inputs.  The removal of the node and the restoration of its edges are not modelled.
-/

namespace Verif.Model
open Verif.Spec

/-- A tensor of the rewritten subgraph: an input of the original operator, a new tensor
(`create_transform_tensor`), or the original output. -/
inductive TRef
  | inp (k : Nat)
  | tmp (k : Nat)
  | out
  deriving DecidableEq, Repr

/-- A CONCATENATION operator: inputs, output, axis. -/
structure CatOp where
  inputs : List TRef
  output : TRef
  axis : Nat
  deriving DecidableEq, Repr

/-- `is_large_cat_node`, optimize.py 3773-3774. -/
def isLargeCat (n : Nat) : Bool := decide (n > 10)

/-- optimize.py 2983-3001: the inner loop over one layer.  Returns the operators, `layer_outputs` and the next fresh tensor. -/
def catLayer (axis : Nat) (last : Bool) (fresh : Nat) (layerInputs : List TRef) : List CatOp × List TRef × Nat :=
  if h : layerInputs = [] then ([], [], fresh)
  else
    let curr := layerInputs.take 10
    if last then
      let (ops, outs, f) := catLayer axis last fresh (layerInputs.drop 10)
      (⟨curr, .out, axis⟩ :: ops, outs, f)
    else
      let (ops, outs, f) := catLayer axis last (fresh + 1) (layerInputs.drop 10)
      (⟨curr, .tmp fresh, axis⟩ :: ops, .tmp fresh :: outs, f)
termination_by layerInputs.length
decreasing_by all_goals (have := List.length_pos_iff.2 h; simp; omega)

/-- optimize.py 2980-3008: the outer `while True`; `none` is running out of fuel. -/
def catLoop (axis : Nat) : Nat → Bool → Nat → List TRef → Option (List CatOp)
  | 0, _, _, _ => none
  | f + 1, last, fresh, layerInputs =>
    let (ops, outs, fresh') := catLayer axis last fresh layerInputs
    if outs.length = 0 then some ops
    else if outs.length ≤ 10 then (catLoop axis f true fresh' outs).map (ops ++ ·)
    else (catLoop axis f last fresh' outs).map (ops ++ ·)

/-- optimize.py 2970-3008: the rewriting of a concatenation of `n` inputs. -/
def catSplit (axis n fuel : Nat) : Option (List CatOp) :=
  catLoop axis fuel false 0 ((List.range n).map .inp)

/-- Executing the emitted operators in order; `none` if an operator reads a tensor that does not exist yet. -/
def execCat {α : Type} [Inhabited α] (env : TRef → Option (Tensor α)) : List CatOp → Option (TRef → Option (Tensor α))
  | [] => some env
  | op :: ops =>
    match op.inputs.mapM env with
    | none => none
    | some ts => execCat (fun r => if r = op.output then some (concat op.axis ts) else env r) ops

/-- Before the rewritten subgraph runs, only the inputs of the original operator exist. -/
def catEnv {α : Type} (xs : List (Tensor α)) : TRef → Option (Tensor α)
  | .inp k => xs[k]?
  | _ => none

end Verif.Model
