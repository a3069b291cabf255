import Verif.Spec.BnComp
import Verif.Model.PruneNet

/-!
Model of the batch-norm compensation in `NormChannelModifier.modify_input` (`/repo/tinynn/graph/modifier.py` 1179-1258) together with `modify_input` of the convolution behind it (2343-2382, the input
side).  What precedes the batch norm has lost the same channels (C31, C114).  The output channels of the convolution are not pruned here (C31).
-/

namespace Verif.Model.BnComp
open Verif.Spec.BnComp Verif.Model

variable {α : Type}

/-- What `Modifier.module()` returns for a node (727-728): a module with its type, or the `TraceFunction` of a functional call. -/
inductive Kind | module (type : String) | function (kind : String)
  deriving DecidableEq

/-- Lines 1195-1205. -/
def supported : List String := ["ReLU", "ReLU6", "LeakyReLU", "Sigmoid", "Tanh", "Hardsigmoid", "Hardtanh", "Hardswish", "LogSigmoid"]

/-- Lines 1184-1230: whether the bias of the convolution is corrected.  `nexts` are the nodes behind the batch norm, each with the nodes behind it; `groups` belongs to the last one.  `none`: the call
`act(bias)` raises, because a `TraceFunction` is called with a list of tensors (tracer.py 515-540).  The test for a `TraceNode` (1209-1223) never applies, `module()` does not return one. -/
def compensates (enabled : Bool) (nexts : List (Kind × List Kind)) (groups : Nat) : Option Bool :=
  match enabled, nexts with
  | true, [(act, [conv])] =>
    if (match act with | .module t => decide (t ∉ supported) | .function _ => false) then some false
    else if conv ≠ .module "Conv2d" then some false
    else if groups = 1 then (match act with | .module _ => some true | .function _ => none)
    else some false
  | _, _ => some false

/-- Lines 1231-1243: the new bias of the convolution. -/
def newBias [Ring α] (rm : List Nat) (b : Bn α) (act : α → α) (c : Conv α) : List α :=
  (List.range c.weight.length).map fun o =>
    (match c.bias with | none => 0 | some b => b.getD o 0) +
    (((List.range b.scale.length).filter fun ch => rm.contains ch).map fun ch =>
      ((List.range c.kh).map fun i => ((List.range c.kw).map fun j => (c.weight.getD o []).getD ch (fun _ _ => 0) i j).sum).sum * act (b.shift.getD ch 0)).sum

/-- `modify_input` of the batch norm and of the convolution; `none` is an exception. -/
def prune [Ring α] (enabled : Bool) (nexts : List (Kind × List Kind)) (groups : Nat) (rm : List Nat) (b : Bn α) (act : α → α) (c : Conv α) : Option (Bn α × Conv α) :=
  let p := preserveIdx b.scale.length rm
  let take := fun (l : List α) => p.map fun i => l.getD i 0
  if b.scale.length = (complementaryList b.scale.length rm).length then some (b, c)
  else (compensates enabled nexts groups).map fun comp =>
    (⟨take b.scale, take b.shift, take b.mean, take b.inv⟩,
     { c with weight := c.weight.map (fun row => p.map fun i => row.getD i (fun _ _ => 0)), bias := if comp then some (newBias rm b act c) else c.bias })

end Verif.Model.BnComp
