import Verif.Spec.BiasAbsorb

/-!
Model of high bias absorption, `bias_absorb_helper_` and `bias_absorb_`, `/repo/tinynn/graph/quantization/algorithm/cross_layer_equalization.py` 198-252, for layers of class
`nn.Conv2d` with a folded batch norm (`fused_bn_`).  Floats are elements of an ordered field.
-/

namespace Verif.Model
open Verif.Spec
variable {K : Type} [Field K] [LinearOrder K]

/-- Lines 219-222: `c = beta - 3 * |gamma|`, and zero where it is negative. -/
def absorbed (gamma beta : List K) : List K := List.zipWith (fun b g => let c := b - 3 * |g|; if c < 0 then 0 else c) beta gamma

/-- Line 225: the weight summed over the kernel axes. -/
def reducedWeight (wt : Tensor K) (o i : Nat) : K := ((allIndices [wt.shape.getD 2 0, wt.shape.getD 3 0]).map (fun κ => wt.get (o :: i :: κ))).sum

/-- Lines 226-231: `reduced_weight * c` for one input channel per group (broadcasting a single value), `torch.matmul(reduced_weight, c)` otherwise; `none` is the size mismatch error. -/
def biasCorrect (wt : Tensor K) (c : List K) : Option (List K) :=
  let outs := wt.shape.getD 0 0
  let ins := wt.shape.getD 1 0
  if ins = 1 then
    if c.length = outs then some ((List.range outs).map (fun o => reducedWeight wt o 0 * c.getD o 0))
    else if c.length = 1 then some ((List.range outs).map (fun o => reducedWeight wt o 0 * c.getD 0 0))
    else if outs = 1 then some (c.map (fun v => reducedWeight wt 0 0 * v))
    else none
  else if c.length = ins then some ((List.range outs).map (fun o => ((List.range ins).map (fun i => reducedWeight wt o i * c.getD i 0)).sum))
  else none

/-- Element-wise difference and sum of two bias vectors of the same length. -/
def subList (a b : List K) : List K := List.zipWith (· - ·) a b
def addList (a b : List K) : List K := List.zipWith (· + ·) a b

/-- Lines 198-241 for two consecutive layers, the first one with its current bias `b`: the new biases. -/
def absorbPair (b : List K) (pre cur : ConvLayer K) : Option (List K × List K) := do
  let c := absorbed pre.gamma pre.beta
  let corr ← biasCorrect cur.wt c
  some (subList b c, addList cur.bias corr)

/-- Lines 244-252 for a chain of layers, every two consecutive ones a group, in order: the new biases.  The bias a layer has when it is the first one of its group already
contains the correction it received as the second one of the group before. -/
def absorbChain (b : List K) : List (ConvLayer K) → Option (List (List K))
  | [] => some []
  | [_] => some [b]
  | pre :: cur :: rest => do
    let (b', bc) ← absorbPair b pre cur
    let bs ← absorbChain bc (cur :: rest)
    some (b' :: bs)

/-- Lines 244-252 for groups in any order: a group is given by the place of its first layer in a chain, `bs` are the biases of the returned model.  Line 232 reads the bias of the second
layer from the model as it was given, and line 238 overwrites the one of the returned model with it. -/
def absorbGroups (ls : List (ConvLayer K)) : List Nat → List (List K) → Option (List (List K))
  | [], bs => some bs
  | i :: is, bs => match ls[i]?, ls[i + 1]? with
    | some pre, some cur => (absorbPair (bs.getD i []) pre cur).bind fun p => absorbGroups ls is ((bs.set i p.1).set (i + 1) p.2)
    | _, _ => none

end Verif.Model
