import Verif.Spec.Reduce

/-! Lowering of reductions (tinynn/converter/operators/torch/base.py, `OperatorConverter.handle_reduce`; aten.py, `ATenNormOperator`). -/

namespace Verif.Model.ReduceLower

open Verif.Spec

/-- base.py 595-609 (and aten.py 4338-4355): the axes of the call. A call without `dim` reduces everything and drops the axes. `None` becomes
`[None]`, whose comparison with 0 is a TypeError (`none`). -/
def callAxes (n : Nat) (dim : DimArg) (keep : Bool) : Option (List Int × Bool) :=
  match dim with
  | .absent => some ((List.range n).map (fun (i : Nat) => (i : Int)), false)
  | .none => none
  | .one d => some ([d], keep)
  | .many ds => some (if ds.length = 0 then (List.range n).map (fun (i : Nat) => (i : Int)) else ds, keep)

/-- base.py 611-613: negative axes count from the end. -/
def wrapAxes (n : Nat) (dims : List Int) : List Int := dims.map (fun d => if d < 0 then d + n else d)

/-- base.py 615-628: MEAN over the spatial axes of a 4-D tensor with kept axes is done in NHWC order. -/
def nhwcAxes (transposeOpt : Bool) (rank : Nat) (keep : Bool) (dims : List Int) : List Int × Bool :=
  if transposeOpt ∧ rank = 4 ∧ keep then
    if dims = [2, 3] then ([1, 2], true) else if dims = [3, 2] then ([2, 1], true) else (dims, false)
  else (dims, false)

/-- base.py 632-638: only the first output of an operator such as `torch.max(x, dim)` is kept. -/
def keptOutputs (outputs : List String) : List String := outputs.take 1

/-- base.py 592-673: the operators emitted for a reduction, run on a tensor. `hasKeep`: the TFLite operator has a `keepDims` parameter
(all but ARG_MAX and ARG_MIN). `f` is the operator's function on the elements of a group. Lines 656-671, the branch for a
transposition without kept axes, cannot be reached: line 622 asks for kept axes. -/
def handleReduce {α β : Type} (f : List α → β) (hasKeep transposeOpt : Bool) (dim : DimArg) (keep : Bool) (t : Tensor α) : Option (Tensor β) :=
  (callAxes t.shape.length dim keep).map fun (dims, keep) =>
    let dims := wrapAxes t.shape.length dims
    let (dims, transposed) := nhwcAxes transposeOpt t.shape.length keep dims
    let axes := dims.map Int.toNat
    let body (x : Tensor α) : Tensor β :=
      if hasKeep then reduceAxes keep axes f x
      else if keep then
        -- 646-651: reduce without keeping the axes, then RESHAPE to the shape of PyTorch's result
        reshape ((List.range x.shape.length).map (fun a => if a ∈ axes then 1 else x.shape.getD a 0)) (reduceAxes false axes f x)
      else reduceAxes false axes f x
    if transposed then transpose [0, 3, 1, 2] (body (transpose [0, 2, 3, 1] t)) else body t

/-- aten.py 4330-4375: `torch.norm`. ABS and SUM for `p = 1`; POW 2, SUM, POW 0.5 for `p = 2`; other orders are refused. The
exponents are constants of shape `[1]`. As in `handleReduce`, `None` axes mean a call without axes here (4338). -/
noncomputable def normOps (p : Nat) (dim : DimArg) (keep : Bool) (t : Tensor ℝ) : Option (Tensor ℝ) :=
  if p = 1 ∨ p = 2 then
    match callAxes t.shape.length (if dim = .none then .absent else dim) keep with
    | none => none
    | some (dims, keep) =>
      let axes := (wrapAxes t.shape.length dims).map Int.toNat
      if p = 1 then some (reduceAxes keep axes List.sum (mapTensor (fun x => |x|) t))
      else
        (elementwise (fun x e : ℝ => x ^ e) t ⟨[1], fun _ => (2 : ℝ)⟩).bind fun sq =>
          elementwise (fun x e : ℝ => x ^ e) (reduceAxes keep axes List.sum sq) ⟨[1], fun _ => (1 / 2 : ℝ)⟩
  else none

end Verif.Model.ReduceLower
