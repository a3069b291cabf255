import Verif.Spec.TorchConv
import Verif.Spec.AxisOps
import Verif.Spec.Slice

/-!
Model of `GenericConvOperator.transform` and `GenericTransposeConvOperator.transform`, tinynn/converter/operators/tflite/transformable.py 188-412 and 458-670, in exact arithmetic.

Simplified: quantization parameters and data types are left out; inputs have a batch axis (the branches for a 3-D input of a 2-D convolution, 199 and 473, are not modelled); the
warnings (261-266, 526-531) have no effect on the model.
-/

namespace Verif.Model
open Verif.Spec

variable {R : Type} [Semiring R]

/-- transformable.py 377-396: the bias operand. -/
def biasOperand (b : Option (List R)) (kernelNum : Nat) : Option (List R) :=
  match b with
  | none => some (List.replicate kernelNum 0)
  | some l => some l

/-- PAD of the channels-last input, 300-325. -/
def padInput (pH pW : Nat) (x : Tensor R) : Tensor R :=
  if 0 < pH + pW then pad [0, pH, pW, 0] [0, pH, pW, 0] 0 x else x

/-- `GenericConvOperator.transform` for a 4-D weight, 252-400.  `act` is the fused activation. -/
def lowerConv2d (a₁ a₂ : ConvAxis) (groups : Nat) (act : R → R) (x w : Tensor R) (b : Option (List R)) : Tensor R :=
  let x' := padInput a₁.pad a₂.pad (transpose [0, 2, 3, 1] x)
  let y :=
    if w.size 1 = 1 ∧ w.size 0 = groups then
      let w' := transpose [1, 2, 3, 0] w
      depthwise2d a₁.stride a₂.stride a₁.dil a₂.dil 1 act x' w' (biasOperand b (w'.size 3))
    else
      let w' := transpose [0, 2, 3, 1] w
      conv2d ⟨a₁.stride, a₂.stride, a₁.dil, a₂.dil, false⟩ act x' w' (biasOperand b (w'.size 0))
  transpose [0, 3, 1, 2] y

/-- For a 3-D weight, 199-249: both operands get an axis of size 1, the result is reshaped to the traced shape `out`. -/
def lowerConv1d (a : ConvAxis) (groups : Nat) (act : R → R) (out : List Nat) (x w : Tensor R) (b : Option (List R)) : Tensor R :=
  reshape out (lowerConv2d ⟨1, 0, 1⟩ a groups act (reshape (x.shape.insertIdx 2 1) x) (reshape (w.shape.insertIdx 2 1) w) b)

/-- For a 5-D weight. -/
def lowerConv3d (a₁ a₂ a₃ : ConvAxis) (act : R → R) (x w : Tensor R) (b : Option (List R)) : Tensor R :=
  let x' := transpose [0, 2, 3, 4, 1] x
  let x' := if 0 < a₁.pad + a₂.pad + a₃.pad then pad [0, a₁.pad, a₂.pad, a₃.pad, 0] [0, a₁.pad, a₂.pad, a₃.pad, 0] 0 x' else x'
  let w' := transpose [2, 3, 4, 1, 0] w
  let s := fun i : Fin 3 => if i = 0 then a₁.stride else if i = 1 then a₂.stride else a₃.stride
  let d := fun i : Fin 3 => if i = 0 then a₁.dil else if i = 1 then a₂.dil else a₃.dil
  transpose [0, 4, 1, 2, 3] (conv3d s d act x' w' (biasOperand b (w'.size 4)))

/-- The output shape operand of TRANSPOSE_CONV, 572-607: channels last, with the padding put back. -/
def deconvShape (pH pW : Nat) (out : List Nat) : List Nat :=
  if 0 < pH + pW then [out.getD 0 0, out.getD 2 0 + 2 * pH, out.getD 3 0 + 2 * pW, out.getD 1 0] else [out.getD 0 0, out.getD 2 0, out.getD 3 0, out.getD 1 0]

/-- `GenericTransposeConvOperator.transform` for a 4-D weight, 533-672.  `out` is the traced output shape `(n, o, h, w)`; with `withBias = false` the bias is added by an ADD behind the
operator (662-670, and 242-243 of optimize.py: nothing is fused). -/
def lowerDeconv2d (sH sW pH pW : Nat) (act : R → R) (withBias : Bool) (out : List Nat) (x w : Tensor R) (b : Option (List R)) : Tensor R :=
  let x' := transpose [0, 2, 3, 1] x
  let w' := transpose [1, 2, 3, 0] w
  let os := [out.getD 0 0, out.getD 2 0, out.getD 3 0, out.getD 1 0]
  let y := deconv2d sH sW 0 0 act (deconvShape pH pW out) w' x' (if withBias then biasOperand b (out.getD 1 0) else none)
  let y := if 0 < pH + pW then SliceOp.run (.slice [0, pH, pW, 0] os) y else y
  let y : Tensor R := match withBias, b with
    | false, some l => ⟨y.shape, fun idx => y.get idx + l.getD (idx.getD 3 0) 0⟩
    | _, _ => y
  transpose [0, 3, 1, 2] y

/-- The same with `enable_mtk_ops`, 536-546 and 624: `MTKTransposeConvOperator` is built without the fused activation, which `fuse_activation` (optimize.py 235-268) has already taken out of
the graph.  The custom operator is taken to compute the transposed convolution plus bias. -/
def lowerDeconv2dMtk (sH sW pH pW : Nat) (_act : R → R) (out : List Nat) (x w : Tensor R) (b : Option (List R)) : Tensor R :=
  lowerDeconv2d sH sW pH pW (fun v => v) true out x w b

/-- For a 3-D weight, 473-522. -/
def lowerDeconv1d (s p : Nat) (act : R → R) (withBias : Bool) (out : List Nat) (x w : Tensor R) (b : Option (List R)) : Tensor R :=
  reshape out (lowerDeconv2d 1 s 0 p act withBias (out.insertIdx 2 1) (reshape (x.shape.insertIdx 2 1) x) (reshape (w.shape.insertIdx 2 1) w) b)

end Verif.Model
