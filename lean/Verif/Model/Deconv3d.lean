import Verif.Model.ConvLower
import Verif.Spec.TorchDeconv3d

/-!
`GenericTransposeConvOperator.transform` for a 5-D weight, tinynn/converter/operators/tflite/transformable.py 554-672.
-/

namespace Verif.Model

open Verif.Spec

variable {R : Type} [Semiring R]

/-- The output shape operand, 572-607: `conv_op.outputs[0].shape` after the layout change, with the padding put back by `np.pad`. -/
def deconvShape3 (p₁ p₂ p₃ : Nat) (out : List Nat) : List Nat :=
  if 0 < p₁ + p₂ + p₃ then [out.getD 0 0, out.getD 2 0 + 2 * p₁, out.getD 3 0 + 2 * p₂, out.getD 4 0 + 2 * p₃, out.getD 1 0]
  else [out.getD 0 0, out.getD 2 0, out.getD 3 0, out.getD 4 0, out.getD 1 0]

/-- 554-672.  `out` is the traced output shape `(n, o, d, h, w)`.  With `withBias = false` the bias is added by an ADD before the layout change back (662-670). -/
def lowerDeconv3d (a₁ a₂ a₃ : DeconvAxis) (act : R → R) (withBias : Bool) (out : List Nat) (x w : Tensor R) (b : Option (List R)) : Tensor R :=
  let x' := transpose [0, 2, 3, 4, 1] x
  let w' := transpose [2, 3, 4, 1, 0] w
  let s := fun i : Fin 3 => if i = 0 then a₁.stride else if i = 1 then a₂.stride else a₃.stride
  let d := fun i : Fin 3 => if i = 0 then a₁.dil else if i = 1 then a₂.dil else a₃.dil
  let os := [out.getD 0 0, out.getD 2 0, out.getD 3 0, out.getD 4 0, out.getD 1 0]
  let y := deconv3d s d act (deconvShape3 a₁.pad a₂.pad a₃.pad out) w' x' (if withBias then biasOperand b (out.getD 1 0) else none)
  let y := if 0 < a₁.pad + a₂.pad + a₃.pad then SliceOp.run (.slice [0, a₁.pad, a₂.pad, a₃.pad, 0] os) y else y
  let y : Tensor R := match withBias, b with
    | false, some l => ⟨y.shape, fun idx => y.get idx + l.getD (idx.getD 4 0) 0⟩
    | _, _ => y
  transpose [0, 4, 1, 2, 3] y

end Verif.Model
