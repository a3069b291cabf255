import Verif.Spec.Float

/-!
Model of `ATenMaskedFillOperator` and `ATenWhereOperator`, `/repo/tinynn/converter/operators/torch/aten.py` 3925-4031 and 4111-4121, on floating-point tensors: the result
is computed as `x * (1 - mask) + value * mask`.
-/

namespace Verif.Model
open Verif.Spec

/-- How the fill value is given. -/
inductive FillKind
  /-- a Python number (3985-3994) -/
  | number
  /-- a constant tensor of another type (3970-3984) -/
  | castConstant
  /-- a tensor of another type computed by the model (3958-3969) -/
  | castVariable
  /-- a tensor of the same type, constant or not (3954-3955) -/
  | sameType
  deriving DecidableEq

/-- Lines 3975-3981 and 3987-3993: for numbers and converted constants an infinite value is replaced by the largest finite one, `big`. -/
def clampFill (big : ℚ) (kind : FillKind) (v : FVal) : FVal :=
  match kind with
  | .number | .castConstant =>
    match v with
    | .inf neg => .fin (if neg then -big else big)
    | _ => v
  | _ => v

/-- Lines 3998-4031: CAST, MUL, SUB, MUL and ADD; what is known when converting is computed with the same formulas. -/
def convertMaskedFill (big : ℚ) (kind : FillKind) (x : Tensor FVal) (mask : Tensor Bool) (value : Tensor FVal) : Option (Tensor FVal) := do
  let inputMask : Tensor FVal := ⟨mask.shape, fun idx => FVal.ofBool (mask.get idx)⟩
  let other : Tensor FVal := ⟨value.shape, fun idx => clampFill big kind (value.get idx)⟩
  let masked ← elementwise FVal.mul other inputMask
  let one : Tensor FVal := ⟨[1], fun _ => .fin 1⟩
  let revMask ← elementwise FVal.sub one inputMask
  let nonMasked ← elementwise FVal.mul x revMask
  elementwise FVal.add nonMasked masked

end Verif.Model
