import Verif.Spec.BatchNorm
import Verif.Spec.Broadcast

/-!
Model of the conversion of batch normalization: `BatchNormOperator.transform` (`/repo/tinynn/converter/operators/tflite/transformable.py` 82-147), `ATenBatchNormOperator`
(`/repo/tinynn/converter/operators/torch/aten.py` 901-925) and the quantized ones (`/repo/tinynn/converter/operators/torch/quantized.py` 179-220).  Tensors stand for the numbers the emitted operators
compute, in exact arithmetic; the square root is a parameter.  Fusing into a neighbouring convolution is C12 and C13.
-/

namespace Verif.Model.BatchNorm
open Verif.Spec Verif.Spec.BatchNorm

variable {K : Type} [Field K]

/-- The fused activation of the ADD. -/
inductive Act
  | none
  | relu

/-- `new_w.reshape([1] + [new_w.shape[0]] + [1] * (inp.tensor.ndim - 2))` (transformable.py:116-119). -/
def widen (rank : ℕ) (w : Tensor K) : Tensor K := reshape (1 :: w.shape.getD 0 0 :: List.replicate (rank - 2) 1) w

/-- `inv * w` and `b - mean * new_w` (transformable.py:110-112); all four have one element per channel. -/
def newWeight (sqrt : K → K) (eps : K) (w var : Tensor K) : Tensor K := ⟨w.shape, fun i => 1 / sqrt (var.get i + eps) * w.get i⟩

/-- See `newWeight`. -/
def newBias (b mean newW : Tensor K) : Tensor K := ⟨b.shape, fun i => b.get i - mean.get i * newW.get i⟩

/-- MUL and ADD (transformable.py:121-140) on an input that is not quantized; `act` is the activation fused into the ADD. -/
def transform (sqrt : K → K) (eps : K) (act : K → K) (w b mean var x : Tensor K) : Option (Tensor K) := do
  let nw := newWeight sqrt eps w var
  let nb := newBias b mean nw
  let mulOut ← elementwise (· * ·) x (widen x.shape.length nw)
  let addOut ← elementwise (· + ·) mulOut (widen x.shape.length nb)
  some ⟨addOut.shape, fun i => act (addOut.get i)⟩

/-- `aten::batch_norm` (aten.py:901-925): a missing weight is ones and a missing bias zeros; without running statistics an error.  The training flag is not read. -/
def convertBatchNorm (sqrt : K → K) (eps : K) (w b mean var : Option (Tensor K)) (_training : Bool) (x : Tensor K) : Option (Tensor K) :=
  match mean, var with
  | some mean, some var =>
    let ones : Tensor K := ⟨[x.shape.getD 1 0], fun _ => 1⟩
    let zeros : Tensor K := ⟨[x.shape.getD 1 0], fun _ => 0⟩
    transform sqrt eps id (w.getD ones) (b.getD zeros) mean var x
  | _, _ => none

/-- The activation of the operator made by the quantized conversions (quantized.py:188, 202, 217): `RELU` is passed in the place of `quantization`, and the activation stays `NONE`. -/
def quantAct (_relu : Bool) : Act := .none

/-- DEQUANTIZE, batch normalization, QUANTIZE (quantized.py:179-220, torch/base.py:370-385). -/
noncomputable def convertQuantBatchNorm (rnd : ℝ → ℤ) (sqrt : ℝ → ℝ) (relu : Bool) (eps : ℝ) (w b mean var : Tensor ℝ) (p q : QP) (x : Tensor ℤ) : Option (Tensor ℤ) := do
  let act : ℝ → ℝ := match quantAct relu with
    | .none => id
    | .relu => fun y => max y 0
  let y ← transform sqrt eps act w b mean var ⟨x.shape, fun i => p.real (x.get i)⟩
  some ⟨y.shape, fun i => q.quant rnd (y.get i)⟩

end Verif.Model.BatchNorm
