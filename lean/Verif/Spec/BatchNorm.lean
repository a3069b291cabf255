import Verif.Spec.Norm
import Verif.Spec.Requant

/-! PyTorch's batch normalization with given statistics, with the statistics of the batch, and on quantized tensors. -/

namespace Verif.Spec.BatchNorm
open Verif.Spec

/-- `F.batch_norm(x, mean, var, w, b, training=False, eps)`: every channel (axis 1) with its own numbers; without a weight 1, without a bias 0. -/
def torchBatchNorm {K : Type} [Field K] (sqrt : K → K) (eps : K) (w b : Option (Tensor K)) (mean var x : Tensor K) : Tensor K where
  shape := x.shape
  get := fun idx =>
    let c := [idx.getD 1 0]
    (x.get idx - mean.get c) / sqrt (var.get c + eps) * (w.elim 1 fun w => w.get c) + (b.elim 0 fun b => b.get c)

/-- `F.batch_norm(..., training=True)`: the statistics of the batch. -/
def torchBatchNormTraining {K : Type} [Field K] (sqrt : K → K) (eps : K) (w b : Option (Tensor K)) (x : Tensor K) : Tensor K where
  shape := x.shape
  get := fun idx =>
    let c := [idx.getD 1 0]
    normalised sqrt eps (fun i j => j.getD 1 0 = i.getD 1 0) x idx * (w.elim 1 fun w => w.get c) + (b.elim 0 fun b => b.get c)

/-- `quantized::batch_norm`, and with `relu` `quantized::batch_norm2d_relu`: the numbers the input stands for are normalized, negative ones replaced by zero if asked, and quantized. -/
noncomputable def torchQuantBatchNorm (rnd : ℝ → ℤ) (relu : Bool) (eps : ℝ) (w b mean var : Tensor ℝ) (p q : QP) (x : Tensor ℤ) (sqrt : ℝ → ℝ) : Tensor ℤ where
  shape := x.shape
  get := fun idx =>
    let y := (torchBatchNorm sqrt eps (some w) (some b) mean var ⟨x.shape, fun i => p.real (x.get i)⟩).get idx
    q.quant rnd (if relu then max y 0 else y)

end Verif.Spec.BatchNorm
