import Verif.Spec.Norm
import Verif.Spec.Activation
import Verif.Spec.AxisOps

/-! Specification for C88: PyTorch's layers with optional parameters that TinyNeuralNetwork replaces before quantization (the others are in Spec/Activation.lean). -/

namespace Verif.Spec
variable {K : Type} [Field K]

/-- An optional factor or summand, laid out like the last axes. -/
def tailParam (dflt : K) (lead : Nat) (p : Option (Tensor K)) (idx : List Nat) : K := match p with
  | some w => w.get (idx.drop lead)
  | none => dflt

/-- `nn.LayerNorm` over the last `k` axes; weight and bias may be missing (`elementwise_affine=False`, `bias=False`). -/
def layerNorm (sqrt : K → K) (eps : K) (k : Nat) (w b : Option (Tensor K)) (x : Tensor K) : Tensor K where
  shape := x.shape
  get := fun idx =>
    let lead := x.shape.length - k
    normalised sqrt eps (fun i j => decide (j.take lead = i.take lead)) x idx * tailParam 1 lead w idx + tailParam 0 lead b idx

/-- `nn.RMSNorm` over the last `k` axes: `x / sqrt(mean(x²) + eps) * weight`; without `eps` the machine epsilon `machine` is used. -/
def rmsNorm (sqrt : K → K) (machine : K) (eps : Option K) (k : Nat) (w : Option (Tensor K)) (x : Tensor K) : Tensor K where
  shape := x.shape
  get := fun idx =>
    let lead := x.shape.length - k
    let xs := ((allIndices x.shape).filter (fun j => decide (j.take lead = idx.take lead))).map x.get
    x.get idx / sqrt (avg (xs.map (fun y => y ^ 2)) + eps.getD machine) * tailParam 1 lead w idx

end Verif.Spec
