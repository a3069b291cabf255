import Verif.Spec.AxisOps
import Mathlib.Algebra.Field.Defs

/-! PyTorch's normalisation layers and statistics over a field, with the square root as a parameter (every theorem holds for whatever function is used for it). -/

namespace Verif.Spec
variable {K : Type} [Field K]

/-- The mean of a list of numbers. -/
def avg (xs : List K) : K := xs.sum / (xs.length : K)

/-- The mean squared distance from the mean. -/
def variance (xs : List K) : K := avg (xs.map (fun y => (y - avg xs) ^ 2))

/-- Element `idx` of `x`, normalised with the mean and variance of the elements in its group: the indices `j` with `same idx j`. -/
def normalised (sqrt : K → K) (eps : K) (same : List Nat → List Nat → Bool) (x : Tensor K) (idx : List Nat) : K :=
  let xs := ((allIndices x.shape).filter (same idx)).map x.get
  (x.get idx - avg xs) / sqrt (variance xs + eps)

/-- `F.layer_norm` over the last `k` axes. -/
def torchLayerNorm (sqrt : K → K) (eps : K) (k : Nat) (w b x : Tensor K) : Tensor K where
  shape := x.shape
  get := fun idx =>
    let lead := x.shape.length - k
    normalised sqrt eps (fun i j => decide (j.take lead = i.take lead)) x idx * w.get (idx.drop lead) + b.get (idx.drop lead)

/-- The optional weight and bias per channel (axis 1). -/
def channelAffine (wb : Option (Tensor K × Tensor K)) (idx : List Nat) (v : K) : K :=
  match wb with
  | none => v
  | some (w, b) => v * w.get [idx.getD 1 0] + b.get [idx.getD 1 0]

/-- `F.instance_norm` with the statistics of the input: every channel of every sample is a group. -/
def torchInstanceNorm (sqrt : K → K) (eps : K) (wb : Option (Tensor K × Tensor K)) (x : Tensor K) : Tensor K where
  shape := x.shape
  get := fun idx => channelAffine wb idx (normalised sqrt eps (fun i j => decide (j.take 2 = i.take 2)) x idx)

/-- `F.group_norm`: channels `0 .. C/G - 1` of a sample are the first group, and so on. -/
def torchGroupNorm (sqrt : K → K) (eps : K) (groups : Nat) (wb : Option (Tensor K × Tensor K)) (x : Tensor K) : Tensor K where
  shape := x.shape
  get := fun idx => channelAffine wb idx (normalised sqrt eps
    (fun i j => decide (j.getD 0 0 = i.getD 0 0 ∧ j.getD 1 0 / (x.shape.getD 1 0 / groups) = i.getD 1 0 / (x.shape.getD 1 0 / groups))) x idx)

/-- A reduction over axes: with `keepdim` they get size 1, otherwise they disappear. -/
def reduceAxes {α β : Type} (keep : Bool) (axes : List Nat) (f : List α → β) (t : Tensor α) : Tensor β :=
  let r := reduceKeep axes f t
  if keep then r else reshape (((List.range t.shape.length).filter (fun a => a ∉ axes)).map (fun a => t.shape.getD a 0)) r

/-- `torch.var` with a correction: the sum of the squared distances from the mean, divided by the number of elements minus the correction. -/
def torchVar (keep : Bool) (axes : List Nat) (correction : K) (x : Tensor K) : Tensor K :=
  reduceAxes keep axes (fun xs => (xs.map (fun y => (y - avg xs) ^ 2)).sum / ((xs.length : K) - correction)) x

end Verif.Spec
