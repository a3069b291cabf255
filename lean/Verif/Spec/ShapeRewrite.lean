import Verif.Spec.AvgPool
import Verif.Spec.TorchConv
import Verif.Spec.Expand
import Verif.Spec.Norm

/-! Specification for C89: the layers whose form is changed before quantization (pooling with kernel 1, fully connected layers, batch norm), as PyTorch defines them. -/

namespace Verif.Spec

/-- The value of `kernel_size` or `stride`: left out (or `None`), an integer, or a list of integers. -/
inductive SizeArg
  | missing
  | int (n : Nat)
  | list (l : List Nat)
  deriving DecidableEq, Repr

/-- The sizes of `d` spatial axes: an integer or a list of one integer holds for all of them; `dflt` is for a stride that is left out or empty. -/
def SizeArg.sizes (d : Nat) (dflt : Option (List Nat)) : SizeArg → Option (List Nat)
  | .missing => dflt
  | .int n => some (List.replicate d n)
  | .list [] => dflt
  | .list [n] => some (List.replicate d n)
  | .list l => if l.length = d then some l else none

/-- A window over the last `sizes.length` axes of a tensor of the given rank; it covers one position of the axes before them. -/
def tailWindow (rank : Nat) (kernel stride dilation : List Nat) : Window where
  kernel := fun a => if a + kernel.length < rank then 1 else kernel.getD (a + kernel.length - rank) 1
  stride := fun a => if a + stride.length < rank then 1 else stride.getD (a + stride.length - rank) 1
  dilation := fun a => if a + dilation.length < rank then 1 else dilation.getD (a + dilation.length - rank) 1

/-- The padding of the last `pad.length` axes. -/
def tailPad (rank : Nat) (pad : List Nat) : Nat → Nat := fun a => if a + pad.length < rank then 0 else pad.getD (a + pad.length - rank) 0

/-- Kernel, stride, padding and dilation of a pooling over `d` axes, checked as PyTorch does: positive strides, and a padding of at most half the kernel. -/
def poolSizes (d : Nat) (kernel stride padding dilation : SizeArg) : Option (List Nat × List Nat × List Nat × List Nat) :=
  match kernel.sizes d none with
  | none => none
  | some k => match stride.sizes d (some k), padding.sizes d (some (List.replicate d 0)), dilation.sizes d (some (List.replicate d 1)) with
    | some s, some p, some l => if (∀ n ∈ s, 0 < n) ∧ (∀ a < d, 2 * p.getD a 0 ≤ k.getD a 0) then some (k, s, p, l) else none
    | _, _, _ => none

/-- `F.max_pool1d` (`d = 1`) and `F.max_pool2d` (`d = 2`) on a batch or a single sample. -/
def maxPoolNd {R : Type} [LinearOrder R] (d : Nat) (kernel stride padding dilation : SizeArg) (ceil : Bool) (lowest : R) (x : Tensor R) : Option (Tensor R) :=
  match poolSizes d kernel stride padding dilation with
  | some (k, s, p, l) => if x.shape.length = d + 1 ∨ x.shape.length = d + 2 then
      some (maxPoolTorch ceil lowest (tailWindow x.shape.length k s l) (tailPad x.shape.length p) x) else none
  | none => none

/-- `F.avg_pool1d` and `F.avg_pool2d`. -/
def avgPoolNd (d : Nat) (kernel stride padding : SizeArg) (ceil includePad : Bool) (divisor : Option Nat) (x : Tensor ℚ) : Option (Tensor ℚ) :=
  match poolSizes d kernel stride padding .missing with
  | some (k, s, p, l) => if x.shape.length = d + 1 ∨ x.shape.length = d + 2 then
      some (avgPoolTorch ceil includePad divisor (tailWindow x.shape.length k s l) (tailPad x.shape.length p) x) else none
  | none => none

/-- `t[::s₀, ::s₁, ...]`; `none` is the IndexError for more slices than axes. -/
def stepSlices {α : Type} (steps : List (Option Nat)) (t : Tensor α) : Option (Tensor α) :=
  if steps.length ≤ t.shape.length then
    some { shape := (List.range t.shape.length).map (fun a => (t.shape.getD a 0 + ((steps.getD a none).getD 1 - 1)) / (steps.getD a none).getD 1),
           get := fun idx => t.get ((List.range t.shape.length).map (fun a => idx.getD a 0 * (steps.getD a none).getD 1)) }
  else none

/-- `t[..., None]`, `torch.unsqueeze(t, a)` for an axis `a` between 0 and the rank. -/
def unsqueezeAt {α : Type} (a : Nat) (t : Tensor α) : Tensor α := ⟨t.shape.insertIdx a 1, fun idx => t.get (idx.eraseIdx a)⟩

/-- `torch.squeeze(t, a)`: the axis is dropped if its size is 1. -/
def squeezeAt {α : Type} (a : Nat) (t : Tensor α) : Tensor α :=
  if t.shape[a]? = some 1 then ⟨t.shape.eraseIdx a, fun idx => t.get (idx.insertIdx a 0)⟩ else t

/-- `torch.flatten(t, 1)`: all axes after the first become one. -/
def flattenFrom1 {α : Type} (t : Tensor α) : Tensor α := reshape [t.size 0, (t.shape.drop 1).prod] t

/-- `t.expand_as(u)` for `u` of shape `out`; `none` is the error for a shape that cannot be expanded. -/
def expandTo {α : Type} (out : List Nat) (t : Tensor α) : Option (Tensor α) :=
  if t.shape.length ≤ out.length ∧ (List.range t.shape.length).all (fun a =>
      decide (t.shape.getD a 0 = out.getD (a + (out.length - t.shape.length)) 0 ∨ t.shape.getD a 0 = 1)) then some (torchExpand out t) else none

/-- `torch.broadcast_tensors(a, b)`. -/
def broadcastTensors {α : Type} (a b : Tensor α) : Option (Tensor α × Tensor α) :=
  (bcShape a.shape b.shape).map (fun s => (torchExpand s a, torchExpand s b))

/-- What a statement of the generated code leaves in a variable: a tensor or a pair of tensors. -/
inductive Val (α : Type)
  | tensor (t : Tensor α)
  | pair (a b : Tensor α)

/-- `v[i]`: a component of a pair, or the `i`-th slice of a tensor along its first axis. -/
def Val.item {α : Type} : Val α → Nat → Option (Val α)
  | .pair a _, 0 => some (.tensor a)
  | .pair _ b, 1 => some (.tensor b)
  | .pair _ _, _ => none
  | .tensor t, i => if i < t.shape.headD 0 then some (.tensor (unpack 0 i t)) else none

/-- `v[i₀][i₁]...` -/
def Val.items {α : Type} : Val α → List Nat → Option (Val α)
  | v, [] => some v
  | v, i :: is => (v.item i).bind (fun u => u.items is)

variable {K : Type} [Field K]

/-- `nn.Linear` on a matrix with one row per sample. -/
def linear2 (w : Tensor K) (b : Option (List K)) (x : Tensor K) : Tensor K where
  shape := [x.size 0, w.size 0]
  get := fun idx => ((List.range (w.size 1)).map (fun i => w.get [idx.getD 1 0, i] * x.get [idx.getD 0 0, i])).sum + biasOf b (idx.getD 1 0)

/-- Parameters of a batch norm layer.  The running statistics may be missing (`track_running_stats=False`), as may weight and bias (`affine=False`).
`momentum=None`, which makes the factor depend on the number of steps, is not expressed. -/
structure BatchNorm (K : Type) where
  features : Nat
  eps : K
  momentum : K
  affine : Option (List K × List K)
  running : Option (List K × List K)

/-- The elements of channel `c` (axis 1) of the whole batch. -/
def channelElems (x : Tensor K) (c : Nat) : List K := ((allIndices x.shape).filter (fun j => decide (j.getD 1 0 = c))).map x.get

/-- Mean and variance channel `c` is normalised with: those of the batch while training or without running statistics, otherwise the running ones. -/
def BatchNorm.stats (bn : BatchNorm K) (training : Bool) (x : Tensor K) (c : Nat) : K × K :=
  match training, bn.running with
  | false, some (m, v) => (m.getD c 0, v.getD c 0)
  | _, _ => (avg (channelElems x c), variance (channelElems x c))

/-- The output of a batch norm layer on a tensor with channels on axis 1. -/
def BatchNorm.out (sqrt : K → K) (bn : BatchNorm K) (training : Bool) (x : Tensor K) : Tensor K where
  shape := x.shape
  get := fun idx =>
    let c := idx.getD 1 0
    let v := (x.get idx - (bn.stats training x c).1) / sqrt ((bn.stats training x c).2 + bn.eps)
    match bn.affine with
    | none => v
    | some (w, b) => v * w.getD c 0 + b.getD c 0

/-- The running statistics after a step: while training they move towards the batch's mean and unbiased variance. -/
def BatchNorm.step (bn : BatchNorm K) (training : Bool) (x : Tensor K) : Option (List K × List K) :=
  if training then bn.running.map (fun mv =>
    let n : Nat → K := fun c => ((channelElems x c).length : K)
    ((List.range bn.features).map (fun c => (1 - bn.momentum) * mv.1.getD c 0 + bn.momentum * avg (channelElems x c)),
     (List.range bn.features).map (fun c => (1 - bn.momentum) * mv.2.getD c 0 + bn.momentum * (variance (channelElems x c) * (n c / (n c - 1))))))
  else bn.running

/-- Output and new running statistics; `none` is the error for an input of the wrong rank (`BatchNorm1d`: 2 or 3 axes, `BatchNorm2d`: 4) or number of channels. -/
def BatchNorm.run (sqrt : K → K) (ranks : List Nat) (bn : BatchNorm K) (training : Bool) (x : Tensor K) : Option (Tensor K × Option (List K × List K)) :=
  if x.shape.length ∈ ranks ∧ x.size 1 = bn.features then some (bn.out sqrt training x, bn.step training x) else none

end Verif.Spec
