import Verif.Spec.GroupConv

/-!
Model of `group_conv_rewrite_pass` and `group_deconv_rewrite_pass`, `/repo/tinynn/converter/operators/optimize.py` 2746-2934: the
operators emitted for one grouped (transposed) convolution.  The surgery on the graph's edges is not modelled.  Tensors are over a
semiring (float32 or the quantized values in the code); `none` is the exception `np.split` raises on an uneven division.
-/

namespace Verif.Model
open Verif.Spec

variable {R : Type} [Semiring R] [Inhabited R]

/-- `np.split(arr, n, axis)`: equal parts, an exception if the axis is not divisible (or `n` is 0). -/
def npSplit (t : Tensor R) (n axis : Nat) : Option (List (Tensor R)) :=
  if n ≠ 0 ∧ t.size axis % n = 0 then some ((List.range n).map (split axis n t)) else none

/-- `np.split(arr, n, 0)` of a 1-D array. -/
def npSplit1 (b : List R) (n : Nat) : Option (List (List R)) :=
  if n ≠ 0 ∧ b.length % n = 0 then some ((List.range n).map (fun k => (b.drop (k * (b.length / n))).take (b.length / n))) else none

/-- `is_group_conv_node` and `is_group_deconv_node`, optimize.py 3781-3792. -/
def isGroupConv (xshape wshape : List Nat) : Bool := xshape.getD 3 0 != wshape.getD 3 0
def isGroupDeconv (outshape wshape : List Nat) : Bool := outshape.getD 3 0 != wshape.getD 0 0

/-- The emitted subgraph: a SPLIT of the input in `chunks` parts along `axis`, one convolution for each part with its own weight and
bias, and a CONCATENATION along `axis`. -/
structure GroupProgram (R : Type) where
  chunks : Nat
  axis : Nat
  convs : List (Tensor R × Option (List R))

/-- optimize.py 2797-2803 and 2895-2901. -/
def splitBias (b : Option (List R)) (n : Nat) : Option (List (Option (List R))) :=
  match b with
  | none => some (List.replicate n none)
  | some b => (npSplit1 b n).map (List.map some)

/-- optimize.py 2780-2832.  The split of the output array (2788-2791) fails exactly when that of the weight does.  The attributes and the fused activation are copied from the original operator. -/
def groupConvRewrite (x w : Tensor R) (b : Option (List R)) : Option (GroupProgram R) :=
  let numChunks := x.size 3 / w.size 3
  match npSplit x numChunks 3, npSplit w numChunks 0, splitBias b numChunks with
  | some _, some ws, some bs => some { chunks := numChunks, axis := 3, convs := ws.zip bs }
  | _, _, _ => none

/-- Running the subgraph emitted by `groupConvRewrite`. -/
def runGroupConv (att : ConvAttrs) (act : R → R) (p : GroupProgram R) (x : Tensor R) : Tensor R :=
  concat p.axis (List.zipWith (fun k (c : Tensor R × Option (List R)) => conv2d att act (split p.axis p.chunks x k) c.1 c.2)
    (List.range p.chunks) p.convs)

/-- optimize.py 2878-2929; also returns the new output shape `new_os`.  `TransposeConvOperator` is built without
`fusedActivationFunction`, so it has its default, no activation. -/
def groupDeconvRewrite (os : List Nat) (w x : Tensor R) (b : Option (List R)) : Option (GroupProgram R × List Nat) :=
  let numChunks := os.getD 3 0 / w.size 0
  match npSplit x numChunks 3, npSplit w numChunks 3, splitBias b numChunks with
  | some _, some ws, some bs => some ({ chunks := numChunks, axis := 3, convs := ws.zip bs }, os.set 3 (w.size 0))
  | _, _, _ => none

/-- Running the subgraph emitted by `groupDeconvRewrite`. -/
def runGroupDeconv (strideH strideW padH padW : Nat) (p : GroupProgram R × List Nat) (x : Tensor R) : Tensor R :=
  concat p.1.axis (List.zipWith
    (fun k (c : Tensor R × Option (List R)) => deconv2d strideH strideW padH padW id p.2 c.1 (split p.1.axis p.1.chunks x k) c.2)
    (List.range p.1.chunks) p.1.convs)

/-- The scale the runtime uses for output channel `o` of the weight of group `k` after the rewriting: the chunk keeps
`weight_tensor.quantization` as it is (optimize.py 2792-2795), so its channel `o` is looked up in the full list. -/
def chunkScale (scales : List R) (_k o : Nat) : R := scales.getD o default

end Verif.Model
