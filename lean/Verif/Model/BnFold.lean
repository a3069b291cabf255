import Verif.Spec.Conv
import Verif.Spec.Slice
import Verif.Model.Layout

/-!
Model of the batch-norm folding and of the gather absorption of
`/repo/tinynn/converter/operators/optimize.py`.  Arithmetic is over ℝ (the code uses float32); 1-D
parameter arrays are lists; weights are tensors in the order PyTorch uses (GENERIC_CONV) or TFLite uses
(CONV_2D), as in the code at the time each pass runs.
-/

namespace Verif.Model
open Verif.Spec

/-- NumPy broadcasting `weight * v.reshape([1, ..., -1, ..., 1])` with the `-1` at `axis`; `none` is the
broadcasting error. -/
def bcMul (axis : Nat) (wt : Tensor ℝ) (v : List ℝ) : Option (Tensor ℝ) :=
  if wt.shape.getD axis 0 = v.length then
    some { shape := wt.shape, get := fun idx => wt.get idx * v.getD (idx.getD axis 0) 0 }
  else if wt.shape.getD axis 0 = 1 then
    some { shape := wt.shape.set axis v.length, get := fun idx => wt.get (idx.set axis 0) * v.getD (idx.getD axis 0) 0 }
  else if v.length = 1 then some { shape := wt.shape, get := fun idx => wt.get idx * v.getD 0 0 }
  else none

/-- NumPy broadcasting `a + b` of 1-D arrays. -/
def bcAdd (a b : List ℝ) : Option (List ℝ) :=
  if a.length = b.length then some (List.zipWith (· + ·) a b)
  else if a.length = 1 then some (b.map (fun y => a.getD 0 0 + y))
  else if b.length = 1 then some (a.map (fun x => x + b.getD 0 0))
  else none

/-- `scale * (1 / np.sqrt(var + eps))`, optimize.py 4389-4391. -/
noncomputable def bnGain (eps : ℝ) (scale var : List ℝ) : List ℝ :=
  List.zipWith (fun s v => s * (1 / Real.sqrt (v + eps))) scale var

/-- `fuse_bn_weight`, optimize.py 4383-4391. -/
noncomputable def fuseBnWeight (eps : ℝ) (scale var : List ℝ) (wt : Tensor ℝ) (transpose : Bool) : Option (Tensor ℝ) :=
  bcMul (if transpose then 1 else 0) wt (bnGain eps scale var)

/-- The size-1 bias rule, optimize.py 4397-4398 and 4423-4424. -/
def repeatBias (b mean : List ℝ) : List ℝ :=
  if b.length ≠ mean.length ∧ b.length = 1 then List.replicate mean.length (b.getD 0 0) else b

/-- `fuse_bn_bias`, optimize.py 4394-4401: `(b - mean) * inv * scale + bn_b`, elementwise. -/
noncomputable def fuseBnBias (eps : ℝ) (scale var mean shift : List ℝ) (b : Option (List ℝ)) : List ℝ :=
  let centered : List ℝ := match b with
    | some b => List.zipWith (· - ·) (repeatBias b mean) mean
    | none => mean.map (fun m => -m)
  List.zipWith (· + ·)
    (List.zipWith (· * ·) (List.zipWith (fun c v => c * (1 / Real.sqrt (v + eps))) centered var) scale) shift

/-- `fuse_rev_bn_weight`, optimize.py 4404-4409. -/
noncomputable def fuseRevBnWeight (eps : ℝ) (scale var : List ℝ) (wt : Tensor ℝ) : Option (Tensor ℝ) :=
  bcMul 1 wt (bnGain eps scale var)

/-- `weight.sum(reduced_dims)[o][i]`, optimize.py 4413: the sum over all axes after the second. -/
noncomputable def sumKernel (wt : Tensor ℝ) (o i : Nat) : ℝ :=
  ((kernelIdx (fun a => wt.shape.getD (a + 2) 0) (wt.shape.length - 2)).map (fun κ => wt.get (o :: i :: κ))).sum

/-- `fuse_rev_bn_bias`, optimize.py 4412-4428; `none` is a NumPy shape error. -/
noncomputable def fuseRevBnBias (eps : ℝ) (scale var mean shift : List ℝ) (b : Option (List ℝ)) (wt : Tensor ℝ) :
    Option (List ℝ) :=
  let fused : List ℝ := List.zipWith (fun s (p : ℝ × ℝ × ℝ) => s - p.1 * (1 / Real.sqrt (p.2.1 + eps)) * p.2.2) shift
    (List.zip mean (List.zip var scale))
  let cout := wt.shape.getD 0 0
  let offset : Option (List ℝ) :=
    if wt.shape.getD 1 0 = 1 ∧ 1 < mean.length then
      -- `weight.sum(...)` is (cout, 1), `fused_b.reshape(-1, 1)` is (C, 1)
      if cout = fused.length then some ((List.range cout).map (fun o => sumKernel wt o 0 * fused.getD o 0))
      else if cout = 1 then some (fused.map (fun f => sumKernel wt 0 0 * f))
      else none
    else if wt.shape.getD 1 0 = fused.length then
      some ((List.range cout).map (fun o =>
        ((List.range fused.length).map (fun i => sumKernel wt o i * fused.getD i 0)).sum))
    else none
  offset.bind (fun offset =>
    match b with
    | some b => bcAdd (repeatBias b mean) offset
    | none => some offset)

/-- `_skip_pred` of `fuse_bn_conv`, optimize.py 214-221 (float model: `quantization is None`). -/
def revBnSkip (wshape : List Nat) (groups : Nat) : Bool :=
  decide (wshape.getD 1 0 = 1) && decide (wshape.getD 0 0 = groups) && decide (1 < groups)

/-- `fuse_conv2d_gather`, optimize.py 586-592 and 604-607: `np.take(w, indx, axis=0)`, `np.take(b, indx, axis=0)`. -/
def convGatherWeight {R : Type} (wt : Tensor R) (ix : List Nat) : Tensor R := gather 0 ix wt
def convGatherBias {R : Type} [Zero R] (b : List R) (ix : List Nat) : List R := ix.map (fun k => b.getD k 0)

/-- `is_conv2d_gather_edge`, optimize.py 4268: as many indices as output channels. -/
def convGatherOk (wshape : List Nat) (ix : List Nat) : Bool := wshape.getD 0 0 == ix.length

/-- `fuse_gather_conv2d`, optimize.py 634-637: `np.take(w, np.argsort(indx), axis=3)`; `ax` is the last
axis of the weight and `order` the result of `np.argsort`. -/
def gatherConvWeight {R : Type} (ax : Nat) (wt : Tensor R) (order : List Nat) : Tensor R := gather ax order wt

/-- `is_gather_conv2d_edge`, optimize.py 4283: as many indices as weight input channels. -/
def gatherConvOk (ax : Nat) (wshape : List Nat) (ix : List Nat) : Bool := wshape.getD ax 0 == ix.length

end Verif.Model
