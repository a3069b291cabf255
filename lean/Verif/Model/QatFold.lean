import Verif.Spec.BatchNormMap

/-!
Model of `fuse_conv_bn_weights` and `fuse_bn_conv_weights`, `/repo/tinynn/graph/quantization/utils.py` 4-23 and 26-52, and of the forward pass
of the quantization-aware transposed convolution with batch norm, `/repo/tinynn/graph/quantization/qat_modules.py` 461-485.  Floats are real numbers.
A weight tensor has two channel dimensions and one kernel dimension; broadcasting follows PyTorch.
-/

namespace Verif.Model
open Verif.Spec

/-- A weight tensor of shape `(d0, d1, k)`. -/
structure WTensor where
  d0 : Nat
  d1 : Nat
  k : Nat
  w : Nat → Nat → Nat → ℝ

/-- The size of a dimension after broadcasting; `none` is the RuntimeError. -/
def bcast (a b : Nat) : Option Nat := if a = b then some a else if a = 1 then some b else if b = 1 then some a else none

/-- Index into a dimension of size `d` that is broadcast. -/
def bidx (d i : Nat) : Nat := if d = 1 then 0 else i

/-- `w * v.reshape([-1, 1, 1])`, with `v` of length `n`. -/
noncomputable def mulDim0 (w : WTensor) (n : Nat) (v : Nat → ℝ) : Option WTensor :=
  (bcast w.d0 n).map (fun d => { w with d0 := d, w := fun a b t => w.w (bidx w.d0 a) b t * v (bidx n a) })

/-- `w * v.reshape([1, -1, 1])`. -/
noncomputable def mulDim1 (w : WTensor) (n : Nat) (v : Nat → ℝ) : Option WTensor :=
  (bcast w.d1 n).map (fun d => { w with d1 := d, w := fun a b t => w.w a (bidx w.d1 b) t * v (bidx n b) })

/-- The bias of the convolution, zero if there is none (lines 5-6 and 27-28). -/
def biasOr0 (b : Option (Nat → ℝ)) : Nat → ℝ := match b with | none => fun _ => 0 | some b => b

/-- `fuse_conv_bn_weights`, utils.py 4-23. -/
noncomputable def fuseConvBn (w : WTensor) (b : Option (Nat → ℝ)) (bn : BnParams) (transpose : Bool) : Option (WTensor × (Nat → ℝ)) :=
  let v := fun c => bn.gamma c * bn.rs c
  let fusedB := fun c => (biasOr0 b c - bn.mean c) * bn.rs c * bn.gamma c + bn.beta c
  ((if transpose then mulDim1 w bn.channels v else mulDim0 w bn.channels v)).map (fun w' => (w', fusedB))

/-- `conv_w.sum(dim=reduced_dims)`. -/
noncomputable def kernelSum (w : WTensor) (a b : Nat) : ℝ := ∑ t ∈ Finset.range w.k, w.w a b t

/-- utils.py 39-44: the offset of the bias.  `none` is a shape error. -/
noncomputable def bnConvOffset (w : WTensor) (bn : BnParams) : Option (Nat → ℝ) :=
  let fusedB := fun c => bn.beta c - bn.mean c * bn.rs c * bn.gamma c
  if w.d1 = 1 ∧ bn.channels > 1 then
    if w.d0 = bn.channels then some (fun o => kernelSum w o 0 * fusedB o)      -- `[d0, 1] * [n, 1]`
    else if w.d0 = 1 then some (fun o => kernelSum w 0 0 * fusedB o)
    else none
  else if w.d1 = bn.channels then some (fun o => ∑ i ∈ Finset.range w.d1, kernelSum w o i * fusedB i)
  else none

/-- `fuse_bn_conv_weights`, utils.py 26-52. -/
noncomputable def fuseBnConv (w : WTensor) (b : Option (Nat → ℝ)) (bn : BnParams) : Option (WTensor × (Nat → ℝ)) :=
  (bnConvOffset w bn).bind (fun off =>
    (mulDim1 w bn.channels (fun c => bn.gamma c * bn.rs c)).map (fun w' => (w', fun o => biasOr0 b o + off o)))

/-- The module that results: the weights and bias are put back in the convolution, whose `groups` stay as they were.  `none` when PyTorch
rejects the shapes: a convolution of `inCh` channels needs `(d0, inCh / groups)`. -/
def asConv (groups inCh : Nat) (r : WTensor × (Nat → ℝ)) : Option ConvParams :=
  if r.1.d1 * groups = inCh ∧ groups ∣ r.1.d0 then some ⟨groups, r.1.d1, r.1.d0 / groups, r.1.k, r.1.w, some r.2⟩ else none

/-- The same for a transposed convolution with `outCh` outputs (the bias has one element per output). -/
def asDeconv (groups inCh outCh : Nat) (r : WTensor × (Nat → ℝ)) : Option DeconvParams :=
  if r.1.d0 = inCh ∧ groups ∣ inCh ∧ r.1.d1 * groups = outCh then some ⟨groups, inCh / groups, r.1.d1, r.1.k, r.1.w, some r.2⟩ else none

/-- The weight of a convolution as a tensor. -/
def convWeight (p : ConvParams) : WTensor := ⟨p.groups * p.outPer, p.inPer, p.k, p.w⟩
def deconvWeight (p : DeconvParams) : WTensor := ⟨p.groups * p.inPer, p.outPer, p.k, p.w⟩

/-- `_ConvTransposeBnNd._forward`, qat_modules.py 461-485, for one group, with the fake quantizer of the weight switched off; `none` is a division
by zero (the result is NaN). -/
noncomputable def qatDeconvForward {M : Type} [AddCommGroup M] [Module ℝ M] (p : DeconvParams) (bn : BnParams) (T : Nat → M →ₗ[ℝ] M) (one : M)
    (x : Nat → M) (o : Nat) : Option M :=
  let scaleFactor := fun c => bn.gamma c * bn.rs c
  let scaled : DeconvParams := { p with w := fun i c t => p.w i c t * scaleFactor c, b := none }
  let conv := scaled.apply T one x o
  if scaleFactor o = 0 then none
  else
    let convOrig := (scaleFactor o)⁻¹ • conv
    let convOrig := match p.b with | none => convOrig | some b => convOrig + b o • one
    some (bn.apply one o convOrig)

end Verif.Model
