import Verif.Spec.Activation
import Verif.Spec.Broadcast
import Verif.Spec.AxisOps
import Verif.Model.QuantStore

/-!
Model for C78: the operators emitted for activation functions, from /repo/tinynn/converter/operators/torch/aten.py and quantized.py.

Floats are reals; the exponential overflows to infinity (`none`) above the largest float `M`. TFLite's operators are taken
with exact real arithmetic.
-/

namespace Verif.Model.ActLower

open Verif.Spec Verif.Spec.Activation Verif.Model

/-- A float result: a number or +∞. -/
abbrev F := Option ℝ

/-- TFLite RELU6, RELU, LOGISTIC. -/
noncomputable def relu6 (x : ℝ) : ℝ := min (max x 0) 6
noncomputable def relu (x : ℝ) : ℝ := max x 0

/-- EXP, ADD of a number, LOG, TANH with overflow: `Real.exp x` beyond the largest float is infinite. -/
noncomputable def fexp (M : ℝ) (x : ℝ) : F := if Real.exp x ≤ M then some (Real.exp x) else none
noncomputable def fadd (M : ℝ) (a : F) (c : ℝ) : F := a.bind (fun v => if v + c ≤ M then some (v + c) else none)
noncomputable def flog (a : F) : F := a.map Real.log
noncomputable def ftanh (a : F) : ℝ := match a with | some v => Real.tanh v | none => 1

/-- aten.py:2286-2374 `ATenClampOperator` for float tensors: RELU6, RELU, or MAXIMUM and MINIMUM. -/
noncomputable def clampFloat (lo hi : Option ℝ) (x : ℝ) : ℝ :=
  if lo = some 0 ∧ hi = some 6 then relu6 x
  else if lo = some 0 ∧ hi = none then relu x
  else
    match lo, hi with
    | some a, some b => min (max x a) b
    | some a, none => max x a
    | none, some b => min x b
    | none, none => x

/-- aten.py:1259-1282 `ATenHardtanhOperator` for float tensors. -/
noncomputable def hardtanhFloat (lo hi x : ℝ) : ℝ := if lo = 0 ∧ hi = 6 then relu6 x else min (max x lo) hi

/-- torch/base.py:287-297 `quantize_numpy`. -/
noncomputable def quantizeNumpy (rnd : ℝ → Int) (qlo qhi : Int) (scale : ℝ) (zp : Int) (x : ℝ) : Int :=
  max qlo (min qhi (rnd (x / scale + zp)))

/-- aten.py:2310-2355: `clamp` on a quantized tensor with stored range `qlo..qhi`; the bounds are quantized like the input. -/
noncomputable def clampQuant (rnd : ℝ → Int) (qlo qhi : Int) (scale : ℝ) (zp : Int) (lo hi : Option ℝ) (q : Int) : Int :=
  let Q := quantizeNumpy rnd qlo qhi scale zp
  let y := match lo with | some a => max q (Q a) | none => q
  match hi with | some b => min y (Q b) | none => y

/-- aten.py:1268-1279 `ATenHardtanhOperator` on an unsigned quantized tensor: the bounds are cast to the storage type
(`np.array([min_value], dtype=input_tensor.dtype)`, truncation, modulo 256), not quantized. -/
def hardtanhQuantU8 (lo hi : Int) (q : Int) : Int := min (max q (wrapU8 lo)) (wrapU8 hi)

/-- aten.py:2926-2947 `ATenHardsigmoidOperator`: ADD 3, RELU6, DIV 6. -/
noncomputable def hardsigmoidOps (x : ℝ) : ℝ := relu6 (x + 3) / 6

/-- aten.py:2950-2965 `ATenSiluOperator`: LOGISTIC, MUL. -/
noncomputable def siluOps (x : ℝ) : ℝ := x * sigmoid x

/-- aten.py:2404-2429 `ATenSoftplusOperator`: asserts `beta == 1`, then EXP, ADD 1, LOG. -/
noncomputable def softplusOps (M beta _threshold x : ℝ) : Option F :=
  if beta = 1 then some (flog (fadd M (fexp M x) 1)) else none

/-- aten.py:4540-4566 `ATenMishOperator`: EXP, ADD 1, LOG, TANH, MUL. -/
noncomputable def mishOps (M x : ℝ) : ℝ := x * ftanh (flog (fadd M (fexp M x) 1))

/-- TFLite ELU. -/
noncomputable def tflElu (x : ℝ) : ℝ := if 0 < x then x else Real.exp x - 1

/-- aten.py:1227-1233 `ATenEluOperator`: asserts that all parameters are 1. -/
noncomputable def eluOps (alpha scale inputScale x : ℝ) : Option ℝ :=
  if alpha = 1 ∧ scale = 1 ∧ inputScale = 1 then some (tflElu x) else none

/-- quantized.py:404-424 `QuantizedEluOperator`: no check; the ELU operator on the represented values. -/
noncomputable def quantizedEluOps (_alpha _scale _inputScale x : ℝ) : ℝ := tflElu x

/-- aten.py:3619-3648 `ATenGeluOperator` without `legacy_gelu`: the flag handed to GELU is `approximate == "none"`, and the
kernel uses the tanh formula when the flag is set. -/
def geluOps (approximate : String) : Gelu := if approximate = "none" then .tanh else .exact

/-- aten.py:3896-3922 `ATenGluOperator`: SPLIT in two, LOGISTIC of the second, MUL. -/
noncomputable def gluOps (dim : Nat) (t : Tensor ℝ) : Option (Tensor ℝ) :=
  let h := t.shape.getD dim 0 / 2
  let first : Tensor ℝ := ⟨t.shape.set dim h, fun idx => t.get (idx.set dim (0 + idx.getD dim 0))⟩
  let second : Tensor ℝ := ⟨t.shape.set dim h, fun idx => t.get (idx.set dim (h + idx.getD dim 0))⟩
  elementwise (fun a b => a * b) first (mapTensor sigmoid second)

/-- The slope tensor of a PReLU (aten.py:1758-1782): reshaped to `[C, 1, …]`, or the single slope tiled to that shape. `none`: the
input has no channel axis, or NumPy refuses the tiling result in the elementwise operator. -/
noncomputable def preluAlpha (alpha : List ℝ) (shape : List Nat) : Option (Tensor ℝ) :=
  match shape with
  | _ :: c :: rest =>
    let s := c :: List.replicate rest.length 1
    if alpha.length = c then some (reshape s ⟨[alpha.length], fun i => alpha.getD (i.getD 0 0) 0⟩)
    else some ⟨(alpha.length * c) :: List.replicate rest.length 1, fun i => alpha.getD (i.getD 0 0 % alpha.length) 0⟩
  | _ => none

/-- TFLite PRELU with broadcasting. -/
noncomputable def tflPrelu (t alpha : Tensor ℝ) : Option (Tensor ℝ) :=
  elementwise (fun x a => if 0 < x then x else a * x) t alpha

/-- aten.py:1752-1790 `ATenPreluOperator`; `stored` is what the transform store holds for this slope and channel count
(lines 1776-1782): the tensor made at the first use, whatever that input's rank was. -/
noncomputable def preluOps (stored : Option (Tensor ℝ)) (alpha : List ℝ) (t : Tensor ℝ) : Option (Tensor ℝ) :=
  (preluAlpha alpha t.shape).bind fun a =>
    if alpha.length = t.shape.getD 1 0 then tflPrelu t a else tflPrelu t (stored.getD a)

end Verif.Model.ActLower
