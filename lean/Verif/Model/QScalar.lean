import Verif.Model.QuantStore
import Verif.Spec.QScalar

/-!
Model for C76: quantized multiplication and addition with a Python number.

* /repo/tinynn/converter/operators/torch/quantized.py:17-52 `QuantizedMulScalarOperator`, `QuantizedMulOperator.parse_common`
* /repo/tinynn/converter/operators/torch/quantized.py:223-228, 279-311 `QuantizedAddScalarOperator`, `QuantizedAddOperator.parse_common`,
  `QuantizedAddReluOperator`
* storage of tensors and scalars: `Model/QuantStore.lean`

TFLite's quantized MUL and ADD are taken as exact real arithmetic followed by one rounding to nearest (ties left open) and
clamping; the fixed-point multipliers of the kernels are not modelled. Tensors are `quint8` in PyTorch, as produced by the
quantizer, and stored with `asymmetric` on (the default).
-/

namespace Verif.Model.QScalar

open Verif.Spec Verif.Model Verif.Spec.QScalar

/-- The storage range of a TFLite tensor. -/
def qrange : QType → Int × Int
  | .u8 => (0, 255)
  | .i8 => (-128, 127)
  | .i16 => (-32768, 32767)

/-- A TFLite kernel with an output of the given quantization: the exact result, rounded and clamped; with `relu` the lower bound
is the zero point. -/
noncomputable def kernel (rnd : ℝ → Int) (qt : QType) (relu : Bool) (scale : ℝ) (zp : Int) (x : ℝ) : Int :=
  let lo := if relu then max (qrange qt).1 zp else (qrange qt).1
  max lo (min (qrange qt).2 (rnd (x / scale) + zp))

noncomputable def value (s : Stored) : ℝ := dequant s.scale s.zp s.q

/-- The TFLite tensor of a PyTorch `quint8` element (`to_tfl_tensors`, `find_or_create_input`). -/
noncomputable def store (qt : QType) (a : Q) : Stored := storeQuint8 qt true a.scale a.zp a.q

/-- quantized.py:17-52. The node is run with `+1` when the scalar is `-1` (lines 21-27), so the output tensor gets those
parameters; scalar 1 becomes a RESHAPE (line 45), which copies the integers. -/
noncomputable def mulConvert (rndT rnd : ℝ → Int) (qt : QType) (c : ℝ) (a : Q) : Option Stored :=
  let run := if c = -1 then mulScalar (c * -1) a else mulScalar c a
  let out := store qt run
  if c = 1 then some { out with q := (store qt a).q }
  else (storeScalar rndT qt true c).map fun b =>
    { out with q := kernel rnd qt false out.scale out.zp (value (store qt a) * value b) }

/-- quantized.py:223-228, 279-311. Scalar 0 becomes a RESHAPE, or RELU when fused (lines 283-289). -/
noncomputable def addConvert (rndT rnd : ℝ → Int) (qt : QType) (fusedRelu : Bool) (c : ℝ) (a : Q) : Option Stored :=
  let run := if fusedRelu then relu (addScalar rndT c a) else addScalar rndT c a
  let out := store qt run
  if c = 0 then
    if fusedRelu then some { out with q := kernel rnd qt true out.scale out.zp (value (store qt a)) }
    else some { out with q := (store qt a).q }
  else (storeScalar rndT qt true c).map fun b =>
    { out with q := kernel rnd qt fusedRelu out.scale out.zp (value (store qt a) + value b) }

end Verif.Model.QScalar
