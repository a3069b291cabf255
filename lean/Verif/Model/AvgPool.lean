import Verif.Spec.AvgPool
import Verif.Model.Pool

/-!
Model of `ATenAvgPool2dOperator.parse_common`, `/repo/tinynn/converter/operators/torch/aten.py` 1017-1083, and of `ATenAdaptiveAvgPool2dOperator.parse_common` and
`ATenAdaptiveMaxPool2dOperator.parse_common`, aten.py 1095-1142 and 1153-1208.  The tensor is one channel of one batch element with axes height and width; the layout
transposes around the operators are C02's.
-/

namespace Verif.Model
open Verif.Spec

/-- aten.py 1069-1076: the factor `1.0 / avg_pool2d(ones_like(input), ..., count_include_pad=True)`, computed by PyTorch. -/
def avgMask (ceilMode : Bool) (w : Window) (pad : Nat → Nat) (shape : List Nat) (o : List Nat) : ℚ :=
  1 / (avgPoolTorch ceilMode true none w pad ⟨shape, fun _ => 1⟩).get o

/-- aten.py 1017-1083, with `handle_padding` (base.py 516-553) for an average pooling.  `none` is a failed assertion. -/
def avgPoolConvert (ceilMode includePad : Bool) (divisor : Option Nat) (w : Window) (pad : Nat → Nat) (x : Tensor ℚ) : Option (Tensor ℚ) :=
  if !divisor.all (fun d => d == w.kernel 0 && w.kernel 0 == w.kernel 1) then none                                   -- 1044-1046
  else if ceilMode && !poolExact x.shape w pad then none                                                             -- base.py 526-527
  else
    let x1 := if pad 0 + pad 1 > 0 then padT 0 pad pad x else x                                                      -- base.py 532-553
    let y := windowValid meanL w x1
    if includePad then some y else some ⟨y.shape, fun o => y.get o * avgMask ceilMode w pad x.shape o⟩               -- 1068-1080

/-- aten.py 1103-1132 and 1161-1198, two axes: `red` is the mean or the maximum.  `none` is a failed assertion. -/
def adaptiveConvert (red : List ℚ → ℚ) (outs : List Nat) (x : Tensor ℚ) : Option (Tensor ℚ) :=
  if ¬ (x.shape.getD 0 0 % outs.getD 0 0 = 0 ∧ x.shape.getD 1 0 % outs.getD 1 0 = 0) then none
  else if outs.getD 0 0 = 1 ∧ outs.getD 1 0 = 1 then some (reduceKeep [0, 1] red x)
  else
    let stride := fun a => x.shape.getD a 0 / outs.getD a 0
    some (windowValid red ⟨fun a => x.shape.getD a 0 - (outs.getD a 0 - 1) * stride a, stride, fun _ => 1⟩ x)

/-- The shape of the tensor the pooling of a one-dimensional operator reads, aten.py 1055-1066 (and 1497-1508 for the maximum): the input `(n, c, l)` is reshaped to
`(n, c, l, 1)`; `handle_padding` is called with index 1, which is the layout transpose and not the pooling, so that the padding `[[0, 0], [p, p], [0, 0], [0, 0]]` is
inserted before the transpose; then the transpose `[0, 2, 3, 1]`. -/
def pool1dInputShape (n c l p : Nat) : List Nat :=
  let reshaped := [n, c, l, 1]
  let padded := (reshaped.zip [0, p, 0, 0]).map (fun q => q.1 + 2 * q.2)
  [0, 2, 3, 1].map (fun a => padded.getD a 0)

end Verif.Model
