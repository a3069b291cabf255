import Verif.Spec.Pool

/-!
Model of the conversion of pooling operators: `ATenMaxPool2dOperator.parse_common`, `/repo/tinynn/converter/operators/torch/aten.py` 1468-1512,
`OperatorConverter.handle_padding`, `get_minimum_constant` and `get_pool_ceil_padding`, `/repo/tinynn/converter/operators/torch/base.py` 516-567,
569-590 and 759-788.  The tensor is one channel of one batch element, its axes are height and width.
-/

namespace Verif.Model
open Verif.Spec

/-- `get_pool_ceil_padding` for one axis, base.py 759-788.  Simplification: `math.ceil` of a float quotient is the exact ceiling. -/
def ceilPadAxis (i k s p : Nat) : Int :=
  let ceiled : Int := -((-((i : Int) + 2 * p - k)) / s) + 1
  let ceiled := if (ceiled - 1) * s ≥ i + p then ceiled - 1 else ceiled
  let pc : Int := if s = 1 then 0 else k - (i + 2 * p - ((ceiled - 1) * s + 1))
  if pc + 2 * p ≥ k then (if pc < k - 1 then pc else k - 1) else pc

/-- base.py 526: every window fits. -/
def poolExact (shape : List Nat) (w : Window) (pad : Nat → Nat) : Bool :=
  (List.range shape.length).all (fun a => ((shape.getD a 0 : Int) + 2 * pad a - w.kernel a) % w.stride a == 0)

/-- base.py 529-530: `list(np.add(ceil_pad, padding))`. -/
def ceilPads (shape : List Nat) (w : Window) (pad : Nat → Nat) (a : Nat) : Int :=
  ceilPadAxis (shape.getD a 0) (w.kernel a) (w.stride a) (pad a) + pad a

/-- `handle_padding` for a max pooling, base.py 516-567: what the VALID pooling reads.  `none` is numpy's ValueError for a negative padding. -/
def handlePadding {R : Type} (lowest : R) (w : Window) (pad : Nat → Nat) (ceilMode : Bool) (x : Tensor R) : Option (Tensor R) :=
  let fillNan := ceilMode && !poolExact x.shape w pad
  let x1 := if pad 0 + pad 1 > 0 then padT lowest pad pad x else x
  if fillNan then
    if (List.range x.shape.length).all (fun a => decide (0 ≤ ceilPads x.shape w pad a)) then
      some (padT lowest (fun _ => 0) (fun a => (ceilPads x.shape w pad a).toNat) x1)
    else none
  else some x1

/-- aten.py 1490-1495: the shortcut to SAME padding. -/
def poolUsesSame (w : Window) (pad : Nat → Nat) (ceilMode : Bool) : Bool :=
  (w.stride 0 == 1) && (w.stride 1 == 1) && (pad 0 == w.kernel 0 / 2) && (pad 1 == w.kernel 1 / 2) && !ceilMode

/-- `ATenMaxPool2dOperator.parse_common`, aten.py 1468-1512: the tensor the emitted operators compute. -/
def maxPoolConvert {R : Type} [LinearOrder R] (lowest : R) (w : Window) (pad : Nat → Nat) (ceilMode : Bool) (x : Tensor R) : Option (Tensor R) :=
  if poolUsesSame w pad ceilMode then some (poolSame lowest w x)
  else (handlePadding lowest w pad ceilMode x).map (poolValid lowest w)

/-- The quantized types of the converter. -/
inductive QKind | uint8 | int8 | int16
  deriving DecidableEq

/-- `get_minimum_constant` of a quantized tensor, base.py 569-584. -/
def minimumConstant : QKind → Int
  | .uint8 => 0
  | _ => -128

end Verif.Model
