import Verif.Spec.AxisOps
import Verif.Model.QuantStore

/-!
Model for C77: padding.

* /repo/tinynn/converter/operators/torch/aten.py:928-958 `ATenConstantPadNdOperator`
* /repo/tinynn/converter/operators/torch/aten.py:4285-4319 `ATenPadOperator`
* /repo/tinynn/converter/operators/torch/aten.py:3071-3101 `ATenReflectionPad2dOperator`, `ATenReflectionPad1dOperator`

Raw tensor contents are reals: the number itself for float and integer tensors, the stored integer for quantized ones. TFLite's
PAD, PADV2 and MIRROR_PAD return `none` where the kernels refuse the operator: one row of amounts per axis, no negative amount,
a fill constant of the input's type and, for quantized tensors, of the output's zero point; reflection by less than the size.
-/

namespace Verif.Model.PadLower

open Verif.Spec Verif.Model

/-- `np.array(pads).reshape(-1, 2)`; `none` for an odd number of entries. -/
def pairs : List Int → Option (List (Int × Int))
  | [] => some []
  | [_] => none
  | x :: y :: rest => (pairs rest).map ((x, y) :: ·)

/-- aten.py:937-939, 4298-4300: the rows from the last axis to the first, filled with zeros and flipped. -/
def padMatrix (rank : Nat) (pads : List Int) : Option (List (Int × Int)) :=
  (pairs pads).bind fun orig =>
    if orig.length ≤ rank then some (orig ++ List.replicate (rank - orig.length) (0, 0)).reverse else none

/-- The element type of the tensor. -/
inductive Kind
  | float
  | int
  | quant (qt : QType) (scale : ℝ) (zp : Int)

/-- aten.py:943-956: PAD without a fill constant (TFLite fills with 0, or with the output's zero point), or the content of the
PADV2 constant. `none`: `quantize_per_tensor` raises for a zero point that is no `quint8`, or the kernel refuses the constant. -/
noncomputable def fillRaw (rnd : ℝ → Int) (k : Kind) (c : ℝ) : Option ℝ :=
  match k with
  | .float => some (if c = 0 then 0 else c)
  | .int => if c = 0 then some 0 else none
  | .quant qt scale zp =>
    let out := storeQuint8 qt true scale zp 0
    if c = 0 then some out.zp
    else if 0 ≤ out.zp ∧ out.zp ≤ 255 then
      let const := storeQuint8 qt true out.scale out.zp (torchQuantize rnd 0 255 out.scale out.zp c)
      if const.zp = out.zp then some const.q else none
    else none

/-- PAD and PADV2. -/
def tflPad {α : Type} (m : List (Int × Int)) (v : α) (t : Tensor α) : Option (Tensor α) :=
  if m.length = t.shape.length ∧ m.all (fun p => decide (0 ≤ p.1 ∧ 0 ≤ p.2)) then
    some (pad (m.map (fun p => p.1.toNat)) (m.map (fun p => p.2.toNat)) v t)
  else none

/-- MIRROR_PAD with mode REFLECT. -/
def tflMirror {α : Type} (m : List (Int × Int)) (t : Tensor α) : Option (Tensor α) :=
  if m.length = t.shape.length ∧
      (List.range m.length).all (fun a => decide (0 ≤ (m.getD a (0, 0)).1 ∧ 0 ≤ (m.getD a (0, 0)).2 ∧
        (m.getD a (0, 0)).1 ≤ (t.shape.getD a 0 : Int) - 1 ∧ (m.getD a (0, 0)).2 ≤ (t.shape.getD a 0 : Int) - 1)) then
    some (mirrorPad (m.map (fun p => p.1.toNat)) (m.map (fun p => p.2.toNat)) t)
  else none

/-- aten.py:928-958 and the constant branch of 4285-4319. -/
noncomputable def constantPad (rnd : ℝ → Int) (k : Kind) (pads : List Int) (c : ℝ) (t : Tensor ℝ) : Option (Tensor ℝ) :=
  (padMatrix t.shape.length pads).bind fun m => (fillRaw rnd k c).bind fun v => tflPad m v t

/-- The reflect branch of aten.py:4285-4319. -/
def reflectPad {α : Type} (pads : List Int) (t : Tensor α) : Option (Tensor α) :=
  (padMatrix t.shape.length pads).bind fun m => tflMirror m t

/-- aten.py:3071-3085 `ATenReflectionPad2dOperator`. -/
def reflectPad2d {α : Type} (pads : List Int) (t : Tensor α) : Option (Tensor α) :=
  tflMirror [(0, 0), (0, 0), (pads.getD 2 0, pads.getD 3 0), (pads.getD 0 0, pads.getD 1 0)] t

/-- aten.py:3088-3101 `ATenReflectionPad1dOperator`. -/
def reflectPad1d {α : Type} (pads : List Int) (t : Tensor α) : Option (Tensor α) :=
  tflMirror [(0, 0), (0, 0), (pads.getD 0 0, pads.getD 1 0)] t

end Verif.Model.PadLower
