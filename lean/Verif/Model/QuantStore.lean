import Verif.Spec.Quant

/-!
Model of how quantized tensors are stored: `Tensor.__init__` of
`/repo/tinynn/converter/operators/tflite/base.py` 173-274 and `quantize_scalar_tensor` of
`/repo/tinynn/converter/operators/torch/base.py` 675-696.  Scales are reals (the code uses Python floats and float32).
-/

namespace Verif.Model

/-- The converter's `q_type`. -/
inductive QType | u8 | i8 | i16
  deriving DecidableEq, Repr

/-- Two's complement reduction, as done by NumPy's `astype`, `view` and fixed-width addition. -/
def wrapU8 (x : Int) : Int := x % 256
def wrapI8 (x : Int) : Int := (x + 128) % 256 - 128
def wrapI16 (x : Int) : Int := (x + 32768) % 65536 - 32768

/-- A stored element with the quantization parameters recorded for its tensor. -/
structure Stored where
  q : Int
  scale : ℝ
  zp : Int

/-- tflite/base.py 198-220: a torch `quint8` tensor.  `np.round` at line 219 is applied to integers and is dropped. -/
noncomputable def storeQuint8 (qt : QType) (asymmetric : Bool) (scale : ℝ) (zp q : Int) : Stored :=
  if qt = .u8 then { q := q, scale := scale, zp := zp }
  else
    let off := if asymmetric then zp else 128
    let t := wrapI8 (q - 128)
    if qt = .i16 then { q := wrapI16 (t * 256), scale := scale * 256 / 65536, zp := off - 128 }
    else { q := t, scale := scale, zp := off - 128 }

/-- tflite/base.py 221-253: a torch `qint8` tensor quantized per tensor; `none` is the failed assertion. -/
def storeQint8 (qt : QType) (asymmetric : Bool) (scale : ℝ) (zp q : Int) : Option Stored :=
  if qt = .u8 then
    if asymmetric then
      if zp = 0 then some { q := wrapU8 (wrapU8 q + 128), scale := scale, zp := 0 + 128 } else none
    else some { q := wrapU8 (wrapU8 q + 128), scale := scale, zp := zp + 128 }
  else some { q := q, scale := scale, zp := zp }

/-- tflite/base.py 238-253: a torch `qint8` tensor quantized per channel, at channel `c`; `none` is the failed assertion,
or the error of `q_zero_point()` on a per-channel tensor (lines 224-231). -/
def storePerChannel (qt : QType) (scales : List ℝ) (zps : List Int) (q : Int) (c : Nat) : Option Stored :=
  if qt = .u8 then none
  else if zps.all (· == 0) then some { q := q, scale := scales.getD c 0, zp := zps.getD c 0 } else none

/-- `torch.quantize_per_tensor` (PyTorch): `clamp(round(x / scale) + zero_point)`. -/
noncomputable def torchQuantize (rnd : ℝ → Int) (lo hi : Int) (scale : ℝ) (zp : Int) (x : ℝ) : Int :=
  max lo (min hi (rnd (x / scale) + zp))

/-- `quantize_scalar_tensor`, torch/base.py 675-696, followed by the storage of its result with the converter's `q_type`. -/
noncomputable def storeScalar (rnd : ℝ → Int) (qt : QType) (asymmetric : Bool) (x : ℝ) : Option Stored :=
  let u8 (scale : ℝ) (zp : Int) := some (storeQuint8 qt asymmetric scale zp (torchQuantize rnd 0 255 scale zp x))
  let i8 (scale : ℝ) (zp : Int) := storeQint8 qt asymmetric scale zp (torchQuantize rnd (-128) 127 scale zp x)
  if x = 0 then
    match qt with
    | .i8 => i8 (1 / 2) 0
    | _ => u8 (1 / 2) 128
  else if x < 0 then
    match qt with
    | .u8 => u8 (-x / 127) 255
    | .i8 => i8 (-x / 127) 0
    | .i16 => u8 (-x / 127) 128
  else
    match qt with
    | .u8 => u8 (x / 127) 0
    | .i8 => i8 (x / 127) 0
    | .i16 => u8 (x / 127) 128

end Verif.Model
