import Verif.Model.QuantStore
import Verif.Spec.QBias
import Mathlib.Data.Int.Log
import Mathlib.Data.Real.Archimedean

/-! Bias of quantized layers (tinynn/converter/operators/torch/quantized.py, `QuantizedConv2dOperator.parse_common`,
`QuantizedLinearOperator.parse_common`; base.py, `rescale_weight_scale_for_qnnpack`, `quantize`).  Scales are reals. -/

namespace Verif.Model.QBias

/-- base.py 277: the shift of a requantization, computed from the exponent bits of the float32 `scale`. Simplification: `scale` is not
rounded to float32. Zero has exponent field 0; below the normal range the exponent field is 0 where this formula goes on falling, on the same side of the test. -/
noncomputable def shift (scale : ℝ) : Int := if scale = 0 then 127 + 31 - 32 - 0 else 127 + 31 - 32 - (Int.log 2 scale + 127)

/-- base.py 269-285: multiply the weight scale by 10 while the shift is 32 or more; `none` when the loop is still running after `fuel` rounds. -/
noncomputable def rescale (sIn sOut : ℝ) : Nat → ℝ → Option ℝ
  | 0, _ => none
  | fuel + 1, sW => if 32 ≤ shift (sIn * sW / sOut) then rescale sIn sOut fuel (sW * 10) else some sW

/-- Target types of `quantize`: smallest and largest value. -/
inductive IntType | u8 | i8 | i16 | i32 | i64
  deriving DecidableEq, Repr

def IntType.lo : IntType → Int
  | .u8 => 0
  | .i8 => -128
  | .i16 => -32768
  | .i32 => -2147483648
  | .i64 => -9223372036854775808

def IntType.hi : IntType → Int
  | .u8 => 255
  | .i8 => 127
  | .i16 => 32767
  | .i32 => 2147483647
  | .i64 => 9223372036854775807

/-- base.py 299-317, with zero point 0, for one element: round, then limit to the type's range. -/
noncomputable def quantize (rnd : ℝ → Int) (ty : IntType) (scale x : ℝ) : Int :=
  let q := rnd (x / scale + 0)
  let q := if q > ty.hi then ty.hi else q
  if q < ty.lo then ty.lo else q

/-- Weight scales: one, or one per output channel. -/
inductive Scales
  | tensor (s : ℝ)
  | channel (ss : List ℝ)

def Scales.at : Scales → Nat → ℝ
  | .tensor s, _ => s
  | .channel ss, c => ss.getD c 0

/-- The bias of a converted layer: stored integers and their scales (`scale c`), and the weight scales after the call. `bias = none`: no bias input. -/
structure Out where
  bias : Option (List Int)
  scale : Scales
  weight : Scales

/-- quantized.py 91-94: only weights with one scale are rescaled. -/
noncomputable def rescaleScales (fuel : Nat) (sIn sOut : ℝ) : Scales → Option Scales
  | .tensor s => (rescale sIn sOut fuel s).map .tensor
  | .channel ss => some (.channel ss)

/-- quantized.py 97-104. -/
noncomputable def biasScale (sIn : ℝ) : Scales → Scales
  | .tensor s => .tensor (sIn * s)
  | .channel ss => .channel (ss.map (fun s => sIn * s))

/-- quantized.py 109-120: the type the bias is stored in. -/
def biasType (qt : QType) (transposed mtk withBias : Bool) : IntType :=
  if transposed ∧ ¬ mtk ∧ ¬ withBias then
    match qt with
    | .u8 => .u8
    | .i8 => .i8
    | .i16 => .i16
  else if qt = .i16 then .i64 else .i32

/-- base.py 304-312 on a whole bias. -/
noncomputable def quantizeAll (rnd : ℝ → Int) (ty : IntType) (sc : Scales) (b : List ℝ) : List Int :=
  (List.range b.length).map (fun c => quantize rnd ty (sc.at c) (b.getD c 0))

/-- quantized.py 64-124 (convolutions): `none` is the endless loop of the rescaling. A transposed convolution drops a bias of zeros. -/
noncomputable def convBias (rnd : ℝ → Int) (fuel : Nat) (qt : QType) (transposed mtk withBias : Bool) (sIn sOut : ℝ) (w : Scales)
    (bias : Option (List ℝ)) : Option Out :=
  letI := Classical.propDecidable
  let bias := if transposed ∧ (∀ b ∈ bias, ∀ x ∈ b, x = 0) then none else bias
  (rescaleScales fuel sIn sOut w).map fun w' =>
    { bias := bias.map (quantizeAll rnd (biasType qt transposed mtk withBias) (biasScale sIn w'))
      scale := biasScale sIn w'
      weight := w' }

/-- quantized.py 240-265 (linear layers): a missing bias becomes zeros; weights with one scale per channel are an error (a float times a list). -/
noncomputable def linearBias (rnd : ℝ → Int) (fuel : Nat) (qt : QType) (sIn sOut : ℝ) (w : Scales) (outFeatures : Nat)
    (bias : Option (List ℝ)) : Option Out :=
  match w with
  | .channel _ => none
  | .tensor s =>
    (rescale sIn sOut fuel s).map fun s' =>
      { bias := some (quantizeAll rnd (if qt = .i16 then .i64 else .i32) (.tensor (sIn * s')) (bias.getD (List.replicate outFeatures 0)))
        scale := .tensor (sIn * s')
        weight := .tensor s' }

end Verif.Model.QBias
