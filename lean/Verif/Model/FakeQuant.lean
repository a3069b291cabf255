import Verif.Spec.Rounding
import Verif.Model.QatFold
import Mathlib.Data.Real.Sign

/-!
Model of `FakeQuantizeTFLite.forward`, `/repo/tinynn/graph/quantization/fake_quantize.py` 31-55.  The super-class is PyTorch's `FakeQuantize`
(outside the repository), modelled after its documentation: observe and update the quantization parameters if the observer is enabled, then
quantize and dequantize if fake quantization is enabled.  Floats are real numbers; a tensor is a function from an index type.
-/

namespace Verif.Model
open Verif.Spec

/-- PyTorch's `nearbyint` on reals: ties to even. -/
noncomputable def roundEven (r : ℝ) : ℤ :=
  if r - ⌊r⌋ < 1 / 2 then ⌊r⌋ else if 1 / 2 < r - ⌊r⌋ then ⌊r⌋ + 1 else if Even ⌊r⌋ then ⌊r⌋ else ⌊r⌋ + 1

/-- `torch.clamp`. -/
def clampInt (lo hi n : ℤ) : ℤ := min (max n lo) hi

/-- The module: `S` is the state of the observer (`activation_post_process`). -/
structure FakeQuant (S : Type) where
  observerEnabled : Bool
  fakeQuantEnabled : Bool
  observer : S
  scale : ℝ
  zeroPoint : ℤ
  quantMin : ℤ
  quantMax : ℤ

/-- `FakeQuantize.forward` of PyTorch, per tensor.  `observe` feeds the observer, `qparams` is `calculate_qparams`. -/
noncomputable def superForward {S I : Type} (observe : S → (I → ℝ) → S) (qparams : S → ℝ × ℤ) (m : FakeQuant S) (x : I → ℝ) : FakeQuant S × (I → ℝ) :=
  let m := if m.observerEnabled then
      let s := observe m.observer x
      { m with observer := s, scale := (qparams s).1, zeroPoint := (qparams s).2 }
    else m
  let y := if m.fakeQuantEnabled then
      fun i => ((clampInt m.quantMin m.quantMax (m.zeroPoint + roundEven (x i * (1 / m.scale))) - m.zeroPoint : ℤ) : ℝ) * m.scale
    else x
  (m, y)

/-- fake_quantize.py 36-43: the observing pass. -/
noncomputable def tfliteObserve {S I : Type} (observe : S → (I → ℝ) → S) (qparams : S → ℝ × ℤ) (fakeQuantEnabled : Bool) (m : FakeQuant S) (x : I → ℝ) :
    FakeQuant S × (I → ℝ) :=
  let m := if fakeQuantEnabled then { m with fakeQuantEnabled := false } else m
  let r := superForward observe qparams m x
  (if fakeQuantEnabled then { r.1 with fakeQuantEnabled := true } else r.1, r.2)

/-- fake_quantize.py 45-53: the quantizing pass. -/
noncomputable def tfliteQuantize {S I : Type} (observe : S → (I → ℝ) → S) (qparams : S → ℝ × ℤ) (observerEnabled : Bool) (m : FakeQuant S) (x : I → ℝ) :
    FakeQuant S × (I → ℝ) :=
  let m := if observerEnabled then { m with observerEnabled := false } else m
  let x := fun i => x i + m.scale * (1 / 1000000) * Real.sign (x i)
  let r := superForward observe qparams m x
  (if observerEnabled then { r.1 with observerEnabled := true } else r.1, r.2)

/-- `FakeQuantizeTFLite.forward`, fake_quantize.py 32-55. -/
noncomputable def tfliteForward {S I : Type} (observe : S → (I → ℝ) → S) (qparams : S → ℝ × ℤ) (m : FakeQuant S) (x : I → ℝ) : FakeQuant S × (I → ℝ) :=
  let observerEnabled := m.observerEnabled
  let fakeQuantEnabled := m.fakeQuantEnabled
  let r := if observerEnabled then tfliteObserve observe qparams fakeQuantEnabled m x else (m, x)
  if fakeQuantEnabled then tfliteQuantize observe qparams observerEnabled r.1 r.2 else r

/-- The same line 49 when quantization is per channel: `self.scale` has one element per channel and no other dimensions, so PyTorch broadcasts it
along the last dimension.  `X` has `channels` channels and a last dimension of `last`; the result's last dimension, or `none` for the RuntimeError. -/
def perChannelLast (channels last : Nat) : Option Nat := bcast last channels

end Verif.Model
