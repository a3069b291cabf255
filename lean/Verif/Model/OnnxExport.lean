import Verif.Model.FakeQuant
import Mathlib.Analysis.SpecialFunctions.Sqrt
/-!
Getting a prepared model ready for export: `prepare_onnx_export` and `freeze_weights`.

Modelled code: tinynn/graph/quantization/quantizer.py
  QATQuantizer.prepare_onnx_export  (3342-3361 the fake-quantizers, 3426-3456 the fused convolutions)
  QATQuantizer.freeze_weights       (3515-3546)
Floats are real numbers.  Not modelled: the replacement of the `forward` of fake-quantizers (3363-3424), which picks another implementation of the same computation, and the hooks placed between
modules (3458-3511).
-/

namespace Verif.Model.OnnxExport
open Verif.Model

/-- A fake-quantizer, per tensor or for one channel.  `sym`: `qscheme` is one of the two symmetric ones; `fixed`: it is a `FixedQParamsFakeQuantize`. -/
structure Fq where
  sym : Bool
  fixed : Bool
  scale : ℝ
  zeroPoint : Int
  qmin : Int
  qmax : Int

/-- PyTorch's `fake_quantize_per_tensor_affine` (and its per-channel variant, for one channel). -/
noncomputable def Fq.value (f : Fq) (x : ℝ) : ℝ := ((clampInt f.qmin f.qmax (f.zeroPoint + roundEven (x * (1 / f.scale))) - f.zeroPoint : Int) : ℝ) * f.scale

/-- 3343-3356; `none` is an `AssertionError`. -/
noncomputable def exportFq (f : Fq) : Option Fq :=
  if f.sym then some { f with zeroPoint := 0, qmin := -128, qmax := 127 }
  else if f.fixed then
    if f.zeroPoint = 128 then some { f with sym := true, zeroPoint := 0, qmin := -128, qmax := 127 }
    else if f.zeroPoint = 0 then some { f with sym := true, scale := f.scale * 2, qmin := -128, qmax := 127 }
    else none
  else none

/-- The parameters of one channel of a convolution fused with a batch normalization. -/
structure ConvBn where
  bias : Option ℝ
  mean : ℝ
  var : ℝ
  eps : ℝ
  gamma : ℝ
  beta : ℝ

/-- `running_std`, 3447. -/
noncomputable def ConvBn.std (b : ConvBn) : ℝ := Real.sqrt (b.var + b.eps)

/-- `scale_factor`, 3448. -/
noncomputable def ConvBn.factor (b : ConvBn) : ℝ := b.gamma / b.std

/-- `mod.bn(y)` in evaluation mode. -/
noncomputable def ConvBn.bn (b : ConvBn) (y : ℝ) : ℝ := (y - b.mean) / b.std * b.gamma + b.beta

/-- `ConvBn2d._forward` of PyTorch in evaluation mode: the convolution is done with the fake-quantized weight times the factor and without bias, the factor is taken out, the bias added, and the
batch normalization applied.  `conv s` is the result of the convolution (at one place) with the fake-quantized weight times `s`. -/
noncomputable def ConvBn.forward (conv : ℝ → ℝ) (b : ConvBn) : ℝ := b.bn (conv b.factor / b.factor + b.bias.getD 0)

/-- 3449-3453: the parameters after preparation. -/
noncomputable def exportBn (b : ConvBn) : ConvBn :=
  let s := b.factor
  let mean1 := match b.bias with
    | some c => b.mean - c
    | none => b.mean
  { b with bias := none, mean := mean1 * s, gamma := b.gamma / s }

/-- `new_wrapper`, 3431-3441: `s` is the factor the wrapper was made with. -/
noncomputable def exportedForward (conv : ℝ → ℝ) (s : ℝ) (b : ConvBn) (relu : Bool) : ℝ :=
  let y := b.bn (conv s + b.bias.getD 0)
  if relu then max y 0 else y

/-- One call of `prepare_onnx_export`: the parameters, and the factor of the new forward. -/
noncomputable def exportConvBn (b : ConvBn) : ConvBn × ℝ := (exportBn b, b.factor)

/-- The state of a weight fake-quantizer around `freeze_weights`: the module, and the frozen weight once it is there. -/
structure Frozen (S I : Type) where
  fq : FakeQuant S
  kept : Option (I → ℝ)

/-- The fake-quantizer as called by its layer: with the frozen weight, the hook replaces the input (3540-3546). -/
noncomputable def Frozen.call {S I : Type} (observe : S → (I → ℝ) → S) (qparams : S → ℝ × Int) (m : Frozen S I) (w : I → ℝ) : Frozen S I × (I → ℝ) :=
  let r := superForward observe qparams m.fq (m.kept.getD w)
  (⟨r.1, m.kept⟩, r.2)

/-- `freeze_weights` (3522-3546): one pass through the model, remembering the fake-quantized weight. -/
noncomputable def freeze {S I : Type} (observe : S → (I → ℝ) → S) (qparams : S → ℝ × Int) (m : Frozen S I) (w : I → ℝ) : Frozen S I :=
  let r := m.call observe qparams w
  ⟨r.1.fq, some r.2⟩

end Verif.Model.OnnxExport
