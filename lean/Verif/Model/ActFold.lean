import Verif.Spec.ActFold
/-!
Activations that quantized layers take over (`clamp`, ReLU6 and the like): the extra fake quantizer behind them, and what `convert` makes of it.

Modelled code: tinynn/graph/quantization/quantizer.py
  rewrite_quantize_graph          (2836-2871, the pair of stubs behind the activation)
  extra_qat_fusion_postprocess    (1162-1208)
  convert                         (3247-3261)
and tinynn/graph/quantization/utils.py clamp_with_fusion (76-79).
Simplifications: one layer with its activation; the layer is known by its exact results; the search for such pairs is not modelled (C50); floats are real numbers.
-/

namespace Verif.Model.ActFold
open Verif.Spec Verif.Spec.ActFold

/-- A layer, its activation and the stubs behind it: the quantizer of the layer (`activation_post_process`), the one of the `QuantStub`, and whether the activation and the stubs are still there. -/
structure Site where
  acp : Fq
  post : Fq
  act : Clip
  /-- the activation is a module, not a function -/
  isModule : Bool
  actOn : Bool
  stubs : Bool

/-- 1182-1185: the quantizer of the layer is switched off. -/
def postprocess (s : Site) : Site := { s with acp := { s.acp with fake := false, observing := false } }

/-- What happens to the prepared model: a batch (the results of the layer), or one of `enable_fake_quant`, `disable_fake_quant`, `enable_observer`, `disable_observer` applied to the whole model. -/
inductive Event where
  | batch (ys : List ℝ)
  | setFake (on : Bool)
  | setObserver (on : Bool)

/-- One such event.  The `DeQuantStub` does nothing before `convert`. -/
noncomputable def step (rnd : ℝ → ℤ) (eps c : ℝ) (s : Site) : Event → Site
  | .batch ys =>
    let acp := s.acp.seen rnd eps c ys
    { s with acp := acp, post := s.post.seen rnd eps c (ys.map fun y => s.act.real (acp.value rnd y)) }
  | .setFake on => { s with acp := { s.acp with fake := on }, post := { s.post with fake := on } }
  | .setObserver on => { s with acp := { s.acp with observing := on }, post := { s.post with observing := on } }

/-- A history of events. -/
noncomputable def run (rnd : ℝ → ℤ) (eps c : ℝ) (s : Site) (h : List Event) : Site := h.foldl (step rnd eps c) s

/-- The prepared model, evaluated. -/
noncomputable def prepared (rnd : ℝ → ℤ) (s : Site) (y : ℝ) : ℝ := s.post.value rnd (s.act.real (s.acp.value rnd y))

/-- `backend` of `convert`. -/
inductive Backend where
  | pytorch
  | tflite
  deriving DecidableEq

/-- 3248: `activ_type in ('relu', 'relu6', torch.nn.ReLU, torch.nn.ReLU6)`. -/
def isRelu : Clip → Bool
  | .relu => true
  | .relu6 => true
  | .clamp _ _ => false

/-- 3247-3261. -/
def convert (b : Backend) (s : Site) : Site :=
  if b ≠ .pytorch ∧ isRelu s.act = true then s
  else { s with
    acp := { s.acp with scale := s.post.scale, zp := s.post.zp, range := s.post.range }
    stubs := false
    actOn := if s.isModule then false else s.actOn }

/-- The activation on a quantized tensor: `clamp_with_fusion` does nothing (utils.py 77-79). -/
noncomputable def clipQ (rnd : ℝ → ℤ) (p : QP) : Clip → ℤ → ℤ
  | .relu, q => max p.zp q
  | .relu6, q => max p.zp (min (p.quant rnd 6) q)
  | .clamp _ _, q => q

/-- `torch.quantization.convert`, which computes the parameters from the observed ranges, and the converted model, evaluated in PyTorch. -/
noncomputable def converted (rnd : ℝ → ℤ) (eps : ℝ) (s : Site) (y : ℝ) : ℝ :=
  let p : QP := ⟨(s.acp.qparams rnd eps).1, (s.acp.qparams rnd eps).2, s.acp.lo, s.acp.hi⟩
  let p' : QP := ⟨(s.post.qparams rnd eps).1, (s.post.qparams rnd eps).2, s.post.lo, s.post.hi⟩
  let q := p.quant rnd y
  let q := if s.actOn then clipQ rnd p s.act q else q
  if s.stubs then p'.real (p'.quant rnd (p.real q)) else p.real q

end Verif.Model.ActFold
