import Mathlib.Data.Real.Basic
/-!
Turning a converted model back into a float model, and clamping the weights of channels with a tiny variance.

Modelled code: tinynn/graph/quantization/quantizer.py
  QATQuantizer.restore_to_original      (3187-3231)
  QATQuantizer.optimize_conv_bn_fusion  (3302-3327)
-/

namespace Verif.Model.RestoreFloat

/-- An integer weight: its codes, its scale and its zero point. -/
structure QWeight where
  codes : List Int
  scale : ℝ
  zeroPoint : Int

/-- `m.weight().dequantize()`, 3203 and 3218. -/
noncomputable def QWeight.dequantize (w : QWeight) : List ℝ := w.codes.map fun c => ((c - w.zeroPoint : Int) : ℝ) * w.scale

/-- The modules of a converted model.  `linear relu`/`conv relu`: `nnq.Linear`/`nnq.Conv2d` and, with `relu`, their subclasses `nniq.LinearReLU`/`nniq.ConvReLU2d`; `cfg` is the list of arguments of the constructor.
`plain` is a class of `torch.nn.modules`, with the modules inside it if it is a container; `other` is anything else. -/
inductive QMod where
  | quantize
  | dequantize
  | linear (relu : Bool) (cfg : List Nat) (w : QWeight) (b : Option (List ℝ))
  | conv (relu : Bool) (cfg : List Nat) (w : QWeight) (b : Option (List ℝ))
  | qfunctional
  | relu
  | relu6
  | plain (kind : String)
  | box (inner : List (String × QMod))
  | other (kind : String)

/-- The modules afterwards.  `same` is a module that has been left as it was. -/
inductive FMod where
  | identity
  | linear (cfg : List Nat) (w : List ℝ) (b : Option (List ℝ))
  | conv (cfg : List Nat) (w : List ℝ) (b : Option (List ℝ))
  | floatFunctional
  | relu
  | relu6
  | same (m : QMod)

/-- `torch.nn.Parameter(m.bias())`, 3204 and 3219: `nn.Parameter(None)` is a parameter without elements. -/
def biasParam (b : Option (List ℝ)) : Option (List ℝ) := some (b.getD [])

/-- The branches 3197-3228 for one child; `none` is the `AssertionError` of 3228. -/
noncomputable def restoreOne (m : QMod) : Option FMod :=
  match m with
  | .quantize => some .identity
  | .dequantize => some .identity
  | .linear _ cfg w b => some (.linear cfg w.dequantize (biasParam b))
  | .conv _ cfg w b => some (.conv cfg w.dequantize (biasParam b))
  | .qfunctional => some .floatFunctional
  | .relu => some .relu
  | .relu6 => some .relu6
  | .plain k => some (.same (.plain k))
  | .box inner => some (.same (.box inner))
  | .other _ => none

/-- 3195-3231: the new children are collected first and put in place at the end. -/
noncomputable def restore : List (String × QMod) → Option (List (String × FMod))
  | [] => some []
  | (n, m) :: r =>
    match restoreOne m, restore r with
    | some f, some q => some ((n, f) :: q)
    | _, _ => none

/-- The state of the model after the call, whether it succeeds or not: on an error no `setattr` (3230-3231) has been done. -/
noncomputable def after (net : List (String × QMod)) : List (String × FMod) := (restore net).getD (net.map fun p => (p.1, .same p.2))

/-- `torch.Tensor.clamp_(lo, hi)` on an entry, 3317. -/
noncomputable def clampR (lo hi x : ℝ) : ℝ := min (max x lo) hi

/-- `t.max()` of a tensor that is not empty. -/
noncomputable def maxOf : List ℝ → ℝ
  | [] => 0
  | [x] => x
  | x :: y :: r => max x (maxOf (y :: r))

/-- `t.min()` of a tensor that is not empty. -/
noncomputable def minOf : List ℝ → ℝ
  | [] => 0
  | [x] => x
  | x :: y :: r => min x (minOf (y :: r))

/-- `input[0][~indices]`, 3315: the entries of the channels that are not marked. -/
def unmarked (weight : List (List ℝ)) (marked : List Bool) : List ℝ := ((weight.zip marked).filter fun p => !p.2).flatMap Prod.fst

/-- `_pre_hook`, 3314-3318; `none`: `max()` of an empty tensor raises a `RuntimeError`. -/
noncomputable def preHook (marked : List Bool) (weight : List (List ℝ)) : Option (List (List ℝ)) :=
  let rest := unmarked weight marked
  if rest = [] then none else some (weight.map (List.map (clampR (minOf rest) (maxOf rest))))

/-- What `optimize_conv_bn_fusion` looks at in a module. -/
structure FusedConv where
  typeName : String
  inChannels : Nat
  outChannels : Nat
  groups : Nat
  runningVar : List ℝ

open Classical in
/-- 3322-3327: the marks of the hook a module gets, if it gets one. -/
noncomputable def hookOf (eps : ℝ) (m : FusedConv) : Option (List Bool) :=
  if m.typeName = "ConvBnReLU2d" ∨ m.typeName = "ConvBn2d" then
    if m.inChannels = m.outChannels ∧ m.outChannels = m.groups ∧ 1 < m.groups then
      let indices := m.runningVar.map fun v => decide (v < eps)
      if true ∈ indices then some indices else none
    else none
  else none

/-- The weight as the fake-quantizer of the module sees it. -/
noncomputable def seen (eps : ℝ) (m : FusedConv) (weight : List (List ℝ)) : Option (List (List ℝ)) :=
  match hookOf eps m with
  | some marks => preHook marks weight
  | none => some weight

end Verif.Model.RestoreFloat
