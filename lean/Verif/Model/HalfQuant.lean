import Verif.Spec.Half

/-!
Model of `HalfQuantizer` (`tinynn/converter/operators/half_quantizer.py`) followed by `cleanup_dead_nodes` (`tinynn/converter/base.py:559-562`).  `κ` are the kinds of operators
without the `DEQUANTIZE` this pass creates, which is `none`; `attr` and `trans` are the names made by `create_attr_tensor` and `create_transform_tensor` (26-46).
-/

namespace Verif.Model.HalfQuant
open Verif.Spec.Half

variable {κ V : Type}

/-- `replace_operator_input` for every input with the name (half_quantizer.py:67-75). -/
def rewire (old new : String) (o : Op κ) : Op κ := { o with inputs := o.inputs.map fun n => if n = old then new else n }

/-- One constant (half_quantizer.py:55-75): half-precision data, the operator that converts it back, readers rewired; the constant itself is left in the graph. -/
def quantizeOne (half : V → V) (attr trans : ℕ → String) (k : ℕ) (c : Const V) (g : Net (Option κ) V) : Net (Option κ) V :=
  { consts := g.consts ++ [⟨attr k, .f16, half c.data⟩],
    ops := g.ops.map (rewire c.name (trans k)) ++ [⟨none, [attr k], [trans k]⟩],
    outputs := g.outputs }

/-- The loop over the selected nodes (half_quantizer.py:51-78, 81-85); the counters of names run in step. -/
def quantizeLoop (half : V → V) (attr trans : ℕ → String) : ℕ → List (Const V) → Net (Option κ) V → Net (Option κ) V
  | _, [], g => g
  | k, c :: cs, g => if c.dtype = .f32 then quantizeLoop half attr trans (k + 1) cs (quantizeOne half attr trans k c g) else quantizeLoop half attr trans k cs g

/-- `cleanup_dead_nodes` as far as constants are concerned: one that no operator reads and that is no output goes. -/
def cleanup (g : Net (Option κ) V) : Net (Option κ) V :=
  { g with consts := g.consts.filter fun c => g.ops.any (fun o => o.inputs.contains c.name) || g.outputs.contains c.name }

/-- `quantize` and the cleanup. -/
def quantize (half : V → V) (attr trans : ℕ → String) (g : Net (Option κ) V) : Net (Option κ) V :=
  cleanup (quantizeLoop half attr trans 0 g.consts g)

end Verif.Model.HalfQuant
