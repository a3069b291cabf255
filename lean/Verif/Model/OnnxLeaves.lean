import Verif.Spec.OnnxLeaves

/-!
Model of the search for layers whose activation is not quantized in ONNX models (`/repo/tinynn/graph/quantization/quantizer.py`):

  QATQuantizer.prepare_qat           1079-1107  (`leaf_nodes`)
  QATQuantizer.prepare_onnx_export   3336-3338

Simplifications: the queue holds (node, state) pairs and every pair is handled on its own, so it is modelled as recursion over the nodes
read; the order of `leaf_nodes` does not matter.  A fused layer (`nn.Sequential` of `torch.nn.intrinsic`, 1097-1105) is the layer it ends
with.  The graph is the one of `Spec.OnnxLeaves`.
-/

namespace Verif.Model.OnnxLeaves
open Verif.Spec.OnnxLeaves

/-- 1089-1105: the state after a node: whether a DeQuantStub was met and no quantizer since. -/
def stateAfter (k : Kind) (state : Bool) : Bool :=
  match k with
  | .dequant => true
  | .quant | .observed => false
  | .func | .plain => state

/-- 1084-1107: handling one pair taken from the queue, and all that follows from it.  `fuel` bounds the depth. -/
def visit (g : Net) : Nat → Nat → Bool → List Nat
  | 0, _, _ => []
  | fuel + 1, n, state =>
    if g.kind n = .func then []
    else (if g.kind n = .observed ∧ state = true then [n] else []) ++
      (g.reads n).flatMap fun p => visit g fuel p (stateAfter (g.kind n) state)

/-- 1079-1082: `leaf_nodes`.  The depth is below the number of nodes, since nodes read earlier nodes. -/
def leafNodes (g : Net) : List Nat := g.outputs.flatMap fun o => visit g (o + 1) o false

/-- The number of pairs that pass through the queue (1084-1085). -/
def steps (g : Net) : Nat → Nat → Nat
  | 0, _ => 0
  | fuel + 1, n => 1 + if g.kind n = .func then 0 else ((g.reads n).map (steps g fuel)).sum

/-- 3336-3338: whether the activation quantizer of layer `m` still quantizes in the exported model. -/
def quantizes (g : Net) (m : Nat) : Bool := decide (g.kind m = .observed) && !(leafNodes g).contains m

end Verif.Model.OnnxLeaves
