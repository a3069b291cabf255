import Verif.Spec.RewriteQ
import Mathlib.Data.List.Dedup

/-!
Model of `elementwise_op_quantize_passthrough_pass` (`/repo/tinynn/converter/operators/optimize.py` 1595-1783, option `rewrite_quantizable`): operators between DEQUANTIZE and QUANTIZE are made to work on
quantized tensors.  The graph is a list of operators in an order in which they can run (C17), constants included; new operators are put where they can run.  Not modelled: LSTM operators, and constants that
are quantized in the original model (`q_mapping` starts empty).  The conditions on storage type and scale (1671-1709) are the parameter `ok`.  `none` is an exception.
-/

namespace Verif.Model.RewriteQ
open Verif.Spec Verif.Spec.Dataflow Verif.Spec.RewriteQ

/-- The graph; `one` tells which tensors have the shape `[1]`, and names from `next` on are unused; `qmap` gives the quantized form of constants (each use of one is a constant of its own here). -/
structure Net where
  outputs : List ℕ
  ops : List (Op Kind)
  one : ℕ → Bool
  next : ℕ
  qmap : List (ℕ × V)

/-- The operator that makes a tensor. -/
def producer (g : Net) (n : ℕ) : Option (Op Kind) := g.ops.find? fun op => op.outs.contains n

/-- The quantization of a tensor that a DEQUANTIZE makes a float tensor (1621-1622). -/
def deqParam (g : Net) (n : ℕ) : Option QP :=
  match producer g n with
  | some ⟨.dequantize p, _, _⟩ => some p
  | _ => none

/-- The value of a constant (1624). -/
def constVal (g : Net) (n : ℕ) : Option V :=
  match producer g n with
  | some ⟨.const t, _, _⟩ => some t
  | _ => none

/-- `op_input_indices` (4361-4380). -/
def indices (g : Net) (op : Op Kind) : List ℕ :=
  match op.fn with
  | .float .batchMatmul _ | .minmax _ => [0, 1]
  | .float .div _ => if g.one (op.ins.getD 1 0) then [0] else if g.one (op.ins.getD 0 0) then [1] else [0, 1]
  | _ => [0]

/-- `is_quantizable_rewrite_op` (3971-3982). -/
def rewritable (op : Op Kind) : Bool :=
  match op.fn with
  | .float _ _ | .minmax _ => true
  | _ => false

/-- Quantizing a constant like another operand (1632-1648): `np.rint` of the shifted value. -/
noncomputable def quantConst (rint : ℝ → ℤ) (p : QP) (t : V) : V := mapT (fun e => .int p (max p.lo (min p.hi (rint (e.real / p.scale + p.zp))))) t

/-- The quantized constant of MINIMUM and MAXIMUM (1625-1649): `q_tensors[op.inputs[0].name]` is an exception if the first operand is not dequantized. -/
noncomputable def withConst (rint : ℝ → ℤ) (g : Net) (op : Op Kind) : Option Net :=
  match op.fn, constVal g (op.ins.getD 1 0) with
  | .minmax _, some t =>
    if (g.qmap.lookup (op.ins.getD 1 0)).isSome then some g
    else
      match deqParam g (op.ins.getD 0 0) with
      | none => none
      | some p => some { g with qmap := (op.ins.getD 1 0, quantConst rint p t) :: g.qmap }
  | _, _ => some g

/-- The operators that read a tensor, once for every operand. -/
def readers (g : Net) (y : ℕ) : List (Op Kind) := g.ops.flatMap fun op => List.replicate (op.ins.count y) op

/-- The quantization of the result: that of the last QUANTIZE that reads it and may be used (1667-1712). -/
def outParam (ok : Kind → QP → Bool) (k : Kind) (rs : List (Op Kind)) : Option QP :=
  (rs.filterMap fun r => match r.fn with
    | .quantize p => if ok k p then some p else none
    | _ => none).getLast?

/-- The quantized operator. -/
def quantizedKind (p : QP) : Kind → Kind
  | .float c f => .kernel c f p
  | .minmax m => .minmaxQ m p
  | k => k

/-- The new operand at a position (1731-1756): the quantized constant or a QUANTIZE.  The last case is not reached. -/
noncomputable def quantIn (g : Net) (op : Op Kind) (i : ℕ) : Op Kind :=
  match g.qmap.lookup (op.ins.getD i 0), deqParam g (op.ins.getD i 0) with
  | some t, _ => ⟨.const t, [], [g.next + i]⟩
  | none, some p => ⟨.quantize p, [op.ins.getD i 0], [g.next + i]⟩
  | none, none => ⟨.const rejected, [], [g.next + i]⟩

/-- The operators instead of one (1727-1775). -/
noncomputable def rewritten (g : Net) (op : Op Kind) (p : QP) (y : ℕ) : List (Op Kind) :=
  (indices g op).map (quantIn g op) ++
    [⟨quantizedKind p op.fn, op.ins.mapIdx fun i x => if i ∈ indices g op then g.next + i else x, [g.next + 2]⟩, ⟨.dequantize p, [g.next + 2], [y]⟩]

/-- One operator, found by its result (1608-1775). -/
noncomputable def rewriteNode (rint : ℝ → ℤ) (ok : Kind → QP → Bool) (g : Net) (y : ℕ) : Option Net :=
  match producer g y with
  | none => some g
  | some op =>
    if ¬ rewritable op then some g
    else
      (withConst rint g op).map fun g =>
        let prev := (indices g op).map fun i => op.ins.getD i 0
        let skip := prev.filter fun x => (g.qmap.lookup x).isSome
        let deqs := (prev.filter fun x => (deqParam g x).isSome).dedup
        let next := readers g y
        match outParam ok op.fn next with
        | none => g
        | some p =>
          if next.length = 0 ∨ prev.length + next.length > skip.length + deqs.length + 1 then g
          else { g with ops := g.ops.flatMap (fun o => if o.outs.contains y then rewritten g op p y else [o]), next := g.next + 3 }

/-- The operators considered, in any order (1597-1608); an operator without a neighbour that is a DEQUANTIZE or QUANTIZE is not considered, and would not be changed. -/
noncomputable def rewrite (rint : ℝ → ℤ) (ok : Kind → QP → Bool) (g : Net) : List ℕ → Option Net
  | [] => some g
  | y :: ys => (rewriteNode rint ok g y).bind fun g' => rewrite rint ok g' ys

end Verif.Model.RewriteQ
