import Verif.Spec.FuseIo
import Verif.Spec.Requant

/-!
Model of `fuse_quant_dequant_nodes` and `quantize_input_output_type_pass` (`tinynn/converter/operators/optimize.py:3070-3179, 3441-3497`).
Simplification: the graph's edges are read off the operators' operands; edges are visited in the order inputs × operators, outputs.
-/

namespace Verif.Model.FuseIo
open Verif.Spec.FuseIo

variable {V : Type}

/-- `fuse_input_indices` / `fuse_output_indices`: no list means all (optimize.py:3451-3454, 3462-3465).  The position is that of the first occurrence. -/
def allowed (idx : Option (List ℕ)) (names : List String) (n : String) : Bool :=
  match idx with
  | none => true
  | some l => l.contains (names.idxOf n)

/-- `is_quant_dequant_edge`, first case: an input and a QUANTIZE that reads it as its first operand (optimize.py:4234-4236). -/
def readsInput (o : Op V) (n : String) : Bool := decide (o.kind = .quantize) && decide (o.srcs.head? = some n)

/-- The QUANTIZE nodes that become inputs in place of input `n` (optimize.py:3449-3459). -/
def inputHeads (idx : Option (List ℕ)) (g : Net V) (n : String) : List (Op V) :=
  if allowed idx g.inputs n then g.ops.filter fun o => readsInput o n else []

/-- The operator is a QUANTIZE that became an input. -/
def fusedQ (idx : Option (List ℕ)) (g : Net V) (o : Op V) : Bool :=
  g.inputs.any fun n => allowed idx g.inputs n && readsInput o n

/-- The operator is a DEQUANTIZE that became an output (optimize.py:3460-3471): it feeds an output at an allowed position. -/
def fusedD (idx : Option (List ℕ)) (g : Net V) (o : Op V) : Bool :=
  decide (o.kind = .dequantize) && g.outputs.contains o.dst && allowed idx g.outputs o.dst

/-- The new list of inputs (optimize.py:3475-3484): an input with fused QUANTIZE nodes is replaced by all their outputs. -/
def newInputs (idx : Option (List ℕ)) (g : Net V) : List String :=
  g.inputs.flatMap fun n => match inputHeads idx g n with
    | [] => [n]
    | hs => hs.map Op.dst

/-- The new list of outputs (optimize.py:3486-3495): a fused DEQUANTIZE's output is replaced by the tensor it read. -/
def newOutputs (idx : Option (List ℕ)) (g : Net V) : List String :=
  g.outputs.map fun n => match g.ops.find? fun o => fusedD idx g o && decide (o.dst = n) with
    | some o => o.srcs.headD n
    | none => n

/-- `fuse_quant_dequant_nodes`: the fused operators are gone. -/
def fuse (inIdx outIdx : Option (List ℕ)) (g : Net V) : Net V where
  inputs := newInputs inIdx g
  ops := g.ops.filter fun o => !(fusedQ inIdx g o) && !(fusedD outIdx g o)
  outputs := newOutputs outIdx g

/-! ### The type of inputs and outputs -/

open Verif.Spec

/-- The storage types a tensor can have (`str(tensor.dtype)`). -/
inductive DType | float32 | int8 | uint8 | int16
deriving DecidableEq

/-- A quantized tensor: its type and quantization. -/
structure IoTensor where
  dtype : DType
  scale : ℝ
  zp : ℤ

/-- The quantization with the storage range of the type. -/
noncomputable def IoTensor.qp (t : IoTensor) : QP :=
  match t.dtype with
  | .int8 => i8 t.scale t.zp
  | .uint8 => u8 t.scale t.zp
  | .int16 => i16 t.scale t.zp
  | .float32 => ⟨t.scale, t.zp, 0, 0⟩

/-- The tensor the model shows to its user, for a requested type (optimize.py:3085-3106, 3143-3159): `none` for an AssertionError. -/
def ioTensor (want : DType) (t : IoTensor) : Option IoTensor :=
  if t.dtype = want then some t
  else if t.dtype = .int8 ∧ want = .uint8 then some { t with dtype := .uint8, zp := t.zp + 128 }
  else if t.dtype = .uint8 ∧ want = .int8 then some { t with dtype := .int8, zp := t.zp - 128 }
  else none

/-- What the inserted QUANTIZE turns a fed integer into: the integer the model used to receive (optimize.py:3108-3118). -/
noncomputable def feedInput (rnd : ℝ → ℤ) (want : DType) (t : IoTensor) (q : ℤ) : Option ℤ :=
  (ioTensor want t).map fun t' => if t.dtype = want then q else t.qp.quant rnd (t'.qp.real q)

/-- What the inserted QUANTIZE turns an output integer into (optimize.py:3161-3165). -/
noncomputable def readOutput (rnd : ℝ → ℤ) (want : DType) (t : IoTensor) (q : ℤ) : Option ℤ :=
  (ioTensor want t).map fun t' => if t.dtype = want then q else t'.qp.quant rnd (t.qp.real q)

end Verif.Model.FuseIo
