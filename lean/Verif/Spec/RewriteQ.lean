import Verif.Spec.Dataflow
import Verif.Spec.Requant
import Verif.Spec.Broadcast

/-!
What the operators of a partly quantized model compute.  A quantized operator gives the quantized form of what the operator computes from the numbers its operands stand for; MINIMUM and MAXIMUM compare the
stored integers as they are.
-/

namespace Verif.Spec.RewriteQ
open Verif.Spec

/-- A tensor of real numbers and stored integers. -/
abbrev V := Tensor QVal

/-- Elementwise. -/
def mapT (g : QVal → QVal) (t : V) : V := ⟨t.shape, fun i => g (t.get i)⟩

/-- DEQUANTIZE. -/
noncomputable def deq (t : V) : V := mapT (fun e => .float e.real) t

/-- QUANTIZE. -/
noncomputable def quantT (rnd : ℝ → ℤ) (p : QP) (t : V) : V := mapT (fun e => .int p (p.quant rnd e.real)) t

/-- Pairs of elements, with broadcasting. -/
def zipT (g : QVal → QVal → QVal) (a b : V) : V := ⟨(bcShape a.shape b.shape).getD [], fun i => g (bcGet a i) (bcGet b i)⟩

/-- All elements are integers stored with the quantization `p`. -/
def Stores (p : QP) (t : V) : Prop := ∀ i, ∃ q, t.get i = .int p q ∧ p.Holds q

/-- All elements are stored integers. -/
def IsQuantized (t : V) : Prop := ∀ i, ∃ p q, t.get i = .int p q

/-- The stored integer. -/
def raw : QVal → ℤ
  | .float _ => 0
  | .int _ q => q

/-- Operators that can work on quantized tensors, except MINIMUM and MAXIMUM. -/
inductive Code
  | batchMatmul | softmax | logSoftmax | abs | sum | div | rsqrt
  deriving DecidableEq

/-- The operands that must be quantized for a quantized operator. -/
def Code.operands : Code → List ℕ
  | .batchMatmul | .div => [0, 1]
  | _ => [0]

/-- Operators. -/
inductive Kind
  | quantize (p : QP)
  /-- `p` is the quantization of the operand. -/
  | dequantize (p : QP)
  | const (t : V)
  /-- Works on real numbers; `f` is what it computes. -/
  | float (c : Code) (f : List V → V)
  /-- The same with a quantized result. -/
  | kernel (c : Code) (f : List V → V) (p : QP)
  | minmax (isMin : Bool)
  | minmaxQ (isMin : Bool) (p : QP)
  | other (f : List V → ℕ → V)

/-- The tensor that stands for a model TFLite rejects. -/
noncomputable def rejected : V := ⟨[], fun _ => .float 0⟩

/-- MINIMUM or MAXIMUM. -/
def pick {α : Type} [Min α] [Max α] (isMin : Bool) (a b : α) : α := if isMin then min a b else max a b

open Classical in
/-- What an operator computes. -/
noncomputable def sem (rnd : ℝ → ℤ) : Kind → List V → ℕ → V
  | .quantize p, vs, _ => quantT rnd p (vs.headD rejected)
  | .dequantize _, vs, _ => deq (vs.headD rejected)
  | .const t, _, _ => t
  | .float _ f, vs, _ => f vs
  | .kernel c f p, vs, _ => if ∀ i ∈ c.operands, IsQuantized (vs.getD i rejected) then quantT rnd p (f (vs.mapIdx fun i v => if i ∈ c.operands then deq v else v)) else rejected
  | .minmax isMin, vs, _ => zipT (fun a b => .float (pick isMin a.real b.real)) (vs.getD 0 rejected) (vs.getD 1 rejected)
  | .minmaxQ isMin p, vs, _ =>
    if IsQuantized (vs.getD 0 rejected) ∧ IsQuantized (vs.getD 1 rejected) then zipT (fun a b => .int p (pick isMin (raw a) (raw b))) (vs.getD 0 rejected) (vs.getD 1 rejected) else rejected
  | .other f, vs, i => f vs i

end Verif.Spec.RewriteQ
