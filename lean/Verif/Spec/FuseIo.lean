import Mathlib.Data.List.Basic

/-!
A converted model as a list of operators over named tensors, and what running it means.  Independent of the converter.
-/

namespace Verif.Spec.FuseIo

/-- Whether an operator is a QUANTIZE, a DEQUANTIZE or anything else. -/
inductive Kind | quantize | dequantize | other
deriving DecidableEq

/-- An operator: the tensors it reads, the tensor it writes and the function it computes. -/
structure Op (V : Type) where
  kind : Kind
  srcs : List String
  dst : String
  fn : List V → V

/-- A model: its inputs, its operators in execution order and its outputs. -/
structure Net (V : Type) where
  inputs : List String
  ops : List (Op V)
  outputs : List String

variable {V : Type}

/-- The tensors that have a value so far. -/
abbrev Env (V : Type) := String → Option V

/-- The value a tensor is given. -/
def Env.put (e : Env V) (n : String) (v : V) : Env V := fun m => if m = n then some v else e m

/-- The values of a list of tensors; fails when one of them has none. -/
def Env.all (e : Env V) : List String → Option (List V)
  | [] => some []
  | n :: ns => match e n, e.all ns with
    | some v, some vs => some (v :: vs)
    | _, _ => none

/-- Running the operators in order; fails when an operator reads a tensor without a value. -/
def runOps : List (Op V) → Env V → Option (Env V)
  | [], e => some e
  | o :: os, e => match e.all o.srcs with
    | some vs => runOps os (e.put o.dst (o.fn vs))
    | none => none

/-- The environment in which the inputs have received their values. -/
def feed : List String → List V → Env V
  | n :: ns, v :: vs => (feed ns vs).put n v
  | _, _ => fun _ => none

/-- Running a model on one value per input: the values of the outputs. -/
def Net.run (g : Net V) (xs : List V) : Option (List V) :=
  if xs.length = g.inputs.length then (runOps g.ops (feed g.inputs xs)).bind fun e => e.all g.outputs else none

/-- Every tensor is written once, and no operator writes an input. -/
def Net.Single (g : Net V) : Prop := g.inputs.Nodup ∧ (g.ops.map Op.dst).Nodup ∧ ∀ o ∈ g.ops, o.dst ∉ g.inputs

end Verif.Spec.FuseIo
