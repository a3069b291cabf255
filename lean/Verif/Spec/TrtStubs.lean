/-!
Specification for C147: what the operators of a model prepared for TensorRT read, and which quantizers of its modules work.
-/

namespace Verif.Spec.Trt

/-- A tensor of the model: the operator that makes it and its place among the results (`none` when there is only one). -/
abbrev Place := Nat × Option Nat

/-- What an operator of the prepared model is handed: a tensor as it was, a tensor that went through a quantizer, or something else (a row of a tensor). -/
inductive Arg
  | raw (t : Place)
  | quantized (t : Place)
  | other
deriving DecidableEq, Repr

/-- An operator: whether it is one of those TensorRT runs on integers (convolutions, linear layers, LSTM, average pooling), and the tensors it reads in order. -/
structure Op where
  observed : Bool
  slots : List Place
deriving DecidableEq, Repr

/-- What it should be handed: everything quantized but shapes, sizes, devices and types (`skip`), if it works on integers; otherwise everything as it was. -/
def expected (skip : Nat → Bool) (op : Op) : List Arg := op.slots.map (fun t => if op.observed = true ∧ skip t.1 = false then .quantized t else .raw t)

/-- The operator reads at most one tensor of each operator before it. -/
def OnePlace (op : Op) : Prop := ∀ s ∈ op.slots, ∀ t ∈ op.slots, s.1 = t.1 → s = t

/-- The switches of one quantizer. -/
structure Switch where
  fakeQuant : Bool
  observer : Bool
deriving DecidableEq, Repr

def Switch.on : Switch := ⟨true, true⟩
def Switch.off : Switch := ⟨false, false⟩

/-- A module of the prepared model: whether it is a `QuantStub`, the quantizer of its result, the quantizer of its weight, its children. -/
inductive Mod
  | mk (stub : Bool) (act weight : Option Switch) (children : List Mod)

def Mod.stub : Mod → Bool | .mk s _ _ _ => s
def Mod.act : Mod → Option Switch | .mk _ a _ _ => a
def Mod.weight : Mod → Option Switch | .mk _ _ w _ => w
def Mod.children : Mod → List Mod | .mk _ _ _ c => c

/-- A module and its descendants. -/
inductive Inside : Mod → Mod → Prop
  | self (m) : Inside m m
  | child {m c d} : c ∈ m.children → Inside c d → Inside m d

end Verif.Spec.Trt
