import Mathlib.Logic.Relation

/-!
Specification for C145: which layers compute values that leave the quantized part of the model towards its outputs.
-/

namespace Verif.Spec.OnnxLeaves

/-- What a node of the graph is: a function, a DeQuantStub, a QuantStub, a layer with an activation quantizer, another layer. -/
inductive Kind where
  | func | dequant | quant | observed | plain
deriving DecidableEq

/-- A model: what the nodes are, which nodes each one reads, and which nodes the outputs read. -/
structure Net where
  kind : Nat → Kind
  reads : Nat → List Nat
  outputs : List Nat

/-- Nodes read only earlier nodes. -/
def Net.Acyclic (g : Net) : Prop := ∀ v, ∀ u ∈ g.reads v, u < v

/-- `u` is read by `v`, and `v` satisfies `P`. -/
def Net.Step (g : Net) (P : Kind → Prop) (u v : Nat) : Prop := u ∈ g.reads v ∧ P (g.kind v)

/-- The result of `d` arrives at an output through layers only. -/
def Net.ReachesOutput (g : Net) (d : Nat) : Prop :=
  g.kind d ≠ .func ∧ ∃ o ∈ g.outputs, Relation.ReflTransGen (g.Step (· ≠ .func)) d o

/-- The result of `m`, possibly passed on by layers without a quantizer, is dequantized, and the dequantized value arrives at an output
through layers only. -/
def Net.Leaves (g : Net) (m : Nat) : Prop :=
  g.kind m = .observed ∧ ∃ p d, Relation.ReflTransGen (g.Step (· = .plain)) m p ∧ p ∈ g.reads d ∧ g.kind d = .dequant ∧
    g.ReachesOutput d

end Verif.Spec.OnnxLeaves
