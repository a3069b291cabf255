import Mathlib.Data.Rat.Defs
import Mathlib.Order.Notation

/-!
What the configuration of a channel pruner asks for.
-/

namespace Verif.Spec.PruneConfig

/-- Kinds of operations; `other` carries the name of the kind. -/
inductive Kind
  | conv1d | conv2d | convTranspose1d | convTranspose2d | linear | rnn | gru | lstm | other (name : String)
  deriving DecidableEq

/-- An operation of the model: name, kind, whether it is a depthwise convolution, number of tensors it reads. -/
structure Op where
  name : String
  kind : Kind
  dw : Bool
  reads : ℕ
  deriving DecidableEq

/-- The operations a pruner prunes: convolutions that are not depthwise, linear layers, and recurrent layers that are not given a state. -/
def Prunable (o : Op) : Prop :=
  ((o.kind = .conv1d ∨ o.kind = .conv2d ∨ o.kind = .convTranspose1d ∨ o.kind = .convTranspose2d) ∧ o.dw = false) ∨ o.kind = .linear ∨
    ((o.kind = .rnn ∨ o.kind = .gru ∨ o.kind = .lstm) ∧ o.reads = 1)

/-- What is asked for: a default, rates for operations by name, and whether the last layer is spared if it is linear. -/
structure Request where
  dflt : ℚ
  given : String → Option ℚ
  skipLastFc : Bool

/-- The rate of an operation: the one given for it; without one, 0 if it is the last layer, linear and spared, and otherwise the default. -/
def Wanted (r : Request) (last o : Op) (v : ℚ) : Prop :=
  match r.given o.name with
  | some w => v = w
  | none => (r.skipLastFc = true ∧ last.kind = .linear ∧ o.name = last.name → v = 0) ∧
      (¬(r.skipLastFc = true ∧ last.kind = .linear ∧ o.name = last.name) → v = r.dflt)

/-- `last` is the last prunable operation. -/
def IsLast (ops : List Op) (last : Op) : Prop := ∃ a b, ops = a ++ last :: b ∧ Prunable last ∧ ∀ o ∈ b, ¬Prunable o

end Verif.Spec.PruneConfig
