/-!
Networks of operators with named tensors, and what they compute, independent of the order in which operators are listed.
-/

namespace Verif.Spec.BranchExpand

/-- The operators this is about, and all others. -/
inductive Kind where
  | reshape
  | transpose
  | other
  deriving DecidableEq

/-- An operator: its kind, its function (with the target shape or the permutation in it), and the names of its operands and results. -/
structure Op (α : Type) where
  kind : Kind
  fn : List α → List α
  ins : List Nat
  outs : List Nat

/-- A network; names from `next` on are unused. -/
structure Net (α : Type) where
  inputs : List Nat
  consts : List (Nat × α)
  outputs : List Nat
  ops : List (Op α)
  next : Nat

variable {α : Type}

/-- `v` gives every tensor the value that its operator computes. -/
def Consistent (net : Net α) (v : Nat → α) : Prop := (∀ c ∈ net.consts, v c.1 = c.2) ∧ ∀ op ∈ net.ops, op.outs.map v = op.fn (op.ins.map v)

/-- The network takes the inputs `xs` to the outputs `ys`. -/
def Computes (net : Net α) (xs ys : List α) : Prop := ∃ v, Consistent net v ∧ net.inputs.map v = xs ∧ net.outputs.map v = ys

/-- The network has no cycles: tensors can be numbered so that operators read smaller numbers than they write. -/
def Acyclic (net : Net α) : Prop := ∃ rank : Nat → Nat, ∀ op ∈ net.ops, ∀ i ∈ op.ins, ∀ o ∈ op.outs, rank i < rank o

/-- Names are below `next`. -/
def Named (net : Net α) : Prop :=
  (∀ n ∈ net.inputs, n < net.next) ∧ (∀ c ∈ net.consts, c.1 < net.next) ∧ (∀ n ∈ net.outputs, n < net.next) ∧ ∀ op ∈ net.ops, (∀ n ∈ op.ins, n < net.next) ∧ ∀ n ∈ op.outs, n < net.next

/-- Every tensor has one source. -/
def OneSource (net : Net α) : Prop := (net.inputs ++ net.consts.map Prod.fst ++ net.ops.flatMap Op.outs).Nodup

end Verif.Spec.BranchExpand
