import Mathlib.Data.List.Dedup

/-! The graph the converter keeps: operators, the connections between them and the vertex that produces each tensor. -/

namespace Verif.Spec.Rebuild

/-- A vertex: an operator with its number, or an input or constant tensor. -/
inductive Name
  | op (n : ℕ)
  | leaf (t : ℕ)
  deriving DecidableEq

/-- What an operator reads and writes; tensors are numbers. -/
structure Op where
  ins : List ℕ
  outs : List ℕ
  deriving DecidableEq

/-- The graph: operators with their numbers, connections (from, to, tensor), connections to output vertices (from, tensor), the producer of each tensor, the next number and the outputs of the model. -/
structure G where
  ops : List (ℕ × Op)
  edges : List (Name × ℕ × ℕ)
  outNodes : List (Name × ℕ)
  own : ℕ → Option Name
  next : ℕ
  outputs : List ℕ

/-- What the operator with number `n` reads; nothing if there is none. -/
def reads (g : G) (n : ℕ) : List ℕ := match g.ops.lookup n with
  | some o => o.ins
  | none => []

/-- The connections say what is read: there is one from the producer of a tensor for each time an operator reads it, one to an output vertex for each output of the model, and no others. -/
def Connected (g : G) : Prop :=
  (∀ s n t, g.edges.count (s, n, t) = if g.own t = some s then (reads g n).count t else 0) ∧
    ∀ s t, g.outNodes.count (s, t) = if g.own t = some s ∧ t ∈ g.outputs then 1 else 0

end Verif.Spec.Rebuild
