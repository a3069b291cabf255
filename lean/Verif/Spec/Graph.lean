import Mathlib.Logic.Relation

/-!
Specification vocabulary for the exported computation graph: nodes `0 .. n-1` with a kind, and the
directed (multi-)edges between them given by the incident lists of every node, in any order.
-/

namespace Verif.Spec

inductive Kind | input | constant | output | unused | op
  deriving DecidableEq, Repr

structure Graph where
  n : Nat
  kind : Nat → Kind
  /-- Sources of the incoming edges. -/
  ins : Nat → List Nat
  /-- Targets of the outgoing edges. -/
  outs : Nat → List Nat

namespace Graph

/-- There is an edge from `u` to `v`. -/
def Edge (g : Graph) (u v : Nat) : Prop := v ∈ g.outs u

/-- The two incidence tables describe the same edges, which join existing nodes. -/
structure Consistent (g : Graph) : Prop where
  mem : ∀ u v, u ∈ g.ins v ↔ v ∈ g.outs u
  lt : ∀ u v, v ∈ g.outs u → u < g.n ∧ v < g.n

/-- No node can be reached from itself along at least one edge. -/
def Acyclic (g : Graph) : Prop := ∀ v, ¬ Relation.TransGen g.Edge v v

/-- Only inputs, constants and operators produce tensors. -/
def ProducersOk (g : Graph) : Prop :=
  ∀ u v, g.Edge u v → g.kind u = .input ∨ g.kind u = .constant ∨ g.kind u = .op

end Graph

/-- Every entry of `order` other than those exempted comes after all its sources. -/
def DependencyOrder (g : Graph) (exempt : Nat → Prop) (order : List Nat) : Prop :=
  ∀ pre v post, order = pre ++ v :: post → ¬ exempt v → ∀ u, g.Edge u v → u ∈ pre

end Verif.Spec
