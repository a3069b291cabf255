import Verif.Spec.DataGraph

/-! Constants of a converter graph that operators may share. -/

namespace Verif.Spec
variable {T V : Type}

/-- The edges into vertex `v` that carry `t`. -/
def edgesFor [DecidableEq T] (g : DGraph T V) (v : Nat) (t : T) : List (DEdge T) := g.edges.filter (fun e => e.tgt = v ∧ e.label = t)

/-- There is one edge per operand. -/
def OneEdgePerOperand [DecidableEq T] (g : DGraph T V) : Prop :=
  ∀ v ∈ g.verts, (g.vtx v).kind = .op → ∀ t, (edgesFor g v t).length = (g.vtx v).ins.count t

/-- `t` is the tensor of a constant vertex. -/
def IsConstant (g : DGraph T V) (t : T) : Prop := ∃ v ∈ g.verts, (g.vtx v).kind = .constant ∧ t ∈ (g.vtx v).outs

end Verif.Spec
