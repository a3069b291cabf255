import Verif.Model.Tracer

/-! Which nodes of a graph the outputs depend on. -/

namespace Verif.Spec.Trace
open Verif.Model.Tracer

/-- An output depends on node `i`: it is an output, or it is read by such a node. -/
inductive Needed {F M K : Type} (st : State F M K) : Nat → Prop where
  | out {i : Nat} (h : i ∈ st.outputs) : Needed st i
  | read {i j : Nat} {n : TNode F M K} (hn : st.nodes[i]? = some n) (hj : j ∈ n.prev) (h : Needed st i) : Needed st j

end Verif.Spec.Trace
