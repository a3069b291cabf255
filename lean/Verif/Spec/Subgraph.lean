import Mathlib.Logic.Relation
import Mathlib.Order.Defs.LinearOrder

/-! When two pruning centres belong together: some operator's inputs depend on both, directly or through a chain of operators. -/

namespace Verif.Spec

/-- An operator as far as subgraph division sees it: the centres it depends on, and those its inputs depend on. -/
structure CenterInfo (C : Type) where
  centers : List C
  inputCenters : List C

/-- The equivalence relation generated by "reach the inputs of a common operator". -/
def CentersLinked {C : Type} (ops : List (CenterInfo C)) : C → C → Prop :=
  Relation.EqvGen (fun a b => ∃ m ∈ ops, a ∈ m.inputCenters ∧ b ∈ m.inputCenters)

end Verif.Spec
