import Verif.Spec.Graph

/-!
Model of `cleanup_dead_nodes`, `/repo/tinynn/converter/operators/optimize.py` 1054-1084.  The nodes that have not been deleted are the
list `alive`; deleting vertices deletes their edges, so the out-degree of a node counts the edges to alive nodes.  igraph's
`is_connected('weak')` is the argument `connected`.  Warnings are dropped.
-/

namespace Verif.Model
open Verif.Spec

/-- `vertex.outdegree()` in what is left of the graph. -/
def outdegree (g : Graph) (alive : List Nat) (v : Nat) : Nat := ((g.outs v).filter (fun u => alive.contains u)).length

/-- optimize.py 1059-1078: the nodes collected by one pass over the vertices. -/
def deadNodes (g : Graph) (alive : List Nat) : List Nat :=
  alive.filter (fun v => decide (g.kind v ≠ .output ∧ g.kind v ≠ .unused) && decide (outdegree g alive v = 0) &&
    decide (g.kind v ≠ .input))

/-- optimize.py 1058-1084: the `while True` loop; `none`: out of fuel. -/
def cleanupLoop (g : Graph) : Nat → List Nat → Option (List Nat)
  | 0, _ => none
  | f + 1, alive =>
    let dead := deadNodes g alive
    if dead.isEmpty then some alive
    else cleanupLoop g f (alive.filter (fun v => !dead.contains v))

/-- `cleanup_dead_nodes`: the nodes that remain. -/
def cleanupDeadNodes (g : Graph) (connected : Bool) (fuel : Nat) : Option (List Nat) :=
  if connected then some (List.range g.n) else cleanupLoop g fuel (List.range g.n)

end Verif.Model
