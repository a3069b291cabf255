import Verif.Spec.Graph

/-!
Model of `CommonGraph.topological_sort` and the operator list of `CommonGraph.collect_operators`,
`/repo/tinynn/converter/operators/graph.py` 462-575.  The Python set `visited` is a list; log messages
are dropped; igraph's iteration over `graph.vs` is by increasing index, and the order of incident edges
is whatever the tables of the graph say.
-/

namespace Verif.Model
open Verif.Spec

/-- State of the loop over the constants: `visited`, `indices`, `other_input_nodes`. -/
structure ConstState where
  visited : List Nat
  indices : List Nat
  others : List Nat

/-- graph.py 487-508: one out-edge of a constant, with target `v`. -/
def constEdge (g : Graph) (st : ConstState) (v : Nat) : ConstState :=
  if st.others.contains v then st
  else if (g.ins v).any (fun u => !st.visited.contains u) then st
  else if g.kind v = .op then { st with others := st.others ++ [v] }
  else st

/-- graph.py 484-487: one constant. -/
def constNode (g : Graph) (st : ConstState) (c : Nat) : ConstState :=
  (g.outs c).foldl (constEdge g) { st with indices := st.indices ++ [c], visited := c :: st.visited }

/-- graph.py 479 and 482-508. -/
def constLoop (g : Graph) : ConstState :=
  ((List.range g.n).filter (fun v => g.kind v = .constant)).foldl (constNode g)
    { visited := [], indices := [],
      others := (List.range g.n).filter (fun v => g.kind v = .op && (g.ins v).isEmpty) }

/-- graph.py 525-550: the `while not q.empty()` loop; the head of `stack` is the top of the LIFO queue.
`none`: out of fuel. -/
def dfsLoop (g : Graph) : Nat → List Nat → List Nat → List Nat → Option (List Nat)
  | _, [], _, indices => some indices
  | 0, _ :: _, _, _ => none
  | f + 1, v :: stack, visited, indices =>
    if visited.contains v then dfsLoop g f stack visited indices
    else if (g.ins v).any (fun u => !visited.contains u) then dfsLoop g f stack visited indices
    else
      -- pushing the reversed out-edges leaves the first one on top
      dfsLoop g f (g.outs v ++ stack) (v :: visited) (indices ++ [v])

/-- `topological_sort`, graph.py 462-550.  Pushing `reversed(inputs + other_input_nodes)` leaves the list
itself as the stack, top first. -/
def topologicalSort (g : Graph) (fuel : Nat) : Option (List Nat) :=
  let inputs := (List.range g.n).filter (fun v => g.kind v = .input)
  let st := constLoop g
  dfsLoop g fuel (inputs ++ st.others) st.visited st.indices

/-- `collect_operators`, graph.py 552-580: the operators of the model, in order. -/
def collectOperators (g : Graph) (fuel : Nat) : Option (List Nat) :=
  (topologicalSort g fuel).map (fun ids => ids.filter (fun v => g.kind v = .op))

end Verif.Model
