import Verif.Model.TracerElim

/-!
Model of `reset_input_output_for_graph`, tinynn/graph/tracer.py 2164-2245.

Simplified: a tensor object is identified with the node that produced it and its place in the result; comparing nodes by name is comparing positions (names are distinct, C81);
`next_nodes` is recomputed from scratch, while the code leaves old readers in the lists (they can only delay the dropping of a variable). `shape i` is the form of what node `i`
returned while tracing (`next_tensors`). A failed assertion is `none`.
-/

namespace Verif.Model.Tracer
open Verif.Spec.Trace

variable {F M K : Type}

/-- 2170-2174: look up a node that must be a call. -/
def forwardNode (st : State F M K) (name : String) : Option Nat :=
  (st.nodesMap name).bind (fun i => if i ∈ st.forward then some i else none)

/-- 2219-2237: the nodes visited from the outputs, not going beyond the input nodes. -/
def visited (st : State F M K) (ins outs : List Nat) : List Nat :=
  detect (fun i => if i ∈ ins then [] else prevs st i) (fuel st + outs.length) outs []

/-- 2230-2240 `missing_inputs`. -/
def missing (st : State F M K) (ins outs : List Nat) : List Nat :=
  (visited st ins outs).filter (fun i => decide (i ∉ ins ∧ prevs st i = [] ∧ nextNodes st i ≠ []))

/-- 2185-2189, 2246-2252: the numbering starts afresh, the old inputs and outputs are forgotten. -/
def clearIO (st : State F M K) : State F M K :=
  { st with
    inputs := []
    outputs := []
    gf := fun _ => none
    gn := fun _ => none
    nodesMap := fun x => if (st.inputs ++ st.outputs).any (fun i => (st.nodes[i]?).elim false (fun n => decide (n.name = x))) then none else st.nodesMap x }

/-- 2195-2197: a new input. -/
def newInput (st : State F M K) : State F M K :=
  let b := bump st "input"
  let n := number b.2 (fnName "input" b.1)
  let st1 := push n.2 ⟨n.1, .input, [], [], [], false⟩
  { st1 with inputs := st1.inputs ++ [n.2.nodes.length] }

/-- The place of a tensor (a node and an index), and the input that replaced it in `tensor_pre_node_dict`. -/
abbrev Redirect := List ((Nat × Path) × Nat)

/-- 2192-2198, for one input node: every tensor it reads becomes a new input. -/
def cutNode (a : State F M K × Redirect) (i : Nat) : State F M K × Redirect :=
  match a.1.nodes[i]? with
  | none => a
  | some n =>
    let st1 := n.prev.foldl (fun st _ => newInput st) a.1
    let pos := List.range' a.1.nodes.length n.prev.length
    ({ st1 with nodes := st1.nodes.set i { n with prev := pos } }, ((n.prev.zip n.idx).zip pos).reverse ++ a.2)

/-- The node a tensor is now said to come from. -/
def source (rd : Redirect) (o : Nat) (p : Path) : Nat := ((rd.find? (fun e => e.1 = (o, p))).map (·.2)).getD o

/-- 2203-2207, 1537-1555: a new output reading the given places of node `o`. -/
def newOutput (rd : Redirect) (o : Nat) (st : State F M K) (e : List Path × Bool) : State F M K :=
  let b := bump st "output"
  let n := number b.2 (fnName "output" b.1)
  let st1 := push n.2 ⟨n.1, .output, e.1.map (source rd o), e.1, [], e.2⟩
  { st1 with outputs := st1.outputs ++ [n.2.nodes.length] }

/-- 2202-2206: a node's results are returned one by one; a result that is a list is returned as a list. -/
def outputItems : Out Unit → List (List Path × Bool)
  | .one _ => [([[]], false)]
  | .seq xs => xs.mapIdx (fun i x => match x with
    | .leaf _ => ([[i]], false)
    | .tup as => (as.mapIdx (fun j _ => [i, j]), true))

/-- 2164-2216 `reset_input_output_for_graph`. -/
def resetIO (shape : Nat → Out Unit) (st : State F M K) (inNames outNames : List String) : Option (State F M K) := do
  if inNames.any (fun x => decide (x ∈ outNames)) then none
  else do
    let ins ← inNames.mapM (forwardNode st)
    let outs ← outNames.mapM (forwardNode st)
    if missing st ins outs ≠ [] then none
    else do
      let r := ins.foldl cutNode (clearIO st, [])
      some (eliminate (outs.foldl (fun st o => (outputItems (shape o)).foldl (newOutput r.2 o) st) r.1))

end Verif.Model.Tracer
