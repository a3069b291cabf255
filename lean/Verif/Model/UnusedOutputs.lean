import Verif.Model.TensorBuffers

/-!
Model of the treatment of outputs that nobody reads (`/repo/tinynn/converter/operators/`):

  optimize.py  GraphOptimizer.connect_unused_tensors_pass 3395-3424, is_multi_output_op_node 3807-3808
  graph.py     CommonGraph.add_outputs 211-229, the labels of the edges as tensors of the file 604-605

Tensors are identified with their names.  Left out: the passes between this one and the writing of the file; the theorems are about
graphs these passes leave alone.
-/

namespace Verif.Model.UnusedOutputs

/-- `vertex['node_type']`: operators (`>= 0`), of which RESHAPE is recognised, and the special nodes (base.py 14-19: constants, inputs,
outputs, unused outputs). -/
inductive Kind where
  | op | reshape | special
deriving DecidableEq

/-- `vertex['node_type'] >= 0`, optimize.py 3808. -/
def Kind.isOp : Kind → Bool
  | .op | .reshape => true
  | .special => false

/-- A vertex of the graph: `node_type` and `outputs` (graph.py 143-148, 172-188). -/
structure Vertex (α : Type) where
  kind : Kind
  outputs : List α
deriving DecidableEq

/-- An edge of the graph with its `label`, the name of the tensor that flows along it (graph.py 224, 240-242). -/
structure Edge (α : Type) where
  src : Nat
  tgt : Nat
  label : α
deriving DecidableEq

/-- `CommonGraph`: vertices by index, edges, and `iterable_map` (graph.py 53-76), the elements of the Python lists of the model; both
the lists made with ListConstruct and the lists returned by operators are in it. -/
structure G (α : Type) where
  vs : List (Vertex α)
  es : List (Edge α)
  lists : List (α × List α)

variable {α : Type} [DecidableEq α]

/-- `self.graph.graph.es['label']`, optimize.py 3401 and graph.py 605. -/
def G.labels (g : G α) : List α := g.es.map (·.label)

/-- `node.out_edges()`. -/
def G.outEdges (g : G α) (i : Nat) : List (Edge α) := g.es.filter (fun e => decide (e.src = i))

/-- `list_unpack_names`, optimize.py 3400. -/
def G.listed (g : G α) : List α := g.lists.flatMap (·.2)

/-- optimize.py 3413-3415: the output of the target of an edge, if it is a RESHAPE.  A RESHAPE has one output. -/
def G.unpacked (g : G α) (e : Edge α) : List α :=
  match g.vs[e.tgt]? with
  | some t => if t.kind = .reshape then t.outputs.take 1 else []
  | none => []

/-- `is_multi_output_op_node`, optimize.py 3807-3808. -/
def G.multi (g : G α) (i : Nat) (v : Vertex α) : Bool :=
  v.kind.isOp && decide (v.outputs.length > 1) && !(g.outEdges i).isEmpty

/-- optimize.py 3404-3419: `output_names` for one node.  The `continue` of 3418-3419 is the last statement of the loop over the edges
and changes nothing. -/
def G.candidates (g : G α) (i : Nat) (v : Vertex α) : List α :=
  if v.outputs.any (fun x => g.listed.contains x) then (g.outEdges i).flatMap g.unpacked else v.outputs

/-- optimize.py 3403-3423: `names`. -/
def G.unusedNames (g : G α) : List α :=
  g.vs.zipIdx.flatMap fun (v, i) =>
    if g.multi i v then (g.candidates i v).filter (fun x => !g.labels.contains x) else []

/-- graph.py 220-224 for one name: a new node and the edge from the node that computes the tensor (`tensor_node_map`) to it.
Simplification: the new node has a fresh name as its output, which nothing refers to; it is left out here.  Every name is an output
of a vertex, so the search succeeds. -/
def addUnused (g : G α) (x : α) : G α :=
  { g with vs := g.vs ++ [⟨.special, []⟩], es := g.es ++ [⟨g.vs.findIdx (fun v => v.outputs.contains x), g.vs.length, x⟩] }

/-- `connect_unused_tensors_pass`, optimize.py 3395-3424.  Simplification: `add_outputs` first makes all nodes and then all edges;
the result is the same. -/
def connect (g : G α) : G α := g.unusedNames.foldl addUnused g

/-- `tensor.index` as the constructor leaves it: -1 for the placeholder of an omitted operand (tflite/base.py 308-310), 0 otherwise
(186). -/
def index0 (optional : α → Bool) (x : α) : Int := if optional x then -1 else 0

end Verif.Model.UnusedOutputs
