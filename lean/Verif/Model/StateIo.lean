/-!
Making the states of recurrent layers inputs and outputs of a traced model: `TraceGraph.add_state_input_outputs` (tinynn/graph/tracer.py:2115-2162).  A node of the graph is reduced to what the function looks at.
-/

namespace Verif.Model.StateIo

/-- A node with an `nn.LSTM` (`lstm`), an `nn.GRU` or an `nn.RNN`: the settings of the module, the shape of the input, and the numbers of nodes before and after it. -/
structure RnnNode where
  lstm : Bool
  batchFirst : Bool
  bidirectional : Bool
  layers : Nat
  hidden : Nat
  proj : Nat
  input : List Nat
  prevNodes : Nat
  nextNodes : Nat

/-- `hidden_shape` (2121-2127). -/
def hiddenShape (n : RnnNode) : List Nat :=
  let batch := if n.batchFirst then n.input.getD 0 0 else n.input.getD 1 0
  let directions := if n.bidirectional then 2 else 1
  let size := if n.proj > 0 then n.proj else n.hidden
  [n.layers * directions, batch, size]

/-- The shapes of the inputs added for the node (2128-2145). -/
def addedInputs (n : RnnNode) : List (List Nat) :=
  if n.prevNodes = 1 then
    if n.lstm then [hiddenShape n, hiddenShape n] else [hiddenShape n]
  else []

/-- The number of outputs added for the node (2152-2158): the two states of an LSTM, the one of another layer. -/
def addedOutputs (n : RnnNode) : Nat := if n.nextNodes = 1 then (if n.lstm then 2 else 1) else 0

/-- The whole function: nodes from first to last. -/
def added (ns : List RnnNode) : List (List Nat) × Nat := (ns.flatMap addedInputs, (ns.map addedOutputs).sum)

end Verif.Model.StateIo
