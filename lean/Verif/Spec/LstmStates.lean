/-!
Specification for C155: the states of the LSTM layers of a converted model.
-/

namespace Verif.Spec.LstmStates

/-- A tensor of a model: the sequence a layer of an LSTM reads (as it is or reversed), its weights and biases, its states (`cell`: the cell state, else the hidden state), and all others, among them
variable tensors of other operators. -/
inductive T
  | seq (lstm layer : Nat)
  | reversed (lstm layer : Nat)
  | weight (lstm layer : Nat) (back : Bool) (slot : Nat)
  | state (lstm layer : Nat) (back cell : Bool)
  | other (n : Nat) (isVar : Bool)
  deriving DecidableEq, Repr

/-- The states of a layer in the order a user expects: forwards before backwards, the hidden state before the cell state. -/
def statesOf (lstm layer : Nat) (bidir : Bool) : List T :=
  (if bidir then [false, true] else [false]).flatMap fun back => [.state lstm layer back false, .state lstm layer back true]

end Verif.Spec.LstmStates
