import Verif.Model.StateIo
/-!
The shapes of the states of recurrent layers, after the documentation of PyTorch.
-/

namespace Verif.Spec.StateIo
open Verif.Model.StateIo

/-- Numbers of states a layer has: hidden and cell state, or only the hidden state. -/
def states (n : RnnNode) : Nat := if n.lstm then 2 else 1

/-- The batch size of a batched input `(L, N, H)` or `(N, L, H)`. -/
def batchOf (n : RnnNode) (a b : Nat) : Nat := if n.batchFirst then a else b

/-- Rows of a state: one per layer and direction. -/
def rows (n : RnnNode) : Nat := (if n.bidirectional then 2 else 1) * n.layers

/-- The shapes of the states PyTorch asks for: the hidden state has the size of the projection if there is one, the cell state never; without a batch there is no dimension for it. -/
def expected (n : RnnNode) : List (List Nat) :=
  let out := if n.proj = 0 then n.hidden else n.proj
  match n.input with
  | [a, b, _] => if n.lstm then [[rows n, batchOf n a b, out], [rows n, batchOf n a b, n.hidden]] else [[rows n, batchOf n a b, out]]
  | _ => if n.lstm then [[rows n, out], [rows n, n.hidden]] else [[rows n, out]]

end Verif.Spec.StateIo
