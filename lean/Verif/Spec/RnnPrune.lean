import Verif.Spec.Rnn
/-!
Recurrent layers whose units work side by side: PyTorch's RNN, GRU and LSTM.  Unit `j` gets, for every gate, what the input and what the hidden states contribute to it, and its own state.
-/

namespace Verif.Spec.RnnPrune
open Verif.Spec Finset

variable {R S : Type} [CommRing R]

/-- One step of a layer: `unit a b s` is the new state of a unit, `a n` and `b n` being the contributions of input and hidden states to gate `n`; `h` is the hidden state in a state. -/
def unitCell (unit : (Nat → R) → (Nat → R) → S → S) (h : S → R) (p : RnnParams R) (I H : Nat) (x : Nat → R) (s : Nat → S) : Nat → S := fun j =>
  unit (fun n => (∑ k ∈ range I, x k * p.wih (n * H + j) k) + p.bih (n * H + j)) (fun n => (∑ k ∈ range H, h (s k) * p.whh (n * H + j) k) + p.bhh (n * H + j)) (s j)

/-- `torch.nn.RNN` with activation `act`. -/
def rnnUnit (act : R → R) (a b : Nat → R) (_ : R) : R := act (a 0 + b 0)

/-- `torch.nn.GRU`. -/
def gruUnit (sg th : R → R) (a b : Nat → R) (h : R) : R :=
  (1 - sg (a 1 + b 1)) * th (a 2 + sg (a 0 + b 0) * b 2) + sg (a 1 + b 1) * h

/-- `torch.nn.LSTM`; the state of a unit is `(h, c)`. -/
def lstmUnit (sg th : R → R) (a b : Nat → R) (s : R × R) : R × R :=
  (sg (a 3 + b 3) * th (sg (a 1 + b 1) * s.2 + sg (a 0 + b 0) * th (a 2 + b 2)), sg (a 1 + b 1) * s.2 + sg (a 0 + b 0) * th (a 2 + b 2))

/-- The unit looks at its first `gates` gates only. -/
def UsesGates (gates : Nat) (unit : (Nat → R) → (Nat → R) → S → S) : Prop := ∀ a a' b b' s, (∀ n, n < gates → a n = a' n ∧ b n = b' n) → unit a b s = unit a' b' s

/-- A stack of layers. -/
structure Rnn (R : Type) where
  gates : Nat
  layers : Nat
  bidir : Bool
  input : Nat
  hidden : Nat
  par : Nat → Bool → RnnParams R

/-- The cell of a layer and direction. -/
def Rnn.cell (r : Rnn R) (unit : (Nat → R) → (Nat → R) → S → S) (h : S → R) (l : Nat) (back : Bool) : (Nat → R) → (Nat → S) → (Nat → S) :=
  unitCell unit h (r.par l back) (layerWidth r.input r.hidden r.bidir l) r.hidden

/-- The input of layer `l`, the output of the stack for `l = layers`: at time `t`, feature `j`, for a sequence `x` of length `T`.  All units start in state `s0`. -/
def Rnn.seq (r : Rnn R) (unit : (Nat → R) → (Nat → R) → S → S) (h : S → R) (s0 : S) (T : Nat) (x : Nat → Nat → R) (l : Nat) : Nat → Nat → R :=
  layerInput (fun s j => h (s j)) r.hidden T r.bidir (r.cell unit h) (fun _ _ _ => s0) x l

/-- The final state of unit `j` of a layer and direction. -/
def Rnn.final (r : Rnn R) (unit : (Nat → R) → (Nat → R) → S → S) (h : S → R) (s0 : S) (T : Nat) (x : Nat → Nat → R) (l : Nat) (back : Bool) : Nat → S :=
  dirFinal (r.cell unit h l back) T back (r.seq unit h s0 T x l) (fun _ => s0)

end Verif.Spec.RnnPrune
