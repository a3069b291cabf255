import Mathlib.Algebra.BigOperators.Group.Finset.Basic
import Mathlib.Algebra.Ring.Basic
import Mathlib.Data.Finset.Range

/-! What PyTorch's LSTM and GRU compute, for one row of the batch, over an exact ring and for any two activation functions `sg` (sigmoid) and `th` (tanh).
A vector is a function of its index.  Also the TFLite kernels the converter uses: FULLY_CONNECTED and the fused sequence LSTMs, with the input slots of
the TFLite documentation. -/

namespace Verif.Spec
open Finset

variable {R : Type} [CommRing R]

/-- The parameters of one layer and direction: input weights, recurrent weights, input biases, recurrent biases. -/
structure RnnParams (R : Type) where
  wih : Nat → Nat → R
  whh : Nat → Nat → R
  bih : Nat → R
  bhh : Nat → R

/-- Gate `n` before its activation, unit `j`: the rows of the parameters are grouped by gate, `H` rows each. -/
def lstmGate (p : RnnParams R) (I H n : Nat) (x h : Nat → R) (j : Nat) : R :=
  (∑ k ∈ range I, x k * p.wih (n * H + j) k) + p.bih (n * H + j) + ((∑ k ∈ range H, h k * p.whh (n * H + j) k) + p.bhh (n * H + j))

/-- One step of `torch.nn.LSTM` (gates in the order input, forget, cell, output); the state is `(h, c)`. -/
def lstmCell (sg th : R → R) (p : RnnParams R) (I H : Nat) (x : Nat → R) (s : (Nat → R) × (Nat → R)) : (Nat → R) × (Nat → R) :=
  let c' := fun j => sg (lstmGate p I H 1 x s.1 j) * s.2 j + sg (lstmGate p I H 0 x s.1 j) * th (lstmGate p I H 2 x s.1 j)
  (fun j => sg (lstmGate p I H 3 x s.1 j) * th (c' j), c')

/-- One step of `torch.nn.GRU` (gates in the order reset, update, new). -/
def gruCell (sg th : R → R) (p : RnnParams R) (I H : Nat) (x : Nat → R) (h : Nat → R) : Nat → R := fun j =>
  let r := sg (lstmGate p I H 0 x h j)
  let z := sg (lstmGate p I H 1 x h j)
  let n := th ((∑ k ∈ range I, x k * p.wih (2 * H + j) k) + p.bih (2 * H + j) + r * ((∑ k ∈ range H, h k * p.whh (2 * H + j) k) + p.bhh (2 * H + j)))
  (1 - z) * n + z * h j

/-- The state after `s` steps over a sequence of inputs. -/
def stateAfter {S : Type} (cell : (Nat → R) → S → S) (y : Nat → Nat → R) (init : S) : Nat → S
  | 0 => init
  | s + 1 => cell (y s) (stateAfter cell y init s)

/-- The order in which a direction reads a sequence of length `T`. -/
def dirSeq (T : Nat) (back : Bool) (x : Nat → Nat → R) : Nat → Nat → R := fun s => x (if back then T - 1 - s else s)

/-- The output of one direction at time `t`: the forward direction has then made `t + 1` steps, the backward direction `T - t`. -/
def dirOut {S : Type} (hOf : S → Nat → R) (cell : (Nat → R) → S → S) (T : Nat) (back : Bool) (x : Nat → Nat → R) (init : S) (t : Nat) : Nat → R :=
  hOf (stateAfter cell (dirSeq T back x) init (if back then T - t else t + 1))

/-- The final state of a direction. -/
def dirFinal {S : Type} (cell : (Nat → R) → S → S) (T : Nat) (back : Bool) (x : Nat → Nat → R) (init : S) : S := stateAfter cell (dirSeq T back x) init T

/-- The input of layer `l`: the sequence itself, then the outputs of the layer before, both directions side by side.  `cell` and `init` are given per layer
and direction. -/
def layerInput {S : Type} (hOf : S → Nat → R) (H T : Nat) (bidir : Bool) (cell : Nat → Bool → (Nat → R) → S → S) (init : Nat → Bool → S) (x : Nat → Nat → R) : Nat → Nat → Nat → R
  | 0 => x
  | l + 1 => fun t j =>
    let y := layerInput hOf H T bidir cell init x l
    if bidir && decide (H ≤ j) then dirOut hOf (cell l true) T true y (init l true) t (j - H) else dirOut hOf (cell l false) T false y (init l false) t j

/-- The flat list of parameters of `torch.nn.LSTM`/`GRU`: for every layer, for every direction, `w_ih, w_hh` and with biases `b_ih, b_hh` (a bias is a matrix with
one column). -/
def torchParams (hasBias bidir : Bool) (params : Nat → Nat → Nat → R) (l : Nat) (back : Bool) : RnnParams R :=
  let base := (l * (if bidir then 2 else 1) + (if back then 1 else 0)) * (if hasBias then 4 else 2)
  { wih := params base, whh := params (base + 1),
    bih := fun j => if hasBias then params (base + 2) j 0 else 0, bhh := fun j => if hasBias then params (base + 3) j 0 else 0 }

/-- The width of the input of layer `l`. -/
def layerWidth (I H : Nat) (bidir : Bool) (l : Nat) : Nat := if l = 0 then I else if bidir then 2 * H else H

/-- A sequence tensor: time, batch, feature (or batch, time, feature with `batch_first`). -/
def seqAt (batchFirst : Bool) (x : Nat → Nat → Nat → R) (t b j : Nat) : R := if batchFirst then x b t j else x t b j

/-- TFLite FULLY_CONNECTED: `x` of `K` columns, weights with one row per output. -/
def tflFc (K : Nat) (x w : Nat → Nat → R) (bias : Nat → R) : Nat → Nat → R := fun b j => (∑ k ∈ range K, x b k * w j k) + bias j

/-- One step of the TFLite sequence LSTM kernels, reading the weights from input slots: `wi + n` for the input weights of gate `n` (input, forget, cell, output),
`wr + n` for the recurrent weights and `wb + n` for the biases. -/
def tflLstmCell (sg th : R → R) (slot : Nat → Nat → Nat → R) (wi wr wb I H : Nat) (x : Nat → R) (s : (Nat → R) × (Nat → R)) : (Nat → R) × (Nat → R) :=
  let g := fun (n j : Nat) => (∑ k ∈ range I, x k * slot (wi + n) j k) + (∑ k ∈ range H, s.1 k * slot (wr + n) j k) + slot (wb + n) j 0
  let c' := fun j => sg (g 1 j) * s.2 j + sg (g 0 j) * th (g 2 j)
  (fun j => sg (g 3 j) * th (c' j), c')

/-- UNIDIRECTIONAL_SEQUENCE_LSTM: slots 1-4, 5-8 and 12-15; `h`, `c` are the contents of the state tensors (slots 18 and 19) before the run.  Output at time `t`, row `b`. -/
def tflUniLstm (sg th : R → R) (slot : Nat → Nat → Nat → R) (h c : Nat → Nat → R) (I H : Nat) (x : Nat → Nat → Nat → R) (t b : Nat) : Nat → R :=
  (stateAfter (tflLstmCell sg th slot 1 5 12 I H) (fun s => x s b) (h b, c b) (t + 1)).1

/-- BIDIRECTIONAL_SEQUENCE_LSTM with merged outputs: the backward weights are in slots 18-21, 22-25 and 29-32, the states in slots 35 to 38. -/
def tflBiLstm (sg th : R → R) (slot : Nat → Nat → Nat → R) (hf cf hb cb : Nat → Nat → R) (I H T : Nat) (x : Nat → Nat → Nat → R) (t b : Nat) : Nat → R := fun j =>
  if j < H then (stateAfter (tflLstmCell sg th slot 1 5 12 I H) (fun s => x s b) (hf b, cf b) (t + 1)).1 j
  else (stateAfter (tflLstmCell sg th slot 18 22 29 I H) (fun s => x (T - 1 - s) b) (hb b, cb b) (T - t)).1 (j - H)

end Verif.Spec
