import Verif.Spec.Int16Lstm
/-!
Model of `HybridQuantizer.int16_lstm_pass`, tinynn/converter/operators/hybrid_quantizer.py 61-129, for operators with an int8 input that are not excluded by the configuration.
Simplifications: numbers are rational; weights have one scale (they are quantized per tensor, 157-165).  `torch.round` is the parameter `r`.  Initial states are variable tensors, which the interpreter
fills itself.
-/

namespace Verif.Model.Int16Lstm
open Verif.Spec.Int16Lstm

/-- An operator as the pass finds it: by index of the input, the scale of the weights and the name of the bias; and the quantizations of input, output and, if it was quantized, of the cell output. -/
structure Lstm where
  weight : ℕ → ℚ
  bias : ℕ → String
  input : QP
  output : QP
  cellOut : Option QP

/-- A quantized bias. -/
structure QBias where
  data : List ℤ
  scale : ℚ
  deriving DecidableEq

/-- `BIAS_MAPPING`, 22-24. -/
def biasMapping : List (ℕ × ℕ) := [(1, 12), (2, 13), (3, 14), (4, 15)]

/-- 76-91 for one gate: `replaced` are the tensors made so far, by name. -/
def biasStep (r : ℚ → ℤ) (buffer : String → List ℚ) (n : Lstm) (s : List (String × QBias) × List (ℕ × QBias)) (m : ℕ × ℕ) : List (String × QBias) × List (ℕ × QBias) :=
  let name := n.bias m.2
  let scale := n.weight m.1 * n.input.scale
  let new : QBias := ⟨(buffer name).map fun b => r (b / scale), scale⟩
  match s.1.lookup name with
  | some old => (s.1, s.2 ++ [(m.2, old)])
  | none => (s.1 ++ [(name, new)], s.2 ++ [(m.2, new)])

/-- 98-103: the scale of the cell state. -/
def cellPot (q : QP) : ℚ :=
  let most := q.scale * (127 - q.zp)
  let least := q.scale * (-128 - q.zp)
  2 ^ (max (Int.clog 2 (max |most| |least|)) 0)

/-- What an operator has afterwards: the biases by index, the quantization of the cell state, and of the intermediate tensor of the hidden state (110-129). -/
structure Out where
  biases : List (ℕ × QBias)
  state : QP
  cell : QP
  hidden : QP
  deriving DecidableEq

/-- One operator; `none`: `rev_q_mapping` has no cell output, a KeyError (98). -/
def lstmStep (r : ℚ → ℤ) (buffer : String → List ℚ) (replaced : List (String × QBias)) (n : Lstm) : Option (List (String × QBias) × Out) :=
  n.cellOut.map fun q =>
    let s := biasMapping.foldl (biasStep r buffer n) (replaced, [])
    (s.1, ⟨s.2, n.output, ⟨cellPot q / 32768, 0⟩, ⟨n.output.scale, 0⟩⟩)

/-- The pass. -/
def pass (r : ℚ → ℤ) (buffer : String → List ℚ) (replaced : List (String × QBias)) : List Lstm → Option (List Out)
  | [] => some []
  | n :: ns => (lstmStep r buffer replaced n).bind fun s => (pass r buffer s.1 ns).map (s.2 :: ·)

end Verif.Model.Int16Lstm
