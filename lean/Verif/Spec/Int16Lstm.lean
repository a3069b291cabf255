import Mathlib.Data.Int.Log
import Mathlib.Data.Rat.Floor
import Mathlib.Algebra.Order.Field.Basic
/-!
Quantized numbers and what the integer LSTM kernel of TFLite (8-bit weights and activations, 16-bit cell state) does with its tensors.  Independent of the code in `/repo`.
-/

namespace Verif.Spec.Int16Lstm

/-- Rounding to a nearest integer; ties either way. -/
def Nearest (r : ℚ → ℤ) : Prop := ∀ x, |(r x : ℚ) - x| ≤ 1 / 2

/-- Scale and zero point of a tensor. -/
structure QP where
  scale : ℚ
  zp : ℤ
  deriving DecidableEq

/-- The number a stored integer stands for. -/
def QP.value (p : QP) (q : ℤ) : ℚ := p.scale * (q - p.zp)

/-- The integer stored for a number in a type with the given range. -/
def QP.store (p : QP) (r : ℚ → ℤ) (lo hi : ℤ) (x : ℚ) : ℤ := max lo (min hi (r (x / p.scale) + p.zp))

/-- The four gates, in the order of the operator's inputs. -/
inductive Gate where
  | input | forget | cell | output
  deriving DecidableEq

/-- The inputs of `UNIDIRECTIONAL_SEQUENCE_LSTM` that hold the weights for the input and the biases of a gate. -/
def Gate.weightIndex : Gate → ℕ
  | .input => 1 | .forget => 2 | .cell => 3 | .output => 4

def Gate.biasIndex : Gate → ℕ
  | .input => 12 | .forget => 13 | .cell => 14 | .output => 15

/-- What the kernel adds for a bias: it adds the stored integer to sums of products of weights and inputs, whose unit is the product of the two scales. -/
def biasEffect (weightScale inputScale : ℚ) (stored : ℤ) : ℚ := stored * (weightScale * inputScale)

/-- What the kernel stores for an element of the hidden state: `hidden` is the quantization of the intermediate tensor. -/
def hiddenCode (r : ℚ → ℤ) (hidden : QP) (y : ℚ) : ℤ := hidden.store r (-128) 127 y

end Verif.Spec.Int16Lstm
