import Verif.Model.FakeQuant
/-!
The weights of LSTMs that are kept out of quantization: they are rounded when the model is prepared, and put back when it is converted.

Modelled code:
  tinynn/graph/quantization/quantizer.py
    QATQuantizer.fake_quantize_lstm_weights  (3548-3568)
    QATQuantizer.restore_lstm_weights        (3570-3578)
    QATQuantizer.convert                     (3244-3245, the call of the latter)
  tinynn/graph/quantization/utils.py
    fake_quantize                            (88-102)
Floats are real numbers.
-/

namespace Verif.Model.LstmWeights
open Verif.Model

/-- A matrix, row by row. -/
abbrev Mat := List (List ℝ)

/-- `max_val` of `torch.aminmax`, utils.py 89 (of a list that is not empty). -/
noncomputable def maxL : List ℝ → ℝ
  | [] => 0
  | [x] => x
  | x :: y :: r => max x (maxL (y :: r))

/-- `min_val` of `torch.aminmax`, utils.py 89. -/
noncomputable def minL : List ℝ → ℝ
  | [] => 0
  | [x] => x
  | x :: y :: r => min x (minL (y :: r))

/-- utils.py 92-95.  Simplification: the asymmetric branch (96-100) is left out; no caller asks for it. -/
noncomputable def scaleOf (eps : ℝ) (qmin qmax : Int) (xs : List ℝ) : ℝ :=
  max (max (-minL xs) (maxL xs) / (((qmax - qmin : Int) : ℝ) / 2)) eps

/-- `torch.fake_quantize_per_tensor_affine` with zero point 0, utils.py 102. -/
noncomputable def fq1 (scale : ℝ) (qmin qmax : Int) (x : ℝ) : ℝ := ((clampInt qmin qmax (0 + roundEven (x * (1 / scale))) - 0 : Int) : ℝ) * scale

/-- utils.py 88-102 on one part of a matrix. -/
noncomputable def fqPart (eps : ℝ) (qmin qmax : Int) (p : Mat) : Mat := p.map (List.map (fq1 (scaleOf eps qmin qmax p.flatten) qmin qmax))

/-- `torch.chunk(weight, 4)`: parts of a quarter of the rows, rounded up. -/
def chunk4 (m : Mat) : List Mat :=
  let c := (m.length + 3) / 4
  [m.take c, (m.drop c).take c, (m.drop (2 * c)).take c, (m.drop (3 * c)).take c]

/-- `_lstm_weight_fake_quantize`, quantizer.py 3549-3560, for a matrix whose rows come in four gates (for other numbers of rows `torch.chunk` may return fewer parts, and the code fails). -/
noncomputable def fqWeight (eps : ℝ) (m : Mat) : Mat := if m.flatten.length = 0 then m else ((chunk4 m).map (fqPart eps (-127) 127)).flatten

/-- A module: its name, whether it is an `nn.LSTM`, its first pair of weights and all others (deeper layers, the reverse direction). -/
structure Layer where
  name : String
  lstm : Bool
  ih : Mat
  hh : Mat
  rest : List Mat

/-- `f"{name}.{weight_name}"`, 3567 and 3575. -/
def key (name w : String) : String := name ++ ("." ++ w)

/-- 3563-3568: the weights of the model are replaced, the old ones are remembered under their names. -/
noncomputable def prepare (eps : ℝ) : List Layer → List Layer × List (String × Mat)
  | [] => ([], [])
  | l :: r =>
    let p := prepare eps r
    if l.lstm then
      ({ l with ih := fqWeight eps l.ih, hh := fqWeight eps l.hh } :: p.1, (key l.name "weight_ih_l0", l.ih) :: (key l.name "weight_hh_l0", l.hh) :: p.2)
    else (l :: p.1, p.2)

/-- 3570-3577. -/
def restore (d : List (String × Mat)) (net : List Layer) : List Layer :=
  net.map fun l =>
    if l.lstm then { l with ih := (d.lookup (key l.name "weight_ih_l0")).getD l.ih, hh := (d.lookup (key l.name "weight_hh_l0")).getD l.hh }
    else l

/-- What `convert` does to the weights: they are put back, and what was remembered is forgotten (3578). -/
def convertWeights (d : List (String × Mat)) (net : List Layer) : List Layer × List (String × Mat) := (restore d net, [])

end Verif.Model.LstmWeights
